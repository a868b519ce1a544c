import Verif.Props.Parsing
import Verif.Pipeline

/-!
# C54: the line of a syntax error is a line of the file
-/

namespace Amanda

open Pipeline (fileLines)

/-- `n` is the number of a line of the text: some character of the text comes after exactly `n - 1`
line feeds. -/
def LineOf (src : List Char) (n : Nat) : Prop :=
  ∃ pre c post, src = pre ++ c :: post ∧ n = 1 + pre.count '\n'

/-! ## Lines -/

theorem lines_cons (c : Char) (cs : List Char) : (fileLines cs).length ≤ (fileLines (c :: cs)).length := by
  simp only [fileLines]
  split
  · simp
  · split
    next h => simp [h]
    next h => simp [h]

theorem lines_nl (cs : List Char) : (fileLines ('\n' :: cs)).length = (fileLines cs).length + 1 := by
  simp [fileLines]

theorem lines_append (a b : List Char) : (fileLines b).length ≤ (fileLines (a ++ b)).length := by
  induction a with
  | nil => simp
  | cons c a ih => exact Nat.le_trans ih (lines_cons c _)

theorem lines_pos {cs : List Char} (h : cs ≠ []) : 1 ≤ (fileLines cs).length := by
  cases cs with
  | nil => simp at h
  | cons c cs =>
      simp only [fileLines]
      split
      · simp
      · split <;> simp

/-- The lines of a text are numbered from 1 to the number of pieces Python's `for line in f` gives. -/
theorem lineOf_iff (src : List Char) (n : Nat) : LineOf src n ↔ 1 ≤ n ∧ n ≤ (fileLines src).length := by
  induction src generalizing n with
  | nil =>
      simp only [fileLines, List.length_nil]
      exact ⟨fun ⟨pre, c, post, h, _⟩ => by simp at h, fun h => by omega⟩
  | cons d ds ih =>
      by_cases hd : d = '\n'
      · subst hd
        rw [lines_nl]
        constructor
        · rintro ⟨pre, c, post, h, rfl⟩
          cases pre with
          | nil => simp
          | cons p pre =>
              simp only [List.cons_append, List.cons.injEq] at h
              obtain ⟨rfl, h⟩ := h
              have := (ih (1 + pre.count '\n')).mp ⟨pre, c, post, h, rfl⟩
              simp only [List.count_cons_self]
              omega
        · rintro ⟨h1, h2⟩
          by_cases h : n = 1
          · exact ⟨[], '\n', ds, rfl, by simp [h]⟩
          · obtain ⟨pre, c, post, hp, hn⟩ := (ih (n - 1)).mpr (by omega)
            exact ⟨'\n' :: pre, c, post, by simp [hp], by simp only [List.count_cons_self]; omega⟩
      · have hlen : (fileLines (d :: ds)).length = max 1 (fileLines ds).length := by
          simp only [fileLines, if_neg hd]
          split
          next h => simp [h]
          next h => simp [h]
        rw [hlen]
        constructor
        · rintro ⟨pre, c, post, h, rfl⟩
          cases pre with
          | nil => exact ⟨by simp, by simp only [List.count_nil]; omega⟩
          | cons p pre =>
              simp only [List.cons_append, List.cons.injEq] at h
              obtain ⟨rfl, h⟩ := h
              have := (ih (1 + pre.count '\n')).mp ⟨pre, c, post, h, rfl⟩
              rw [List.count_cons_of_ne (by simpa using hd)]
              omega
        · rintro ⟨h1, h2⟩
          by_cases h : n = 1
          · exact ⟨[], d, ds, rfl, by simp [h]⟩
          · obtain ⟨pre, c, post, hp, hn⟩ := (ih n).mpr (by omega)
            exact ⟨d :: pre, c, post, by simp [hp], by rw [List.count_cons_of_ne (by simpa using hd)]; exact hn⟩

/-! ## The lexer -/

/-- The lexer's line is one of `N` lines, and the rest of the text has no more lines than are left. -/
structure LineInv (N : Nat) (l : Lex) : Prop where
  pos : 1 ≤ l.line
  le : l.line ≤ N
  left : l.line + (fileLines l.rest).length ≤ N + 1

theorem token_newline {py : PyCfg} {l l' : Lex} {t : Token} (h : l.token py = .ok (t, l')) {c : Char} {cs : List Char}
    (hr : l.rest = c :: cs) (hc : c = '\n') (ht : t.tt ≠ .lexEof) : cs ≠ [] := by
  intro hcs
  simp only [Lex.token, hr, hc, hcs, and_self, ↓reduceIte, Except.ok.injEq, Prod.mk.injEq] at h
  exact ht (h.1 ▸ rfl)

theorem getToken_line {py : PyCfg} (hpy : py.Lawful) {N : Nat} {l l' : Lex} {t : Token} (hi : LineInv N l)
    (h : l.getToken py = .ok (t, l')) : t.line = l.line ∧ LineInv N l' := by
  obtain ⟨gap, text, hs, hg, hsp⟩ := getToken_spec hpy h
  have hl := hsp.line
  have hn := hsp.next
  rw [skip_line] at hl hn
  refine ⟨hl, ?_⟩
  by_cases hc : t.tt = .newline ∧ text = ['\n']
  · rw [if_pos hc] at hn
    have hsplit := hsp.split
    rw [hc.2, List.cons_append, List.nil_append] at hsplit
    have hne := token_newline h hsplit rfl (by rw [hc.1]; decide)
    have h1 := lines_pos hne
    have h2 := hi.left
    rw [hs, hc.2, List.append_assoc] at h2
    have h3 := lines_append gap ('\n' :: l'.rest)
    rw [lines_nl] at h3
    simp only [List.cons_append, List.nil_append] at h2
    exact ⟨by omega, by omega, by omega⟩
  · rw [if_neg hc] at hn
    have h2 := hi.left
    rw [hs] at h2
    have h3 := lines_append (gap ++ text) l'.rest
    exact ⟨by have := hi.pos; omega, by have := hi.le; omega, by omega⟩

/-- Reported errors carry the lexer's line. -/
theorem getToken_error_line {py : PyCfg} {l : Lex} {msg : String} {line : Nat} {col : Int}
    (h : l.getToken py = .error (.amanda msg line col)) : line = l.line := by
  have hk := skip_line py l
  simp only [Lex.getToken] at h
  generalize l.skip py = m at *
  rw [← hk]
  unfold Lex.token at h
  split at h
  next => simp at h
  next c cs hr =>
    split at h
    next => simp at h
    next =>
      split at h
      next => simp at h
      next =>
        split at h
        next =>
          obtain ⟨col, hc⟩ := string_error h
          simp only [PyErr.amanda.injEq] at hc
          exact hc.2.1
        next =>
          split at h
          next =>
            split at h
            next d hd =>
              split at h
              next =>
                simp only [Lex.formatStr, except_map_eq_error] at h
                obtain ⟨col, hc⟩ := string_error h
                simp only [PyErr.amanda.injEq] at hc
                simpa using hc.2.1
              next => simp at h
            next => simp at h
          next =>
            split at h
            next hdig =>
              simp only [Lex.number] at h
              have bad : ∀ (w : List Char) (lx : Lex), numberToken py w lx ≠ .error (.amanda msg line col) := by
                intro w lx hx
                have := (numberToken_error hx).1
                simp at this
              split at h
              · split at h
                · exact absurd h (bad _ _)
                · exact absurd h (bad _ _)
              · exact absurd h (bad _ _)
            next =>
              simp only [Lex.commonToks] at h
              have single : (match Token.fromChar [c] m.line m.pos with
                  | some t => .ok (t, m.advance)
                  | none => m.advance.invalidSymbol : Except PyErr (Token × Lex)) = .error (.amanda msg line col) →
                  line = m.line := by
                intro hm
                split at hm
                · simp at hm
                · simp only [Lex.invalidSymbol, Lex.error, Except.error.injEq, PyErr.amanda.injEq, advance_line] at hm
                  exact hm.2.1.symm
              split at h
              · split at h
                · simp at h
                · exact single h
              · exact single h

/-- The line is one of `N`. -/
def LineIn (N : Nat) (t : Token) : Prop := 1 ≤ t.line ∧ t.line ≤ N

/-- What the lexer delivers to the parser, by line. -/
theorem stream_lines {py : PyCfg} (hpy : py.Lawful) {N fuel : Nat} {l : Lex} (hi : LineInv N l) :
    (∀ t ∈ (l.stream py fuel).1, LineIn N t) ∧
    (∀ t, (l.stream py fuel).2 = .ok t → LineIn N t) ∧
    (∀ msg line col, (l.stream py fuel).2 = .error (.amanda msg line col) → 1 ≤ line ∧ line ≤ N) := by
  induction fuel generalizing l with
  | zero => simp [Lex.stream]
  | succ fuel ih =>
      unfold Lex.stream
      cases h : l.getToken py with
      | error e =>
          refine ⟨by simp, by simp, ?_⟩
          intro msg line col he
          simp only [Except.error.injEq] at he
          have := getToken_error_line (he ▸ h)
          exact ⟨this ▸ hi.pos, this ▸ hi.le⟩
      | ok p =>
          obtain ⟨t, l'⟩ := p
          obtain ⟨ht, hi'⟩ := getToken_line hpy hi h
          have htl : LineIn N t := ⟨ht ▸ hi.pos, ht ▸ hi.le⟩
          by_cases he : t.tt = .lexEof
          · simp only [he, ↓reduceIte, List.mem_singleton, forall_eq]
            refine ⟨htl, ?_, ?_⟩
            · intro u hu
              cases h2 : l'.getToken py with
              | error e => rw [h2] at hu; simp [Except.map] at hu
              | ok p =>
                  obtain ⟨u', l''⟩ := p
                  rw [h2] at hu
                  simp only [Except.map, Except.ok.injEq] at hu
                  have := (getToken_line hpy hi' h2).1
                  rw [← hu]
                  exact ⟨this ▸ hi'.pos, this ▸ hi'.le⟩
            · intro msg line col hu
              cases h2 : l'.getToken py with
              | error e =>
                  rw [h2] at hu
                  simp only [Except.map, Except.error.injEq] at hu
                  have := getToken_error_line (hu ▸ h2)
                  exact ⟨this ▸ hi'.pos, this ▸ hi'.le⟩
              | ok p => rw [h2] at hu; simp [Except.map] at hu
          · simp only [he, ↓reduceIte]
            obtain ⟨i1, i2, i3⟩ := ih hi'
            exact ⟨by simpa using ⟨htl, i1⟩, i2, i3⟩

theorem all_lines {py : PyCfg} (hpy : py.Lawful) {N fuel : Nat} {l : Lex} {toks : List Token} (hi : LineInv N l)
    (h : Lex.all py fuel l = .ok toks) : ∀ t ∈ toks, LineIn N t := by
  induction fuel generalizing l toks with
  | zero => simp [Lex.all] at h
  | succ fuel ih =>
      unfold Lex.all at h
      split at h
      next => simp at h
      next t l' ht =>
        obtain ⟨h1, hi'⟩ := getToken_line hpy hi ht
        have htl : LineIn N t := ⟨h1 ▸ hi.pos, h1 ▸ hi.le⟩
        split at h
        · simp only [Except.ok.injEq] at h
          subst h
          simpa using htl
        · simp only [except_map_eq_ok] at h
          obtain ⟨toks', h2, rfl⟩ := h
          simpa using ⟨htl, ih hi' h2⟩

/-- **C29**, second half, without restriction: the line given to a token is a line of the file. -/
theorem token_line_exists {py : PyCfg} (hpy : py.Lawful) {src : List Char} (hne : src ≠ []) {toks : List Token}
    (h : lexAll py src = .ok toks) : ∀ t ∈ toks, LineOf src t.line := by
  have hi : LineInv (fileLines src).length (Lex.init src) := by
    have := lines_pos hne
    exact ⟨Nat.le_refl _, this, by simp only [Lex.init]; omega⟩
  exact fun t ht => (lineOf_iff _ _).2 (all_lines hpy hi h t ht)

/-- A text with a string of two lines and a final line feed. -/
example : (lexAll samplePy "a\n'b\nc'\n".toList).toOption.map (fun ts => ts.map Token.line) = some [1, 1, 2, 2] ∧
    (fileLines "a\n'b\nc'\n".toList).length = 3 := by decide +kernel

/-! ## The parser -/

/-- Errors at one of `N` lines. -/
def ErrIn (N : Nat) (e : PyErr) : Prop := (∃ msg line col, e = .amanda msg line col ∧ 1 ≤ line ∧ line ≤ N) ∨ Escapes e

/-- Tokens of one of `N` lines. -/
def lineTokens {py : PyCfg} (hpy : py.Lawful) (N : Nat) : ParseCfg py where
  tok := LineIn N
  err := ErrIn N
  amanda := fun t ht m c => .inl ⟨m, t.line, c, rfl, ht.1, ht.2⟩
  badPattern := fun _ _ _ => .inr (.inr (.inr rfl))
  fmtEmpty := fun _ _ _ => .inr (.inr (.inl rfl))
  fmtInner := fun t ht hf M cs hl _ => by
    have := (recTot (K := anyTokens hpy) M).fmt t trivial hf cs hl
    cases hm : (PState.init py cs).bind (recN py M).equality with
    | ok p => trivial
    | error e =>
        rw [hm] at this
        cases e with
        | amanda m l c => trivial
        | exc x => exact this.elim (fun ⟨_, _, _, h⟩ => by simp at h) .inr
        | fuel => exact this.elim (fun ⟨_, _, _, h⟩ => by simp at h) .inr

/-- The parser's first state on a text. -/
theorem init_lines {py : PyCfg} (hpy : py.Lawful) {src : List Char} (hne : src ≠ []) :
    match PState.init py src with
    | .ok s => (lineTokens hpy (fileLines src).length).Good s ∧ s.weight ≤ src.length
    | .error e => (lineTokens hpy (fileLines src).length).err e := by
  have hi : LineInv (fileLines src).length (Lex.init src) := by
    have := lines_pos hne
    exact ⟨Nat.le_refl _, this, by simp only [Lex.init]; omega⟩
  obtain ⟨h1, h2, h3⟩ := stream_lines hpy (fuel := src.length + 1) hi
  have hany := init_spec hpy src (tok := fun _ => True) (err := fun e => Reported e ∨ Escapes e) (fun _ _ => trivial) (by
      rintro e (h | ⟨h, _⟩)
      · exact .inl h
      · exact .inr (.inl h))
  have herr : ∀ e, (Lex.stream py (src.length + 1) (Lex.init src)).2 = .error e → Reported e ∨ Escapes e →
      ErrIn (fileLines src).length e := by
    rintro e he (⟨m, ln, c, rfl⟩ | h)
    · exact .inl ⟨m, ln, c, rfl, h3 m ln c he⟩
    · exact .inr h
  revert hany
  unfold PState.init
  rcases hs : Lex.stream py (src.length + 1) (Lex.init src) with ⟨_ | ⟨t, ts⟩, e | u⟩
  all_goals simp only [hs] at h1 h2 herr
  · exact fun h => herr e rfl h
  · rintro ⟨hg, hw⟩
    exact ⟨⟨h2 u rfl, by simp, fun x hx => ⟨(hg.ended x hx).1, h2 x hx⟩, by simp⟩, hw⟩
  · rintro ⟨hg, hw⟩
    exact ⟨⟨h1 t (by simp), fun x hx => h1 x (by simp [hx]), by simp, fun e' he => herr e' he (hg.stopped e' he)⟩, hw⟩
  · rintro ⟨hg, hw⟩
    exact ⟨⟨h1 t (by simp), fun x hx => h1 x (by simp [hx]), fun x hx => ⟨(hg.ended x hx).1, h2 x hx⟩, by simp⟩, hw⟩

theorem parse_empty (py : PyCfg) : ∃ t, parse py [] = .ok t := ⟨_, rfl⟩

/-- **C54.** Every syntax error, of the lexer or the parser, on every text, names a line of the text. -/
theorem syntax_error_line {py : PyCfg} (hpy : py.Lawful) (src : List Char) {msg : String} {line : Nat} {col : Int}
    (h : parse py src = .error (.amanda msg line col)) : LineOf src line := by
  rw [lineOf_iff]
  by_cases hne : src = []
  · subst hne
    obtain ⟨t, ht⟩ := parse_empty py
    rw [ht] at h
    simp at h
  · rcases parse_from (lineTokens hpy (fileLines src).length) (init_lines hpy hne) with ⟨t, ht⟩ | ⟨e, he, hl⟩
    · rw [ht] at h; simp at h
    · rw [he] at h
      simp only [Except.error.injEq] at h
      subst h
      rcases hl with ⟨m, l, c, hx, h1, h2⟩ | hx | hx | hx
      · simp only [PyErr.amanda.injEq] at hx
        exact hx.2.1 ▸ ⟨h1, h2⟩
      all_goals simp at hx

/-- Two texts with a syntax error, one of the parser at the end of the file and one inside a format
string; the lines named exist. -/
example : parse samplePy "se x > 1 entao\n mostra x\n".toList =
      .error (.amanda "esperava-se a símbolo fim para terminar a directiva 'se'" 2 11) ∧
    LineOf "se x > 1 entao\n mostra x\n".toList 2 ∧ ¬ LineOf "se x > 1 entao\n mostra x\n".toList 3 :=
  ⟨errOf_some (by decide +kernel), (lineOf_iff _ _).mpr (by decide +kernel), fun h => absurd ((lineOf_iff _ _).mp h) (by decide +kernel)⟩

example : parse samplePy "x = 1\n\nmostra f'{x +}'".toList =
    .error (.amanda "início inválido de expressão: ''" 3 10) := errOf_some (by decide +kernel)

end Amanda

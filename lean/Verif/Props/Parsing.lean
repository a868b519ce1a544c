import Verif.ParserTotal
import Verif.Props.Lexing

/-!
# C32: parsing ends
-/

namespace Amanda

/-! ## The tokens of a text -/

/-- A format string's text is longer than what it denotes. -/
theorem getToken_weight {py : PyCfg} (hpy : py.Lawful) {l l' : Lex} {t : Token}
    (h : l.getToken py = .ok (t, l')) : t.weight + l'.rest.length ≤ l.rest.length := by
  obtain ⟨gap, text, hs, _, hsp⟩ := getToken_spec hpy h
  have key : t.weight ≤ text.length := by
    by_cases he : t.tt = .lexEof
    · rw [weight_eof he]; omega
    · have hpos := List.length_pos_iff.mpr (hsp.nonempty he)
      by_cases hf : t.tt = .formatStr
      · have hk : ∀ q ∈ keywordTable, q.2 ≠ .formatStr := by decide
        have hs : ∀ q ∈ symbolTable, q.2 ≠ .formatStr := by decide
        have hsp := hsp.spells
        cases hsp with
        | keyword hm => exact absurd hf (hk _ hm)
        | symbol hm => exact absurd hf (hs _ hm)
        | fstring _ hlen _ =>
            simp [Token.weight, Token.chars, Lexeme.chars]; omega
        | _ => simp at hf
      · simp [Token.weight, he, hf]; omega
  rw [hs]; simp; omega

/-- What the lexer delivers to the parser. -/
theorem stream_spec {py : PyCfg} (hpy : py.Lawful) {fuel : Nat} {l : Lex} (hf : l.rest.length < fuel) :
    (∀ t ∈ (l.stream py fuel).1, ∃ text, text <:+: l.rest ∧ Spells py text t) ∧
    ((l.stream py fuel).1.map Token.weight).sum ≤ l.rest.length ∧
    (∀ t, (l.stream py fuel).2 = .ok t → t.tt = .lexEof ∧ (l.stream py fuel).1 ≠ []) ∧
    (∀ e, (l.stream py fuel).2 = .error e → (∃ msg line col, e = .amanda msg line col) ∨
      (e = .exc "ValueError" ∧ ∃ text, text <:+: l.rest ∧ BadNumeral py text)) := by
  induction fuel generalizing l with
  | zero => omega
  | succ fuel ih =>
      unfold Lex.stream
      cases h : l.getToken py with
      | error e => exact ⟨by simp, by simp, by simp, by simpa using getToken_error hpy h⟩
      | ok p =>
          obtain ⟨t, l'⟩ := p
          obtain ⟨gap, text, hs, hg, hsp⟩ := getToken_spec hpy h
          have hw := getToken_weight hpy h
          have hin : l'.rest <:+: l.rest := ⟨gap ++ text, [], by simp [hs]⟩
          have htok : ∃ text, text <:+: l.rest ∧ Spells py text t :=
            ⟨text, ⟨gap, l'.rest, by simp [hs]⟩, hsp.spells⟩
          by_cases he : t.tt = .lexEof
          · simp only [he, ↓reduceIte, List.mem_singleton, forall_eq]
            have hnil := hsp.final he
            have h3 : l'.getToken py = .ok ({ tt := .lexEof, lexeme := .text [], line := l'.line, col := l'.pos }, l') := by
              simp [Lex.getToken, Lex.skip, Lex.token, hnil]
            refine ⟨htok, ?_, ?_, ?_⟩
            · simp; omega
            · intro u hu
              rw [h3] at hu
              simp only [Except.map, Except.ok.injEq] at hu
              exact ⟨by rw [← hu], by simp⟩
            · intro e hu
              rw [h3] at hu
              simp [Except.map] at hu
          · simp only [he, ↓reduceIte]
            have hsh := getToken_shrinks hpy h he
            obtain ⟨i1, i2, i3, i4⟩ := ih (l := l') (by omega)
            refine ⟨?_, ?_, ?_, ?_⟩
            · intro u hu
              rcases List.mem_cons.mp hu with rfl | hu
              · exact htok
              · obtain ⟨w, hw, hsw⟩ := i1 u hu
                exact ⟨w, hw.trans hin, hsw⟩
            · simp; omega
            · exact fun u hu => ⟨(i3 u hu).1, by simp⟩
            · intro e hu
              rcases i4 e hu with h4 | ⟨h4, w, hw, hb⟩
              · exact .inl h4
              · exact .inr ⟨h4, w, hw.trans hin, hb⟩

/-- The parser's first state on a text. -/
theorem init_spec {py : PyCfg} (hpy : py.Lawful) (src : List Char) {tok : Token → Prop} {err : PyErr → Prop}
    (htok : ∀ t, (∃ text, text <:+: src ∧ Spells py text t) ∨ t.tt = .lexEof → tok t)
    (herr : ∀ e, (∃ msg line col, e = .amanda msg line col) ∨
      (e = .exc "ValueError" ∧ ∃ text, text <:+: src ∧ BadNumeral py text) → err e) :
    match PState.init py src with
    | .ok s => GoodState tok err s ∧ s.weight ≤ src.length
    | .error e => err e := by
  obtain ⟨h1, h2, h3, h4⟩ := stream_spec hpy (fuel := src.length + 1) (l := Lex.init src) (by simp [Lex.init])
  simp only [Lex.init] at h1 h2 h4
  unfold PState.init
  rcases hs : Lex.stream py (src.length + 1) (Lex.init src) with ⟨_ | ⟨t, ts⟩, e | u⟩
  all_goals simp only [Lex.init] at hs
  all_goals simp only [Lex.init, hs] at h1 h2 h3 h4
  · exact herr _ (h4 e rfl)
  · exact absurd rfl (h3 u rfl).2
  · refine ⟨⟨htok _ (.inl (h1 t (by simp))), fun x hx => htok _ (.inl (h1 x (by simp [hx]))), by simp, ?_⟩, ?_⟩
    · intro e' he
      simp only [Except.error.injEq] at he
      exact he ▸ herr _ (h4 e rfl)
    · simpa [PState.weight] using h2
  · refine ⟨⟨htok _ (.inl (h1 t (by simp))), fun x hx => htok _ (.inl (h1 x (by simp [hx]))), ?_, by simp⟩, ?_⟩
    · intro x hx
      simp only [Except.ok.injEq] at hx
      exact ⟨hx ▸ (h3 u rfl).1, htok _ (.inr (hx ▸ (h3 u rfl).1))⟩
    · simpa [PState.weight] using h2

/-! ## C32 -/

/-- The error of a result. -/
def errOf {α : Type} : Except PyErr α → Option PyErr
  | .ok _ => none
  | .error e => some e

theorem errOf_some {α : Type} {x : Except PyErr α} {e : PyErr} (h : errOf x = some e) : x = .error e := by
  cases x with
  | ok _ => simp [errOf] at h
  | error _ => simp only [errOf, Option.some.injEq] at h; rw [h]

/-- The exceptions that escape the parser: Python's own on a numeral it refuses, on an empty format
string and on a constant pattern that is not an integer or a text. -/
def Escapes (e : PyErr) : Prop :=
  e = .exc "ValueError" ∨ e = .exc "IndexError" ∨ e = .exc "NotImplementedError"

/-- A reported error. -/
def Reported (e : PyErr) : Prop := ∃ msg line col, e = .amanda msg line col

/-- Any tokens; the errors of `Reported` and `Escapes`. -/
def anyTokens {py : PyCfg} (hpy : py.Lawful) : ParseCfg py where
  tok := fun _ => True
  err := fun e => Reported e ∨ Escapes e
  amanda := fun t _ m c => .inl ⟨m, t.line, c, rfl⟩
  badPattern := fun _ _ _ => .inr (.inr (.inr rfl))
  fmtEmpty := fun _ _ _ => .inr (.inr (.inl rfl))
  fmtInner := fun _ _ _ N cs hl heq => by
    have hi := init_spec hpy cs (tok := fun _ => True) (err := fun e => Reported e ∨ Escapes e) (fun _ _ => trivial) (by
      rintro e (h | ⟨h, _⟩)
      · exact .inl h
      · exact .inr (.inl h))
    have out : ∀ e : PyErr, Reported e ∨ Escapes e →
        InnerOk (fun e => Reported e ∨ Escapes e) (.error e : Except PyErr (Expr × PState)) := by
      intro e h
      cases e <;> trivial
    cases hp : PState.init py cs with
    | error e => rw [hp] at hi; exact out e hi
    | ok s =>
        rw [hp] at hi
        have := heq s hi.1 (by have := hi.2; omega)
        simp only [Except.bind]
        cases hm : (recN py N).equality s with
        | ok p => trivial
        | error e => rw [hm] at this; exact out e this

/-- Tokens without `iguala` and format strings; reported errors only. -/
def plainTokens (py : PyCfg) : ParseCfg py where
  tok := fun t => t.tt ≠ .iguala ∧ t.tt ≠ .formatStr
  err := Reported
  amanda := fun t _ m c => ⟨m, t.line, c, rfl⟩
  badPattern := fun _ h h' => absurd h' h.1
  fmtEmpty := fun _ h h' => absurd h' h.2
  fmtInner := fun _ h h' => absurd h' h.2

/-- The whole parser on the state a text begins with. -/
theorem parse_from {py : PyCfg} (K : ParseCfg py) {src : List Char}
    (h : match PState.init py src with
      | .ok s => K.Good s ∧ s.weight ≤ src.length
      | .error e => K.err e) :
    (∃ t, parse py src = .ok t) ∨ ∃ e, parse py src = .error e ∧ K.err e := by
  unfold parse
  cases hs : PState.init py src with
  | error e => rw [hs] at h; exact .inr ⟨e, rfl, h⟩
  | ok s =>
      rw [hs] at h
      have := tot_moduleL (K := K) (recTot (s.weight + 1)) (Nat.le_succ _) (Q := fun _ => True) s h.1 (by omega) trivial
      simp only [bind, Except.bind, pure, Except.pure]
      cases hm : moduleL py (recN py (s.weight + 1)) s with
      | error e => rw [hm] at this; exact .inr ⟨e, rfl, this⟩
      | ok p => exact .inl ⟨p.1, rfl⟩

/-- **C32.** On every text the parser stops: it returns a tree, or reports an error, or lets one of
three Python exceptions escape.  The bounds on rounds and on nested calls that the model puts on
`while` loops and recursion (outcome `.fuel`) are never reached.

Partial: the property also excludes the third case; see `parsing_ends_violated`. -/
theorem parsing_ends_partial {py : PyCfg} (hpy : py.Lawful) (src : List Char) :
    (∃ t, parse py src = .ok t) ∨
    (∃ msg line col, parse py src = .error (.amanda msg line col)) ∨
    (∃ name, parse py src = .error (.exc name) ∧
      (name = "ValueError" ∨ name = "IndexError" ∨ name = "NotImplementedError")) := by
  rcases parse_from (anyTokens hpy) (src := src)
    (init_spec hpy src (fun _ _ => trivial) (by
      rintro e (h | ⟨h, _⟩)
      · exact .inl h
      · exact .inr (.inl h))) with h | ⟨e, h, ⟨m, l, c, rfl⟩ | rfl | rfl | rfl⟩
  · exact .inl h
  · exact .inr (.inl ⟨m, l, c, h⟩)
  · exact .inr (.inr ⟨_, h, .inl rfl⟩)
  · exact .inr (.inr ⟨_, h, .inr (.inl rfl)⟩)
  · exact .inr (.inr ⟨_, h, .inr (.inr rfl)⟩)

/-- **C32** for ASCII texts with numerals of at most 4300 digits that contain neither the word
`iguala` nor the beginning of a format string: a tree or a reported error, nothing else. -/
theorem parsing_ends_plain {py : PyCfg} (hpy : py.Lawful) (src : List Char)
    (hascii : ∀ c ∈ src, c.toNat < 128)
    (hshort : ∀ w, w <:+: src → (∀ c ∈ w, c.isDigit = true) → w.length ≤ 4300)
    (higuala : ¬ "iguala".toList <:+: src)
    (hfmt : ¬ "f\"".toList <:+: src ∧ ¬ "f'".toList <:+: src) :
    (∃ t, parse py src = .ok t) ∨ (∃ msg line col, parse py src = .error (.amanda msg line col)) := by
  have hk : ∀ q ∈ keywordTable, q.2 ≠ .formatStr ∧ (q.2 = .iguala → q.1 = "iguala".toList) := by decide
  have hs : ∀ q ∈ symbolTable, q.2 ≠ .formatStr ∧ q.2 ≠ .iguala := by decide
  have := parse_from (plainTokens py) (src := src) (init_spec hpy src (by
      rintro t (⟨w, hw, hsp⟩ | h)
      · cases hsp with
        | keyword hm =>
            refine ⟨fun h => ?_, (hk _ hm).1⟩
            exact higuala ((hk _ hm).2 h ▸ hw)
        | symbol hm => exact ⟨(hs _ hm).2, (hs _ hm).1⟩
        | @fstring q body s _ _ hq _ _ =>
            have hin : ['f', q] <:+: 'f' :: q :: body := ⟨[], body, by simp⟩
            have := hin.trans hw
            rcases hq with rfl | rfl
            · exact absurd this hfmt.2
            · exact absurd this hfmt.1
        | _ => exact ⟨by simp, by simp⟩
      · simp [plainTokens, h]) (by
      rintro e (h | ⟨_, w, hw, hbad⟩)
      · exact h
      · exact (ascii_no_bad_numeral hpy hascii hshort hw hbad).elim))
  rcases this with h | ⟨e, h, m, l, c, rfl⟩
  · exact .inl h
  · exact .inr ⟨m, l, c, h⟩

/-- A text meeting the hypotheses of `parsing_ends_plain`, and its outcome. -/
example : let src := "se x > 1 entao\n mostra x\nfim".toList
    (∀ c ∈ src, c.toNat < 128) ∧ (∀ w, w <:+: src → (∀ c ∈ w, c.isDigit = true) → w.length ≤ 4300) ∧
    ¬ "iguala".toList <:+: src ∧ ¬ "f\"".toList <:+: src ∧ ¬ "f'".toList <:+: src ∧
    (parse samplePy src).toOption.isSome = true := by
  refine ⟨by decide +kernel, fun w hw _ => Nat.le_trans hw.length_le (by decide +kernel), ?_, ?_, ?_, by decide +kernel⟩ <;>
    decide +kernel

/-- And one that is refused. -/
example : parse samplePy "se x > 1 entao\n mostra x".toList =
    .error (.amanda "esperava-se a símbolo fim para terminar a directiva 'se'" 2 10) :=
  errOf_some (by decide +kernel)

/-- **C32** for the tokens themselves: on every sequence of tokens, followed by the end token for
ever, the parser returns a tree, reports an error or lets one of the three exceptions escape. -/
theorem parsing_tokens_end_partial {py : PyCfg} (hpy : py.Lawful) (first : Token) (toks : List Token) (line : Nat)
    (col : Int) :
    let s : PState := { look := first, rest := toks, last := .ok ⟨.lexEof, .text [], line, col⟩ }
    (∃ t s', moduleL py (recN py (s.weight + 1)) s = .ok (t, s')) ∨
    (∃ msg line col, moduleL py (recN py (s.weight + 1)) s = .error (.amanda msg line col)) ∨
    (∃ name, moduleL py (recN py (s.weight + 1)) s = .error (.exc name) ∧
      (name = "ValueError" ∨ name = "IndexError" ∨ name = "NotImplementedError")) := by
  intro s
  have := tot_moduleL (K := anyTokens hpy) (recTot (s.weight + 1)) (Nat.le_succ _) (Q := fun _ => True) s
    ⟨trivial, fun _ _ => trivial, fun t h => ⟨by simp only [s, Except.ok.injEq] at h; rw [← h], trivial⟩, by simp [s]⟩
    (by omega) trivial
  cases hm : moduleL py (recN py (s.weight + 1)) s with
  | ok p => exact .inl ⟨p.1, p.2, rfl⟩
  | error e =>
      rw [hm] at this
      rcases this with ⟨m, l, c, rfl⟩ | rfl | rfl | rfl
      · exact .inr (.inl ⟨m, l, c, rfl⟩)
      · exact .inr (.inr ⟨_, rfl, .inl rfl⟩)
      · exact .inr (.inr ⟨_, rfl, .inr (.inl rfl)⟩)
      · exact .inr (.inr ⟨_, rfl, .inr (.inr rfl)⟩)

/-- **C32 fails**: an empty format string, a constant pattern that is not an integer or a text, and
a superscript digit each make the parser die with an uncaught exception. -/
theorem parsing_ends_violated :
    parse samplePy "mostra f\"\"".toList = .error (.exc "IndexError") ∧
    parse samplePy "iguala x\n  1.5 => 1\nfim".toList = .error (.exc "NotImplementedError") ∧
    parse samplePy "x = ²".toList = .error (.exc "ValueError") :=
  ⟨errOf_some (by decide +kernel), errOf_some (by decide +kernel), errOf_some (by decide +kernel)⟩

end Amanda

import Verif.LexLemmas
import Verif.Loader
import Verif.PyModel
import Mathlib.Tactic.ByContra

/-!
# C26-C30: what the lexer makes of a source text
-/

namespace Amanda

/-! ## Specification: how a text is divided into tokens -/

/-- Blanks, then possibly a comment up to the end of the line. -/
def IsGap (py : PyCfg) (gap : List Char) : Prop :=
  ∃ blanks comment, gap = blanks ++ comment ∧ (∀ c ∈ blanks, py.isSpace c = true ∧ c ≠ '\n') ∧
    (comment = [] ∨ ∃ w, comment = '#' :: w ∧ '\n' ∉ w)

/-- A word: letters, digits and underscores, not starting with a digit. -/
def IsWord (py : PyCfg) (w : List Char) : Prop :=
  (∃ c cs, w = c :: cs ∧ (py.isAlpha c = true ∨ c = '_')) ∧
    ∀ c ∈ w.tail, py.isAlnum c = true ∨ c = '_'

/-- The characters `text` are a spelling of token `t`.  For a quoted literal with backslashes only
its beginning is fixed here; `StringText` below describes those. -/
inductive Spells (py : PyCfg) : List Char → Token → Prop
  | word {w line col} : IsWord py w → (∀ tt, (w, tt) ∉ keywordTable) →
      Spells py w ⟨.identifier, .text w, line, col⟩
  | keyword {w tt line col} : (w, tt) ∈ keywordTable → Spells py w ⟨tt, .text w, line, col⟩
  | symbol {w tt line col} : (w, tt) ∈ symbolTable → Spells py w ⟨tt, .text w, line, col⟩
  | newline {line col} : Spells py ['\n'] ⟨.newline, .text ['\\', 'n'], line, col⟩
  | integer {w n line col} : w ≠ [] → (∀ c ∈ w, py.isDigit c = true) → py.parseInt w = some n →
      Spells py w ⟨.integer, .int n, line, col⟩
  | real {a b r line col} : a ≠ [] → (∀ c ∈ a, py.isDigit c = true) → b ≠ [] →
      (∀ c ∈ b, py.isDigit c = true) → py.parseReal (a ++ '.' :: b) = some r →
      Spells py (a ++ '.' :: b) ⟨.real, .real r, line, col⟩
  | string {q body s line col} : (q = '\'' ∨ q = '"') → s.length < body.length →
      ('\\' ∉ body → body = s ++ [q] ∧ q ∉ s) →
      Spells py (q :: body) ⟨.string, .text (q :: s ++ [q]), line, col⟩
  | fstring {q body s line col} : (q = '\'' ∨ q = '"') → s.length < body.length →
      ('\\' ∉ body → body = s ++ [q] ∧ q ∉ s) →
      Spells py ('f' :: q :: body) ⟨.formatStr, .text (q :: s ++ [q]), line, col⟩
  | eof {line col} : Spells py [] ⟨.lexEof, .text [], line, col⟩
  | eofNewline {line col} : Spells py ['\n'] ⟨.lexEof, .text [], line, col⟩

/-- `text`, spelled by `t`, could not have been continued with the characters `rest` that follow
it: words are followed by a character no word contains, numerals by no digit, and a one-character
symbol is not the beginning of a two-character one. -/
def Maximal (py : PyCfg) (text : List Char) (t : Token) (rest : List Char) : Prop :=
  (∀ c cs, rest = c :: cs →
    ((t.tt = .identifier ∨ (text, t.tt) ∈ keywordTable) → ¬ (py.isAlnum c = true ∨ c = '_')) ∧
    ((t.tt = .integer ∨ t.tt = .real) → ¬ py.isDigit c = true) ∧
    ((text, t.tt) ∈ symbolTable → text.length = 1 → ∀ tt, (text ++ [c], tt) ∉ symbolTable)) ∧
  (t.tt = .integer → ∀ d ds, rest = '.' :: d :: ds → ¬ py.isDigit d = true)

/-- One token with the text it was read from. -/
structure Piece where
  gap : List Char
  text : List Char
  tok : Token

def Piece.chars (p : Piece) : List Char := p.gap ++ p.text

/-- The characters of a list of pieces. -/
def piecesText (ps : List Piece) : List Char := ps.flatMap Piece.chars

/-- Line breaks in a text. -/
def breaks (cs : List Char) : Nat := cs.count '\n'

/-- The literal spans several lines. -/
def Piece.multiline (p : Piece) : Prop :=
  (p.tok.tt = .string ∨ p.tok.tt = .formatStr) ∧ '\n' ∈ p.text

/-! ## One token -/

theorem lookup_mem {α β : Type} [BEq α] [LawfulBEq α] {k : α} {v : β} {l : List (α × β)}
    (h : l.lookup k = some v) : (k, v) ∈ l := by
  induction l with
  | nil => simp at h
  | cons p l ih =>
      obtain ⟨k', v'⟩ := p
      rw [List.lookup_cons] at h
      split at h
      next hk =>
        simp only [beq_iff_eq] at hk
        simp only [Option.some.injEq] at h
        simp [hk, h]
      next => exact List.mem_cons_of_mem _ (ih h)

theorem lookup_none {α β : Type} [BEq α] [LawfulBEq α] {k : α} {l : List (α × β)}
    (h : l.lookup k = none) (v : β) : (k, v) ∉ l := by
  induction l with
  | nil => simp
  | cons p l ih =>
      obtain ⟨k', v'⟩ := p
      rw [List.lookup_cons] at h
      split at h
      next => simp at h
      next hk =>
        simp only [List.mem_cons, Prod.mk.injEq, not_or, not_and]
        exact ⟨fun e => by simp [e] at hk, ih h⟩

theorem takeWhile_all {α : Type} {p : α → Bool} {l : List α} {a : α}
    (h : a ∈ l.takeWhile p) : p a = true := by
  induction l with
  | nil => simp at h
  | cons b l ih =>
      rw [List.takeWhile_cons] at h
      split at h
      · simp only [List.mem_cons] at h
        rcases h with rfl | h
        · assumption
        · exact ih h
      · simp at h

theorem dropWhile_head {α : Type} {p : α → Bool} {l r : List α} {a : α}
    (h : l.dropWhile p = a :: r) : p a = false := by
  induction l with
  | nil => simp at h
  | cons b l ih =>
      rw [List.dropWhile_cons] at h
      split at h
      · exact ih h
      next hb =>
        simp only [List.cons.injEq] at h
        rw [← h.1]; simpa using hb

theorem comment_gap {l : Lex} (h : l.rest.head? = some '#') :
    ∃ w, l.rest = ('#' :: w) ++ l.comment.rest ∧ '\n' ∉ w := by
  rcases hr : l.rest with _ | ⟨c, cs⟩
  · simp [hr] at h
  · simp only [hr, List.head?_cons, Option.some.injEq] at h
    subst h
    refine ⟨cs.takeWhile (fun c => c != '\n'), ?_, ?_⟩
    · simp [hr]
    · intro hm
      have := takeWhile_all hm
      simp at this

theorem whitespace_gap (py : PyCfg) (l : Lex) :
    ∃ gap, l.rest = gap ++ (l.whitespace py).rest ∧ IsGap py gap := by
  have e1 : l.rest = l.rest.takeWhile (fun c => c != '\n' && py.isSpace c) ++
      (l.span fun c => c != '\n' && py.isSpace c).2.rest := by simp
  have b1 : ∀ c ∈ l.rest.takeWhile (fun c => c != '\n' && py.isSpace c),
      py.isSpace c = true ∧ c ≠ '\n' := by
    intro c hc
    have := takeWhile_all hc
    simp only [Bool.and_eq_true, bne_iff_ne, ne_eq] at this
    exact ⟨this.2, this.1⟩
  simp only [Lex.whitespace]
  split
  next h =>
    obtain ⟨w, hw, hn⟩ := comment_gap h
    refine ⟨_, ?_, _, '#' :: w, rfl, b1, .inr ⟨w, rfl, hn⟩⟩
    rw [List.append_assoc, ← hw]; exact e1
  next h =>
    exact ⟨_, e1, _, [], by simp, b1, .inl rfl⟩

theorem skip_gap (py : PyCfg) (l : Lex) :
    ∃ gap, l.rest = gap ++ (l.skip py).rest ∧ IsGap py gap := by
  by_cases hc : l.rest.head? = some '#'
  · obtain ⟨w, hw, hn⟩ := comment_gap hc
    have hskip : l.skip py = l.comment := by
      simp only [Lex.skip, hc, ↓reduceIte]
      split
      next c cs hr =>
        rw [comment_rest] at hr
        have := dropWhile_head hr
        simp only [bne_eq_false_iff_eq] at this
        simp [this]
      next => rfl
    rw [hskip]
    exact ⟨_, hw, [], '#' :: w, by simp, by simp, .inr ⟨w, rfl, hn⟩⟩
  · simp only [Lex.skip, hc, ↓reduceIte]
    split
    next c cs hr =>
      split
      · exact whitespace_gap py l
      · exact ⟨[], by simp, [], [], by simp, by simp, .inl rfl⟩
    next => exact ⟨[], by simp, [], [], by simp, by simp, .inl rfl⟩

/-- The facts about one token. -/
structure TokenSpec (py : PyCfg) (l : Lex) (text : List Char) (t : Token) (l' : Lex) : Prop where
  split : l.rest = text ++ l'.rest
  spells : Spells py text t
  maximal : Maximal py text t l'.rest
  line : t.line = l.line
  next : l'.line = l.line + (if t.tt = .newline ∧ text = ['\n'] then 1 else 0)
  nonempty : t.tt ≠ .lexEof → text ≠ []
  final : t.tt = .lexEof → l'.rest = []

theorem symbol_not_nl (tt : TT) : (['\n'], tt) ∉ symbolTable := by
  have h : ∀ p ∈ symbolTable, p.1 ≠ ['\n'] := by decide
  exact fun hm => h _ hm rfl

theorem symbol_not_eof : ∀ p ∈ symbolTable, p.2 ≠ .lexEof ∧ p.2 ≠ .identifier ∧ p.2 ≠ .integer ∧ p.2 ≠ .real ∧
    (∀ q ∈ keywordTable, q.2 ≠ p.2) ∧ p.1 ≠ [] := by decide

theorem keyword_facts : ∀ p ∈ keywordTable, p.2 ≠ .lexEof ∧ p.2 ≠ .newline ∧ p.2 ≠ .integer ∧ p.2 ≠ .real ∧
    (∀ q ∈ symbolTable, q.2 ≠ p.2) ∧ p.1 ≠ [] := by decide

theorem identifier_spec {py : PyCfg} {l : Lex} {c : Char} {cs : List Char} (hr : l.rest = c :: cs)
    (hc : py.isAlpha c = true ∨ c = '_') (hl : py.isAlpha c = true → py.isAlnum c = true) :
    ∃ text, TokenSpec py l text (l.identifier py).1 (l.identifier py).2 := by
  have hw : isWordChar py c = true := by
    rcases hc with hc | rfl <;> simp [isWordChar, *]
  have hrest : (l.identifier py).2.rest = l.rest.dropWhile (isWordChar py) := by
    simp [Lex.identifier]
  have hline : (l.identifier py).2.line = l.line := rfl
  have htok : (l.identifier py).1.lexeme = .text (l.rest.takeWhile (isWordChar py)) ∧
      (l.identifier py).1.tt = (keywordTable.lookup (l.rest.takeWhile (isWordChar py))).getD .identifier ∧
      (l.identifier py).1.line = l.line := by
    simp [Lex.identifier]
  have hword : IsWord py (l.rest.takeWhile (isWordChar py)) := by
    constructor
    · exact ⟨c, cs.takeWhile (isWordChar py), by simp [hr, hw], hc⟩
    · intro d hd
      have := takeWhile_all (List.mem_of_mem_tail hd)
      simpa [isWordChar] using this
  have hne : l.rest.takeWhile (isWordChar py) ≠ [] := by simp [hr, hw]
  generalize hT : (l.identifier py).1 = T at *
  obtain ⟨tt, lx, ln, col⟩ := T
  simp only at htok
  obtain ⟨rfl, h2, rfl⟩ := htok
  refine ⟨l.rest.takeWhile (isWordChar py), by simp [hrest], ?_, ?_, rfl, ?_, fun _ => hne, ?_⟩
  · cases hk : keywordTable.lookup (l.rest.takeWhile (isWordChar py)) with
    | none =>
        simp only [hk, Option.getD_none] at h2
        subst h2
        exact .word hword (lookup_none hk)
    | some k =>
        simp only [hk, Option.getD_some] at h2
        subst h2
        exact .keyword (lookup_mem hk)
  · rw [hrest]
    have hno : ∀ d ds, l.rest.dropWhile (isWordChar py) = d :: ds → ¬ (py.isAlnum d = true ∨ d = '_') := by
      intro d ds hd
      have := dropWhile_head hd
      simpa [isWordChar] using this
    cases hk : keywordTable.lookup (l.rest.takeWhile (isWordChar py)) with
    | none =>
        simp only [hk, Option.getD_none] at h2
        subst h2
        refine ⟨fun d ds hd => ⟨fun _ => hno d ds hd, by simp, fun hs => ?_⟩, by simp⟩
        exact absurd rfl (symbol_not_eof _ hs).2.1
    | some k =>
        simp only [hk, Option.getD_some] at h2
        subst h2
        have hkm := lookup_mem hk
        have hkf := keyword_facts _ hkm
        refine ⟨fun d ds hd => ⟨fun _ => hno d ds hd, fun h => ?_, fun hs => ?_⟩, fun h => ?_⟩
        · rcases h with h | h
          · exact absurd h hkf.2.2.1
          · exact absurd h hkf.2.2.2.1
        · exact absurd rfl (hkf.2.2.2.2.1 _ hs)
        · exact absurd h hkf.2.2.1
  · rw [hline]
    have : ¬ (tt = .newline ∧ l.rest.takeWhile (isWordChar py) = ['\n']) := by
      rintro ⟨h, h'⟩
      cases hk : keywordTable.lookup (l.rest.takeWhile (isWordChar py)) with
      | none => simp [hk, h] at h2
      | some k =>
          simp only [hk, Option.getD_some] at h2
          exact (keyword_facts _ (lookup_mem hk)).2.1 (h2.symm.trans h)
    simp [this]
  · intro h
    simp only at h
    cases hk : keywordTable.lookup (l.rest.takeWhile (isWordChar py)) with
    | none => simp [hk, h] at h2
    | some k =>
        simp only [hk, Option.getD_some] at h2
        exact absurd (h2.symm.trans h) (keyword_facts _ (lookup_mem hk)).1

theorem numberToken_ok {py : PyCfg} {text : List Char} {l l' : Lex} {t : Token}
    (h : numberToken py text l = .ok (t, l')) : l' = l ∧ t.line = l.line ∧
      (('.' ∈ text ∧ t.tt = .real ∧ ∃ r, py.parseReal text = some r ∧ t.lexeme = .real r) ∨
       ('.' ∉ text ∧ t.tt = .integer ∧ ∃ n, py.parseInt text = some n ∧ t.lexeme = .int n)) := by
  simp only [numberToken] at h
  split at h
  next hd =>
    split at h
    next r hr =>
      simp only [Except.ok.injEq, Prod.mk.injEq] at h
      obtain ⟨rfl, rfl⟩ := h
      exact ⟨rfl, rfl, .inl ⟨hd, rfl, r, hr, rfl⟩⟩
    next => simp at h
  next hd =>
    split at h
    next r hr =>
      simp only [Except.ok.injEq, Prod.mk.injEq] at h
      obtain ⟨rfl, rfl⟩ := h
      exact ⟨rfl, rfl, .inr ⟨hd, rfl, r, hr, rfl⟩⟩
    next => simp at h

theorem number_spec {py : PyCfg} {l l' : Lex} {t : Token} {c : Char} {cs : List Char}
    (hdot : py.isDigit '.' = false)
    (hr : l.rest = c :: cs) (hc : py.isDigit c = true) (h : l.number py = .ok (t, l')) :
    ∃ text, TokenSpec py l text t l' := by
  have hwhole : l.rest.takeWhile py.isDigit ≠ [] := by simp [hr, hc]
  have hall : ∀ d ∈ l.rest.takeWhile py.isDigit, py.isDigit d = true := fun d hd => takeWhile_all hd
  have hnodot : '.' ∉ l.rest.takeWhile py.isDigit := by
    intro hd
    have := hall _ hd
    simp [hdot] at this
  have hint : ∀ lx : Lex, lx.rest = l.rest.dropWhile py.isDigit → lx.line = l.line →
      (∀ d ds, lx.rest = '.' :: d :: ds → ¬ py.isDigit d = true) →
      numberToken py (l.rest.takeWhile py.isDigit) lx = .ok (t, l') → ∃ text, TokenSpec py l text t l' := by
    intro lx hlx hln hnext h
    obtain ⟨rfl, h1, h2⟩ := numberToken_ok h
    rcases h2 with ⟨hd, _⟩ | ⟨_, htt, n, hn, hlex⟩
    · exact absurd hd hnodot
    · obtain ⟨tt, lx, ln, col⟩ := t
      simp only at htt hlex h1
      subst htt hlex
      refine ⟨l.rest.takeWhile py.isDigit, by simp [hlx], .integer hwhole hall hn, ⟨?_, fun _ => hnext⟩,
        by simp [h1, hln], by simp [hln], fun _ => hwhole, by simp⟩
      intro d ds hd
      rw [hlx] at hd
      have := dropWhile_head hd
      refine ⟨fun h => ?_, fun _ => by simp [this], fun hs => ?_⟩
      · rcases h with h | h
        · simp at h
        · exact absurd rfl (keyword_facts _ h).2.2.1
      · exact absurd rfl (symbol_not_eof _ hs).2.2.1
  simp only [Lex.number, span_taken] at h
  split at h
  next d ds hrest =>
    simp only [span_rest] at hrest
    split at h
    next hd =>
      simp only [advance_rest, span_rest, hrest, List.tail_cons] at h
      obtain ⟨rfl, h1, h2⟩ := numberToken_ok h
      rcases h2 with ⟨_, htt, r, hpr, hlex⟩ | ⟨hnd, _⟩
      · obtain ⟨tt, lx, ln, col⟩ := t
        simp only at htt hlex h1
        subst htt hlex
        refine ⟨_, ?_, .real hwhole hall (by simp [hd]) (fun e he => takeWhile_all he) hpr, ?_,
          by simp [h1], by simp, by simp, by simp⟩
        · rw [span_rest, advance_rest, span_rest, hrest, List.tail_cons, List.append_assoc,
            List.cons_append, List.takeWhile_append_dropWhile, ← hrest, List.takeWhile_append_dropWhile]
        · refine ⟨?_, by simp⟩
          intro e es he
          simp only [span_rest, advance_rest, hrest, List.tail_cons] at he
          have := dropWhile_head he
          refine ⟨fun h => ?_, fun _ => by simp [this], fun hs => ?_⟩
          · rcases h with h | h
            · simp at h
            · exact absurd rfl (keyword_facts _ h).2.2.2.1
          · exact absurd rfl (symbol_not_eof _ hs).2.2.2.1
      · simp at hnd
    next hd =>
      refine hint (l.span py.isDigit).2 (by simp) rfl ?_ h
      intro d' ds' he
      simp only [span_rest, hrest, List.cons.injEq] at he
      rw [← he.2.1]; exact hd
  next hnot =>
    refine hint (l.span py.isDigit).2 (by simp) rfl ?_ h
    intro d' ds' he
    exact absurd he (hnot d' ds')

theorem ambiguous_of_pair : ∀ p ∈ symbolTable, ∀ q ∈ symbolTable, q.1.length ≤ 2 ∧
    (p.1.length = 2 → ∀ c ∈ p.1.head?, isAmbiguous c = true) := by decide

theorem commonToks_spec {py : PyCfg} {l l' : Lex} {t : Token} {c : Char} {cs : List Char}
    (hr : l.rest = c :: cs) (h : l.commonToks c = .ok (t, l')) :
    ∃ text, TokenSpec py l text t l' := by
  have key : ∀ text, ∀ tt, (text, tt) ∈ symbolTable → ∀ lx : Lex, l.rest = text ++ lx.rest → lx.line = l.line →
      (text.length = 1 → ∀ d ds, lx.rest = d :: ds → ∀ k, (text ++ [d], k) ∉ symbolTable) →
      ∀ col, TokenSpec py l text ⟨tt, .text text, l.line, col⟩ lx := by
    intro text tt hm lx hs hln hmax col
    have hf := symbol_not_eof _ hm
    refine ⟨hs, .symbol hm, ⟨?_, fun h => absurd h hf.2.2.1⟩, rfl, ?_, fun _ => hf.2.2.2.2.2,
      fun h => absurd h hf.1⟩
    · intro d ds hd
      refine ⟨fun h => ?_, fun h => ?_, fun _ h1 => hmax h1 d ds hd⟩
      · rcases h with h | h
        · exact absurd h hf.2.1
        · exact absurd rfl (hf.2.2.2.2.1 _ h)
      · rcases h with h | h
        · exact absurd h hf.2.2.1
        · exact absurd h hf.2.2.2.1
    · have : ¬ (tt = .newline ∧ text = ['\n']) := by
        rintro ⟨_, rfl⟩
        exact symbol_not_nl _ hm
      simp [this, hln]
  have single : (∀ d ds, cs = d :: ds → isAmbiguous c = true → ∀ k, ([c, d], k) ∉ symbolTable) →
      (match Token.fromChar [c] l.line l.pos with
        | some t => .ok (t, l.advance)
        | none => l.advance.invalidSymbol : Except PyErr (Token × Lex)) = .ok (t, l') →
      ∃ text, TokenSpec py l text t l' := by
    intro hno hm
    split at hm
    next t' ht =>
      simp only [Except.ok.injEq, Prod.mk.injEq] at hm
      obtain ⟨rfl, rfl⟩ := hm
      simp only [Token.fromChar, Option.map_eq_some_iff] at ht
      obtain ⟨tt, htt, rfl⟩ := ht
      refine ⟨[c], key _ _ (lookup_mem htt) _ (by simp [hr]) (by simp) ?_ _⟩
      intro _ d ds hd k hk
      simp only [advance_rest, hr, List.tail_cons] at hd
      refine hno d ds hd ?_ k hk
      exact (ambiguous_of_pair _ hk _ hk).2 rfl c (by simp)
    next => simp [Lex.invalidSymbol, Lex.error] at hm
  simp only [Lex.commonToks] at h
  split at h
  next hamb =>
    split at h
    next t' ht =>
      simp only [Except.ok.injEq, Prod.mk.injEq] at h
      obtain ⟨rfl, rfl⟩ := h
      simp only [Token.fromChar, Option.map_eq_some_iff] at ht
      obtain ⟨tt, htt, rfl⟩ := ht
      rcases cs with _ | ⟨d, ds⟩
      · simp only [Lex.lookahead, hr, List.tail_cons, List.head?_nil, Option.toList_none] at htt ⊢
        refine ⟨[c], key _ _ (lookup_mem htt) _ (by simp [hr]) (by simp) ?_ _⟩
        intro _ d ds hd
        simp [hr] at hd
      · simp only [Lex.lookahead, hr, List.tail_cons, List.head?_cons, Option.toList_some] at htt ⊢
        refine ⟨[c, d], key _ _ (lookup_mem htt) _ (by simp [hr]) (by simp) (by simp) _⟩
    next hnone =>
      refine single ?_ h
      rintro d ds rfl _ k hk
      simp only [Token.fromChar, Option.map_eq_none_iff, Lex.lookahead, hr, List.tail_cons,
        List.head?_cons, Option.toList_some] at hnone
      exact lookup_none hnone k hk
  next hamb => exact single (fun d ds _ ha => absurd ha hamb) h

theorem string_maximal {py : PyCfg} {text : List Char} {t : Token} {rest : List Char}
    (ht : t.tt = .string ∨ t.tt = .formatStr) : Maximal py text t rest := by
  have hk : ∀ q ∈ keywordTable, q.2 ≠ .string ∧ q.2 ≠ .formatStr := by decide
  have hs : ∀ q ∈ symbolTable, q.2 ≠ .string ∧ q.2 ≠ .formatStr := by decide
  refine ⟨?_, fun h => by rcases ht with ht | ht <;> simp [h] at ht⟩
  intro c cs _
  refine ⟨fun h => ?_, fun h => ?_, fun h => ?_⟩
  · rcases h with h | h
    · rcases ht with ht | ht <;> simp [h] at ht
    · rcases ht with ht | ht
      · exact absurd ht (hk _ h).1
      · exact absurd ht (hk _ h).2
  · rcases h with h | h <;> rcases ht with ht | ht <;> simp [h] at ht
  · rcases ht with ht | ht
    · exact absurd ht (hs _ h).1
    · exact absurd ht (hs _ h).2

theorem token_spec {py : PyCfg} (hpy : py.Lawful) {l l' : Lex} {t : Token}
    (h : l.token py = .ok (t, l')) : ∃ text, TokenSpec py l text t l' := by
  unfold Lex.token at h
  split at h
  next hr =>
    simp only [Except.ok.injEq, Prod.mk.injEq] at h
    obtain ⟨rfl, rfl⟩ := h
    exact ⟨[], by simp, .eof, ⟨by simp [hr], by simp⟩, rfl, by simp, by simp, by simp [hr]⟩
  next c cs hr =>
    split at h
    next hc =>
      simp only [Except.ok.injEq, Prod.mk.injEq] at h
      obtain ⟨rfl, rfl⟩ := h
      obtain ⟨rfl, rfl⟩ := hc
      refine ⟨['\n'], by simp [hr], .eofNewline, ⟨by simp [hr], by simp⟩, by simp, by simp, by simp, by simp [hr]⟩
    next hc =>
      split at h
      next hnl =>
        simp only [Lex.newline, Except.ok.injEq, Prod.mk.injEq] at h
        obtain ⟨rfl, rfl⟩ := h
        subst hnl
        refine ⟨['\n'], by simp [hr], .newline, ⟨?_, by simp⟩, rfl, by simp, by simp, by simp⟩
        intro d ds _
        refine ⟨fun h => ?_, by simp, fun h => absurd h (symbol_not_nl _)⟩
        rcases h with h | h
        · simp at h
        · exact absurd rfl (keyword_facts _ h).2.1
      next hnl =>
        split at h
        next hq =>
          obtain ⟨s, body, e1, e2, e3, e4, e5, e6, e7⟩ := string_ok hr h
          obtain ⟨tt, lx, ln, col⟩ := t
          simp only at e4 e5 e6
          subst e4 e5 e6
          exact ⟨c :: body, by simp [hr, e1], .string hq e2 e7, string_maximal (.inl rfl), rfl, by simp [e3], by simp,
            by simp⟩
        next hq =>
          split at h
          next ha =>
            split at h
            next d hd =>
              split at h
              next hf =>
                obtain ⟨rfl, hd'⟩ := hf
                have hcs : ∃ ds, cs = d :: ds := by
                  rcases cs with _ | ⟨d', ds⟩
                  · simp [Lex.lookahead, hr] at hd
                  · simp [Lex.lookahead, hr] at hd; exact ⟨ds, by rw [hd]⟩
                obtain ⟨ds, rfl⟩ := hcs
                simp only [Lex.formatStr, except_map_eq_ok] at h
                obtain ⟨⟨t', l''⟩, h1, h2⟩ := h
                simp only [Prod.mk.injEq] at h2
                obtain ⟨rfl, rfl⟩ := h2
                obtain ⟨s, body, e1, e2, e3, e4, e5, e6, e7⟩ := string_ok (l := l.advance) (c := d) (cs := ds) (by simp [hr]) h1
                obtain ⟨tt, lx, ln, col⟩ := t'
                simp only [advance_line] at e3 e4 e5 e6
                subst e4 e5 e6
                exact ⟨'f' :: d :: body, by simp [hr, e1], .fstring hd'.symm e2 e7, string_maximal (.inr rfl), rfl,
                  by simp [e3], by simp, by simp⟩
              next hf =>
                simp only [Except.ok.injEq] at h
                have := identifier_spec hr ha (hpy.alpha_alnum c)
                rw [h] at this; exact this
            next hd =>
              simp only [Except.ok.injEq] at h
              have := identifier_spec hr ha (hpy.alpha_alnum c)
              rw [h] at this; exact this
          next ha =>
            split at h
            next hdig =>
              exact number_spec (by rw [hpy.digit _ (by decide)]; decide) hr hdig h
            next hdig => exact commonToks_spec hr h

/-- Everything `get_token` does when it delivers a token. -/
theorem getToken_spec {py : PyCfg} (hpy : py.Lawful) {l l' : Lex} {t : Token}
    (h : l.getToken py = .ok (t, l')) :
    ∃ gap text, l.rest = gap ++ text ++ l'.rest ∧ IsGap py gap ∧ TokenSpec py (l.skip py) text t l' := by
  obtain ⟨gap, hg, hgap⟩ := skip_gap py l
  obtain ⟨text, ht⟩ := token_spec hpy h
  exact ⟨gap, text, by rw [List.append_assoc, ← ht.split]; exact hg, hgap, ht⟩

/-! ## C26: all tokens -/

/-- `ps` divides the text `src` into tokens: every character belongs to exactly one gap or one
token, gaps are blanks and comments, every token but the last has a text of its own that spells
it and could not be longer, and the last one, and no other, is the end of file. -/
structure Division (py : PyCfg) (src : List Char) (ps : List Piece) : Prop where
  covers : src = piecesText ps
  gaps : ∀ p ∈ ps, IsGap py p.gap
  spells : ∀ p ∈ ps, Spells py p.text p.tok
  maximal : ∀ pre p post, ps = pre ++ p :: post → Maximal py p.text p.tok (piecesText post)
  nonempty : ∀ p ∈ ps, p.tok.tt ≠ .lexEof → p.text ≠ []
  ends : ∃ pre last, ps = pre ++ [last] ∧ last.tok.tt = .lexEof ∧ ∀ p ∈ pre, p.tok.tt ≠ .lexEof

theorem breaks_append (a b : List Char) : breaks (a ++ b) = breaks a + breaks b := List.count_append

theorem gap_breaks {py : PyCfg} {gap : List Char} (h : IsGap py gap) : breaks gap = 0 := by
  obtain ⟨bl, cm, rfl, h1, h2⟩ := h
  rw [breaks_append]
  have e1 : breaks bl = 0 := List.count_eq_zero.mpr fun hm => (h1 _ hm).2 rfl
  have e2 : breaks cm = 0 := by
    rcases h2 with rfl | ⟨w, rfl, hw⟩
    · rfl
    · exact List.count_eq_zero.mpr (by simp [hw])
  omega

theorem digit_not_nl {py : PyCfg} (hpy : py.Lawful) {w : List Char}
    (h : ∀ c ∈ w, py.isDigit c = true) : breaks w = 0 := by
  refine List.count_eq_zero.mpr fun hm => ?_
  have := h _ hm
  rw [hpy.digit _ (by decide)] at this
  exact absurd this (by decide)

theorem spells_breaks {py : PyCfg} (hpy : py.Lawful) {text : List Char} {t : Token} (h : Spells py text t)
    (ht : t.tt ≠ .lexEof)
    (hs : ¬ ((t.tt = .string ∨ t.tt = .formatStr) ∧ '\n' ∈ text)) :
    breaks text = if t.tt = .newline ∧ text = ['\n'] then 1 else 0 := by
  cases h with
  | word hw _ =>
      simp only [reduceCtorEq, false_and, ↓reduceIte]
      refine List.count_eq_zero.mpr fun hm => ?_
      obtain ⟨⟨c, cs, rfl, hc⟩, hall⟩ := hw
      have hnl : ¬ (py.isAlnum '\n' = true ∨ '\n' = '_') := by
        rw [hpy.alnum _ (by decide)]; decide
      have hnl2 : ¬ (py.isAlpha '\n' = true ∨ '\n' = '_') := by
        rw [hpy.alpha _ (by decide)]; decide
      simp only [List.mem_cons] at hm
      rcases hm with rfl | hm
      · exact hnl2 hc
      · exact hnl (hall _ hm)
  | keyword hm =>
      have h1 : ∀ p ∈ keywordTable, breaks p.1 = 0 ∧ p.2 ≠ .newline := by decide
      simp [h1 _ hm]
  | symbol hm =>
      have h1 : ∀ p ∈ symbolTable, breaks p.1 = 0 ∧ p.1 ≠ ['\n'] := by decide
      simp [h1 _ hm]
  | newline => simp [breaks]
  | integer _ hd _ => simp [digit_not_nl hpy hd]
  | real _ ha _ hb _ =>
      rw [breaks_append]
      have := digit_not_nl hpy hb
      have h2 := digit_not_nl hpy ha
      simp only [breaks] at this h2
      simp [breaks, this, h2]
  | string hq _ _ =>
      simp only [true_or, true_and] at hs
      simp [breaks, List.count_eq_zero.mpr hs]
  | fstring hq _ _ =>
      simp only [or_true, true_and] at hs
      simp [breaks, List.count_eq_zero.mpr hs]
  | eof => exact absurd rfl ht
  | eofNewline => exact absurd rfl ht

/-- Line numbers of the tokens of a division, the first character being on line `start`. -/
def LinesFrom (start : Nat) (ps : List Piece) : Prop :=
  ∀ pre p post, ps = pre ++ p :: post →
    p.tok.line ≤ start + breaks (piecesText pre) ∧
    ((∀ q ∈ pre, ¬ q.multiline) → p.tok.line = start + breaks (piecesText pre))

theorem all_division {py : PyCfg} (hpy : py.Lawful) {fuel : Nat} {l : Lex} {toks : List Token}
    (h : Lex.all py fuel l = .ok toks) :
    ∃ ps, Division py l.rest ps ∧ toks = ps.map Piece.tok ∧ LinesFrom l.line ps := by
  induction fuel generalizing l toks with
  | zero => simp [Lex.all] at h
  | succ fuel ih =>
      unfold Lex.all at h
      split at h
      next => simp at h
      next t l' ht =>
        obtain ⟨gap, text, hs, hg, hsp⟩ := getToken_spec hpy ht
        split at h
        next he =>
          simp only [Except.ok.injEq] at h
          subst h
          have hfin := hsp.final he
          refine ⟨[⟨gap, text, t⟩], ⟨?_, ?_, ?_, ?_, ?_, [], _, rfl, he, by simp⟩, by simp, ?_⟩
          · simp [piecesText, Piece.chars, hs, hfin]
          · simpa using hg
          · simpa using hsp.spells
          · intro pre p post hp
            rcases pre with _ | ⟨a, pre⟩
            · simp only [List.nil_append, List.cons.injEq] at hp
              obtain ⟨rfl, rfl⟩ := hp
              have := hsp.maximal
              rw [hfin] at this
              simpa [piecesText] using this
            · simp at hp
          · simpa using hsp.nonempty
          · intro pre p post hp
            rcases pre with _ | ⟨a, pre⟩
            · simp only [List.nil_append, List.cons.injEq] at hp
              obtain ⟨rfl, rfl⟩ := hp
              simp [hsp.line, piecesText, breaks]
            · simp at hp
        next he =>
          simp only [except_map_eq_ok] at h
          obtain ⟨toks', h1, rfl⟩ := h
          obtain ⟨ps, hd, htoks, hlines⟩ := ih h1
          refine ⟨⟨gap, text, t⟩ :: ps, ⟨?_, ?_, ?_, ?_, ?_, ?_⟩, by simp [htoks], ?_⟩
          · simp only [piecesText, List.flatMap_cons, Piece.chars]
            rw [hs]; congr 1; exact hd.covers
          · intro p hp
            simp only [List.mem_cons] at hp
            rcases hp with rfl | hp
            · exact hg
            · exact hd.gaps p hp
          · intro p hp
            simp only [List.mem_cons] at hp
            rcases hp with rfl | hp
            · exact hsp.spells
            · exact hd.spells p hp
          · intro pre p post hp
            rcases pre with _ | ⟨a, pre⟩
            · simp only [List.nil_append, List.cons.injEq] at hp
              obtain ⟨rfl, rfl⟩ := hp
              have := hsp.maximal
              rw [hd.covers] at this
              exact this
            · simp only [List.cons_append, List.cons.injEq] at hp
              exact hd.maximal pre p post hp.2
          · intro p hp
            simp only [List.mem_cons] at hp
            rcases hp with rfl | hp
            · exact hsp.nonempty
            · exact hd.nonempty p hp
          · obtain ⟨pre, last, rfl, h2, h3⟩ := hd.ends
            refine ⟨⟨gap, text, t⟩ :: pre, last, rfl, h2, ?_⟩
            intro p hp
            simp only [List.mem_cons] at hp
            rcases hp with rfl | hp
            · exact he
            · exact h3 p hp
          · intro pre p post hp
            rcases pre with _ | ⟨a, pre⟩
            · simp only [List.nil_append, List.cons.injEq] at hp
              obtain ⟨rfl, rfl⟩ := hp
              simp [hsp.line, piecesText, breaks]
            · simp only [List.cons_append, List.cons.injEq] at hp
              obtain ⟨rfl, hp⟩ := hp
              obtain ⟨hle, heq⟩ := hlines pre p post hp
              have hnext := hsp.next
              rw [skip_line] at hnext
              have hb : breaks (piecesText (⟨gap, text, t⟩ :: pre)) =
                  breaks text + breaks (piecesText pre) := by
                simp only [piecesText, List.flatMap_cons, Piece.chars, breaks_append, gap_breaks hg]
                omega
              have hge : l'.line ≤ l.line + breaks text := by
                rw [hnext]
                split
                next hn => simp [hn.2, breaks]
                next => omega
              rw [hb]
              refine ⟨by omega, fun hm => ?_⟩
              have h0 := hm ⟨gap, text, t⟩ (by simp)
              have h1 := spells_breaks hpy hsp.spells he h0
              have h2 := heq fun q hq => hm q (by simp [hq])
              omega

/-- Why a numeral can be refused: `int(..)` or `float(..)` raises `ValueError` on it. -/
def BadNumeral (py : PyCfg) (text : List Char) : Prop :=
  (text ≠ [] ∧ (∀ c ∈ text, py.isDigit c = true) ∧ py.parseInt text = none) ∨
  (∃ a b, text = a ++ '.' :: b ∧ a ≠ [] ∧ (∀ c ∈ a, py.isDigit c = true) ∧
    b ≠ [] ∧ (∀ c ∈ b, py.isDigit c = true) ∧ py.parseReal text = none)

theorem numberToken_error {py : PyCfg} {text : List Char} {l : Lex} {e : PyErr}
    (h : numberToken py text l = .error e) : e = .exc "ValueError" ∧
      (('.' ∉ text ∧ py.parseInt text = none) ∨ ('.' ∈ text ∧ py.parseReal text = none)) := by
  simp only [numberToken] at h
  split at h
  next hd =>
    split at h
    · simp at h
    next hn => simp at h; exact ⟨h.symm, .inr ⟨hd, hn⟩⟩
  next hd =>
    split at h
    · simp at h
    next hn => simp at h; exact ⟨h.symm, .inl ⟨hd, hn⟩⟩

theorem number_error {py : PyCfg} (hdot : py.isDigit '.' = false) {l : Lex} {e : PyErr} {c : Char} {cs : List Char}
    (hr : l.rest = c :: cs) (hc : py.isDigit c = true) (h : l.number py = .error e) :
    e = .exc "ValueError" ∧ ∃ text rest, l.rest = text ++ rest ∧ BadNumeral py text := by
  have hwhole : l.rest.takeWhile py.isDigit ≠ [] := by simp [hr, hc]
  have hall : ∀ d ∈ l.rest.takeWhile py.isDigit, py.isDigit d = true := fun d hd => takeWhile_all hd
  have hnodot : '.' ∉ l.rest.takeWhile py.isDigit := by
    intro hd
    have := hall _ hd
    simp [hdot] at this
  have plain : ∀ lx : Lex, numberToken py (l.rest.takeWhile py.isDigit) lx = .error e →
      e = .exc "ValueError" ∧ ∃ text rest, l.rest = text ++ rest ∧ BadNumeral py text := by
    intro lx h
    obtain ⟨h1, h2⟩ := numberToken_error h
    rcases h2 with ⟨_, h2⟩ | ⟨h2, _⟩
    · exact ⟨h1, _, l.rest.dropWhile py.isDigit, by simp, .inl ⟨hwhole, hall, h2⟩⟩
    · exact absurd h2 hnodot
  simp only [Lex.number, span_taken] at h
  split at h
  next d ds hrest =>
    simp only [span_rest] at hrest
    split at h
    next hd =>
      simp only [advance_rest, span_rest, hrest, List.tail_cons] at h
      obtain ⟨h1, h2⟩ := numberToken_error h
      rcases h2 with ⟨h2, _⟩ | ⟨_, h2⟩
      · simp at h2
      · refine ⟨h1, _, (d :: ds).dropWhile py.isDigit, ?_, .inr ⟨_, _, rfl, hwhole, hall, by simp [hd],
          fun x hx => takeWhile_all hx, h2⟩⟩
        rw [List.append_assoc,
            List.cons_append, List.takeWhile_append_dropWhile, ← hrest, List.takeWhile_append_dropWhile]
    next hd => exact plain _ h
  next => exact plain _ h

theorem getToken_error {py : PyCfg} (hpy : py.Lawful) {l : Lex} {e : PyErr} (h : l.getToken py = .error e) :
    (∃ msg line col, e = .amanda msg line col) ∨
    (e = .exc "ValueError" ∧ ∃ text, text <:+: l.rest ∧ BadNumeral py text) := by
  obtain ⟨gap, hg, _⟩ := skip_gap py l
  simp only [Lex.getToken] at h
  generalize l.skip py = m at *
  unfold Lex.token at h
  split at h
  next => simp at h
  next c cs hr =>
    split at h
    next => simp at h
    next =>
      split at h
      next => simp at h
      next =>
        split at h
        next =>
          obtain ⟨col, hc⟩ := string_error h
          exact .inl ⟨_, _, _, hc⟩
        next =>
          split at h
          next =>
            split at h
            next d hd =>
              split at h
              next =>
                simp only [Lex.formatStr, except_map_eq_error] at h
                obtain ⟨col, hc⟩ := string_error h
                exact .inl ⟨_, _, _, hc⟩
              next => simp at h
            next => simp at h
          next =>
            split at h
            next hdig =>
              obtain ⟨h1, text, rest, h2, h3⟩ := number_error (by rw [hpy.digit _ (by decide)]; decide) hr hdig h
              exact .inr ⟨h1, text, ⟨gap, rest, by rw [hg, h2, List.append_assoc]⟩, h3⟩
            next =>
              left
              simp only [Lex.commonToks] at h
              have single : (match Token.fromChar [c] m.line m.pos with
                  | some t => .ok (t, m.advance)
                  | none => m.advance.invalidSymbol : Except PyErr (Token × Lex)) = .error e →
                  ∃ msg line col, e = .amanda msg line col := by
                intro hm
                split at hm
                · simp at hm
                · simp only [Lex.invalidSymbol, Lex.error, Except.error.injEq] at hm
                  exact ⟨_, _, _, hm.symm⟩
              split at h
              · split at h
                · simp at h
                · exact single h
              · exact single h

theorem getToken_shrinks {py : PyCfg} (hpy : py.Lawful) {l l' : Lex} {t : Token}
    (h : l.getToken py = .ok (t, l')) (ht : t.tt ≠ .lexEof) : l'.rest.length < l.rest.length := by
  obtain ⟨gap, text, hs, _, hsp⟩ := getToken_spec hpy h
  have := List.length_pos_iff.mpr (hsp.nonempty ht)
  simp [hs]; omega

theorem all_error {py : PyCfg} (hpy : py.Lawful) {fuel : Nat} {l : Lex} {e : PyErr}
    (hf : l.rest.length < fuel) (h : Lex.all py fuel l = .error e) :
    (∃ msg line col, e = .amanda msg line col) ∨
    (e = .exc "ValueError" ∧ ∃ text, text <:+: l.rest ∧ BadNumeral py text) := by
  induction fuel generalizing l with
  | zero => omega
  | succ fuel ih =>
      unfold Lex.all at h
      split at h
      next e' he =>
        simp only [Except.error.injEq] at h
        subst h
        exact getToken_error hpy he
      next t l' ht =>
        split at h
        next => simp at h
        next hne =>
          simp only [except_map_eq_error] at h
          have := getToken_shrinks hpy ht hne
          rcases ih (by omega) h with h | ⟨h1, text, h2, h3⟩
          · exact .inl h
          · obtain ⟨gap, tx, hs, _, _⟩ := getToken_spec hpy ht
            refine .inr ⟨h1, text, h2.trans ?_, h3⟩
            rw [hs]; exact (List.suffix_append _ _).isInfix

/-- **C26.** Lexing any text stops: with tokens that divide the text completely, with a reported
error, or, on a numeral that Python's `int`/`float` refuse, with an uncaught `ValueError`.

Partial: the property also excludes the third case; see `lexing_ends_violated`. -/
theorem lexing_ends_partial {py : PyCfg} (hpy : py.Lawful) (src : List Char) :
    (∃ ps, lexAll py src = .ok (ps.map Piece.tok) ∧ Division py src ps) ∨
    (∃ msg line col, lexAll py src = .error (.amanda msg line col)) ∨
    (lexAll py src = .error (.exc "ValueError") ∧ ∃ text, text <:+: src ∧ BadNumeral py text) := by
  cases h : lexAll py src with
  | ok toks =>
      obtain ⟨ps, hd, rfl, _⟩ := all_division hpy h
      exact .inl ⟨ps, rfl, hd⟩
  | error e =>
      rcases all_error hpy (by simp [Lex.init]) h with ⟨m, ln, c, rfl⟩ | ⟨rfl, hx⟩
      · exact .inr (.inl ⟨m, ln, c, rfl⟩)
      · exact .inr (.inr ⟨rfl, hx⟩)

theorem ascii_no_bad_numeral {py : PyCfg} (hpy : py.Lawful) {src w : List Char}
    (hascii : ∀ c ∈ src, c.toNat < 128)
    (hshort : ∀ w, w <:+: src → (∀ c ∈ w, c.isDigit = true) → w.length ≤ 4300)
    (hw : w <:+: src) (hbad : BadNumeral py w) : False := by
  have asc : ∀ c ∈ w, py.isDigit c = true → c.isDigit = true := fun c hc h => by
    rwa [hpy.digit c (hascii c (hw.subset hc))] at h
  rcases hbad with ⟨h1, h2, h3⟩ | ⟨a, b, rfl, h1, h2, h3, h4, h5⟩
  · have hd : ∀ c ∈ w, c.isDigit = true := fun c hc => asc c hc (h2 c hc)
    simp [hpy.int w h1 hd (hshort w hw hd)] at h3
  · have := hpy.real a b h1 (fun c hc => asc c (by simp [hc]) (h2 c hc)) h3
      (fun c hc => asc c (by simp [hc]) (h4 c hc))
    simp [h5] at this

/-- On ASCII text without numerals of more than 4300 digits the third case does not arise. -/
theorem lexing_ends_ascii {py : PyCfg} (hpy : py.Lawful) (src : List Char)
    (hascii : ∀ c ∈ src, c.toNat < 128)
    (hshort : ∀ w, w <:+: src → (∀ c ∈ w, c.isDigit = true) → w.length ≤ 4300) :
    (∃ ps, lexAll py src = .ok (ps.map Piece.tok) ∧ Division py src ps) ∨
    (∃ msg line col, lexAll py src = .error (.amanda msg line col)) := by
  rcases lexing_ends_partial hpy src with h | h | ⟨_, w, hw, hbad⟩
  · exact .inl h
  · exact .inr h
  · exact (ascii_no_bad_numeral hpy hascii hshort hw hbad).elim

/-- A text meeting the hypotheses of `lexing_ends_ascii`. -/
example : (∀ c ∈ "x = 1.5".toList, c.toNat < 128) ∧
    ∀ w, w <:+: "x = 1.5".toList → (∀ c ∈ w, c.isDigit = true) → w.length ≤ 4300 :=
  ⟨by decide, fun w hw _ => Nat.le_trans hw.length_le (by decide)⟩

/-- **C26 fails**: `²` is a digit for `str.isdigit` but not for `int`, so the lexer dies with an
uncaught exception. -/
theorem lexing_ends_violated : lexAll samplePy "x = ²".toList = .error (.exc "ValueError") := by
  decide +kernel

/-- A text that lexes. -/
example : (lexAll samplePy "x : int = 1..2 # fim\nmostra f'{x}'\n".toList).toOption.map
    (fun ts => ts.map Token.tt) =
    some [.identifier, .colon, .identifier, .equal, .integer, .ddot, .integer, .newline, .mostra,
      .formatStr, .lexEof] := by decide +kernel

/-! ## C29: line numbers -/

/-- **C29.** Every token is given the number of the line it starts on, as long as no quoted
literal before it spans several lines; in every case the number given is not larger than that, so
the line exists in the file.

Partial: equality needs the restriction; see `token_lines_violated`. -/
theorem token_lines_partial {py : PyCfg} (hpy : py.Lawful) {src : List Char} {toks : List Token}
    (h : lexAll py src = .ok toks) :
    ∃ ps, Division py src ps ∧ toks = ps.map Piece.tok ∧
      ∀ pre p post, ps = pre ++ p :: post →
        1 + breaks (piecesText pre ++ p.gap) ≤ 1 + breaks src ∧
        p.tok.line ≤ 1 + breaks (piecesText pre ++ p.gap) ∧
        ((∀ q ∈ pre, ¬ q.multiline) → p.tok.line = 1 + breaks (piecesText pre ++ p.gap)) := by
  obtain ⟨ps, hd, ht, hl⟩ := all_division hpy h
  refine ⟨ps, hd, ht, ?_⟩
  intro pre p post hp
  obtain ⟨h1, h2⟩ := hl pre p post hp
  have hg : breaks (piecesText pre ++ p.gap) = breaks (piecesText pre) := by
    rw [breaks_append, gap_breaks (hd.gaps p (by simp [hp]))]
    omega
  simp only [Lex.init] at h1 h2
  refine ⟨?_, by omega, fun hm => by rw [h2 hm]; omega⟩
  have hc := hd.covers
  simp only [Lex.init] at hc
  rw [hg, hc, hp]
  simp only [piecesText, List.flatMap_append, breaks_append]
  omega

/-- **C29 fails**: the lexer does not count the line breaks inside a quoted literal; the word `b`
below stands on line 3 and is reported on line 2. -/
theorem token_lines_violated : ∃ toks t, lexAll samplePy "mostra 'a\na'\nb".toList = .ok toks ∧
    t ∈ toks ∧ t.lexeme = .text ['b'] ∧ t.line = 2 ∧
    1 + breaks ("mostra 'a\na'\n".toList) = 3 := by
  refine ⟨(lexAll samplePy "mostra 'a\na'\nb".toList).toOption.getD [], ⟨.identifier, .text ['b'], 2, 0⟩, ?_⟩
  decide +kernel

/-- Lines of a text without such literals. -/
example : (lexAll samplePy "a\n\n b # c\nd".toList).toOption.map (fun ts => ts.map Token.line) =
    some [1, 1, 2, 3, 3, 4, 4] := by decide +kernel

/-! ## C30: words and symbols -/

/-- A character at which `get_token` starts a token: no blank, comment or line break. -/
theorem skip_of_head {py : PyCfg} {l : Lex} {c : Char} {cs : List Char} (hr : l.rest = c :: cs)
    (h1 : c ≠ '#') (h2 : py.isSpace c = false) : l.skip py = l := by
  simp [Lex.skip, hr, h1, h2]

theorem word_head_facts {py : PyCfg} (hpy : py.Lawful) {c : Char} (hc : py.isAlpha c = true ∨ c = '_') :
    c ≠ '#' ∧ py.isSpace c = false ∧ c ≠ '\n' ∧ c ≠ '\'' ∧ c ≠ '"' := by
  have ascii : ∀ d : Char, d.toNat < 128 → d.isAlpha = false → d ≠ '_' → c ≠ d := by
    rintro d h1 h2 h3 rfl
    rcases hc with hc | rfl
    · rw [hpy.alpha _ h1, h2] at hc; simp at hc
    · exact h3 rfl
  refine ⟨ascii _ (by decide) (by decide) (by decide), ?_, ascii _ (by decide) (by decide) (by decide),
    ascii _ (by decide) (by decide) (by decide), ascii _ (by decide) (by decide) (by decide)⟩
  rcases hc with hc | rfl
  · cases hs : py.isSpace c with
    | false => rfl
    | true =>
        have := hpy.space_alnum c hs
        rw [hpy.alpha_alnum c hc] at this; simp at this
  · rw [hpy.space _ (by decide)]; decide

theorem takeWhile_append_stop {p : Char → Bool} {w rest : List Char} (hw : ∀ c ∈ w, p c = true)
    (hr : ∀ c cs, rest = c :: cs → p c = false) :
    (w ++ rest).takeWhile p = w ∧ (w ++ rest).dropWhile p = rest := by
  induction w with
  | nil =>
      rcases rest with _ | ⟨c, cs⟩
      · simp
      · simp [hr c cs rfl]
  | cons a w ih =>
      obtain ⟨h1, h2⟩ := ih fun c hc => hw c (by simp [hc])
      simp [hw a (by simp), h1, h2]

/-- **C30.** A maximal run of letters, digits and underscores that does not start with a digit is
one token; it is a keyword exactly when the whole word is one.  (`f` directly before a quote
belongs to a format string.) -/
theorem word_token {py : PyCfg} (hpy : py.Lawful) {l : Lex} {w rest : List Char} (hl : l.rest = w ++ rest)
    (hw : IsWord py w)
    (hstop : ∀ c cs, rest = c :: cs → ¬ (py.isAlnum c = true ∨ c = '_'))
    (hf : w = ['f'] → ∀ c cs, rest = c :: cs → c ≠ '\'' ∧ c ≠ '"') :
    ∃ t l', l.getToken py = .ok (t, l') ∧ l'.rest = rest ∧ t.lexeme = .text w ∧
      (∀ tt, (w, tt) ∈ keywordTable ↔ t.tt = tt ∧ t.tt ≠ .identifier) ∧
      (t.tt = .identifier ↔ ∀ tt, (w, tt) ∉ keywordTable) := by
  obtain ⟨⟨c, cs, rfl, hc⟩, hall⟩ := hw
  obtain ⟨f1, f2, f3, f4, f5⟩ := word_head_facts hpy hc
  have hr : l.rest = c :: (cs ++ rest) := by simp [hl]
  have hwc : ∀ d ∈ c :: cs, isWordChar py d = true := by
    intro d hd
    simp only [List.mem_cons] at hd
    simp only [isWordChar, Bool.or_eq_true, beq_iff_eq]
    rcases hd with rfl | hd
    · exact hc.imp_left (hpy.alpha_alnum d)
    · exact hall d hd
  obtain ⟨t1, t2⟩ := takeWhile_append_stop (rest := rest) hwc fun d ds hd => by
    have := hstop d ds hd
    simpa [isWordChar] using this
  have hid : l.getToken py = .ok (l.identifier py) := by
    rw [Lex.getToken, skip_of_head hr f1 f2]
    unfold Lex.token
    rw [hr]
    simp only [f3, f4, f5, false_and, or_self, ↓reduceIte, hc]
    split
    next d hd =>
      have : ¬ (c = 'f' ∧ (d = '"' ∨ d = '\'')) := by
        rintro ⟨rfl, hq⟩
        rcases cs with _ | ⟨e, es⟩
        · rcases rest with _ | ⟨r, rs⟩
          · simp [Lex.lookahead, hr] at hd
          · simp [Lex.lookahead, hr] at hd
            subst hd
            have := hf rfl r rs rfl
            rcases hq with h | h
            · exact this.2 h
            · exact this.1 h
        · simp [Lex.lookahead, hr] at hd
          subst hd
          have := hall e (by simp)
          rw [hpy.alnum e (by rcases hq with rfl | rfl <;> decide)] at this
          rcases hq with rfl | rfl <;> exact absurd this (by decide)
      simp [this]
    next => rfl
  refine ⟨_, _, hid, ?_, ?_, ?_, ?_⟩
  · show (l.span (isWordChar py)).2.rest = rest
    rw [span_rest, hl, t2]
  · show Lexeme.text (l.span (isWordChar py)).1 = _
    rw [span_taken, hl, t1]
  · intro tt
    show _ ↔ (keywordTable.lookup (l.span (isWordChar py)).1).getD .identifier = tt ∧
      (keywordTable.lookup (l.span (isWordChar py)).1).getD .identifier ≠ _
    rw [span_taken, hl, t1]
    have uniq : ∀ p ∈ keywordTable, keywordTable.lookup p.1 = some p.2 ∧ p.2 ≠ .identifier := by decide
    constructor
    · intro hm
      have := uniq _ hm
      simp only at this
      rw [this.1]
      exact ⟨rfl, this.2⟩
    · rintro ⟨h1, h2⟩
      cases hk : keywordTable.lookup (c :: cs) with
      | none => simp [hk] at h2
      | some k =>
          rw [hk] at h1
          simp only [Option.getD_some] at h1
          subst h1
          exact lookup_mem hk
  · show (keywordTable.lookup (l.span (isWordChar py)).1).getD .identifier = _ ↔ _
    rw [span_taken, hl, t1]
    have ne : ∀ p ∈ keywordTable, p.2 ≠ .identifier := by decide
    cases hk : keywordTable.lookup (c :: cs) with
    | none => simpa using lookup_none hk
    | some k =>
        have := lookup_mem hk
        simp only [Option.getD_some]
        exact ⟨fun h => absurd h (ne _ this), fun h => absurd this (h k)⟩

/-- Words that meet the hypotheses: an identifier that only begins like a keyword. -/
example : (lexAll samplePy "senaose2 senaose se".toList).toOption.map (fun ts => ts.map fun t => (t.tt, t.lexeme)) =
    some [(.identifier, .text "senaose2".toList), (.senaose, .text "senaose".toList),
      (.se, .text "se".toList), (.lexEof, .text [])] := by decide +kernel

theorem symbol_head_facts {py : PyCfg} (hpy : py.Lawful) {s : List Char} {tt : TT} (h : (s, tt) ∈ symbolTable) :
    ∃ c cs, s = c :: cs ∧ c ≠ '#' ∧ py.isSpace c = false ∧ c ≠ '\n' ∧ c ≠ '\'' ∧ c ≠ '"' ∧
      py.isAlpha c = false ∧ c ≠ '_' ∧ py.isDigit c = false ∧ symbolTable.lookup s = some tt ∧
      (cs = [] ∨ (∃ d, cs = [d]) ∧ isAmbiguous c = true) := by
  have key : ∀ p ∈ symbolTable, ∃ c cs, p.1 = c :: cs ∧ c ≠ '#' ∧ c.toNat < 128 ∧ c.isAlpha = false ∧
      c.isDigit = false ∧ (decide (9 ≤ c.toNat ∧ c.toNat ≤ 13) || decide (28 ≤ c.toNat ∧ c.toNat ≤ 32)) = false ∧
      c ≠ '\n' ∧ c ≠ '\'' ∧ c ≠ '"' ∧ c ≠ '_' ∧ symbolTable.lookup p.1 = some p.2 ∧
      (cs = [] ∨ (∃ d, cs = [d]) ∧ isAmbiguous c = true) := by
    have key' : ∀ p ∈ symbolTable, ∃ c ∈ p.1.head?, p.1 = c :: p.1.tail ∧ c ≠ '#' ∧ c.toNat < 128 ∧ c.isAlpha = false ∧
      c.isDigit = false ∧ (decide (9 ≤ c.toNat ∧ c.toNat ≤ 13) || decide (28 ≤ c.toNat ∧ c.toNat ≤ 32)) = false ∧
      c ≠ '\n' ∧ c ≠ '\'' ∧ c ≠ '"' ∧ c ≠ '_' ∧ symbolTable.lookup p.1 = some p.2 ∧
      (p.1.tail = [] ∨ p.1.tail.length = 1 ∧ isAmbiguous c = true) := by decide
    intro p hp
    obtain ⟨c, _, h1, h2, h3, h4, h5, h6, h7, h8, h9, h10, h11, h12⟩ := key' p hp
    refine ⟨c, _, h1, h2, h3, h4, h5, h6, h7, h8, h9, h10, h11, h12.imp_right fun h => ⟨?_, h.2⟩⟩
    exact List.length_eq_one_iff.mp h.1
  obtain ⟨c, cs, h1, h2, h3, h4, h5, h6, h7, h8, h9, h10, h11, h12⟩ := key _ h
  exact ⟨c, cs, h1, h2, by rw [hpy.space c h3, h6], h7, h8, h9, by rw [hpy.alpha c h3, h4], h10,
    by rw [hpy.digit c h3, h5], h11, h12⟩

/-- **C30.** The longest symbol at a place is one token: a two-character operator always, a
one-character one when it does not begin a longer one there. -/
theorem symbol_token {py : PyCfg} (hpy : py.Lawful) {l : Lex} {s rest : List Char} {tt : TT}
    (hl : l.rest = s ++ rest) (hs : (s, tt) ∈ symbolTable)
    (hstop : s.length = 1 → ∀ c cs, rest = c :: cs → ∀ k, (s ++ [c], k) ∉ symbolTable) :
    ∃ t l', l.getToken py = .ok (t, l') ∧ l'.rest = rest ∧ t.lexeme = .text s ∧ t.tt = tt := by
  obtain ⟨c, cs, rfl, f1, f2, f3, f4, f5, f6, f7, f8, f9, f10⟩ := symbol_head_facts hpy hs
  have hr : l.rest = c :: (cs ++ rest) := by simp [hl]
  have hct : l.getToken py = l.commonToks c := by
    rw [Lex.getToken, skip_of_head hr f1 f2]
    unfold Lex.token
    rw [hr]
    simp [f3, f4, f5, f6, f7, f8]
  rw [hct]
  simp only [Lex.commonToks]
  rcases f10 with rfl | ⟨⟨d, rfl⟩, ha⟩
  · have hone : Token.fromChar [c] l.line l.pos = some ⟨tt, .text [c], l.line, l.pos⟩ := by
      simp [Token.fromChar, f9]
    by_cases ha : isAmbiguous c = true
    · simp only [ha, ↓reduceIte]
      rcases rest with _ | ⟨r, rs⟩
      · have : l.lookahead = none := by simp [Lex.lookahead, hr]
        simp only [this, Option.toList_none, hone]
        exact ⟨_, _, rfl, by simp [hr], rfl, rfl⟩
      · have : l.lookahead = some r := by simp [Lex.lookahead, hr]
        have hno : Token.fromChar (c :: [r]) l.line l.pos = none := by
          simp only [Token.fromChar, Option.map_eq_none_iff]
          cases hk : symbolTable.lookup [c, r] with
          | none => rfl
          | some k => exact absurd (lookup_mem hk) (hstop rfl r rs rfl k)
        simp only [this, Option.toList_some, hno, hone]
        exact ⟨_, _, rfl, by simp [hr], rfl, rfl⟩
    · simp only [ha, Bool.false_eq_true, ↓reduceIte, hone]
      exact ⟨_, _, rfl, by simp [hr], rfl, rfl⟩
  · have : l.lookahead = some d := by simp [Lex.lookahead, hr]
    have htwo : Token.fromChar (c :: [d]) l.line l.pos = some ⟨tt, .text [c, d], l.line, l.pos⟩ := by
      simp [Token.fromChar, f9]
    simp only [ha, ↓reduceIte, this, Option.toList_some, htwo]
    exact ⟨_, _, rfl, by simp [hr], rfl, rfl⟩

/-- Symbols that meet the hypotheses. -/
example : (lexAll samplePy "a//=b:::>".toList).toOption.map (fun ts => ts.map Token.tt) =
    some [.identifier, .doubleslash, .equal, .identifier, .doublecolon, .cast, .lexEof] := by decide +kernel

/-! ## C28: quoted literals -/

theorem quote_facts {py : PyCfg} (hpy : py.Lawful) {q : Char} (hq : q = '\'' ∨ q = '"') :
    q ≠ '#' ∧ py.isSpace q = false ∧ q ≠ '\n' ∧ q ≠ '\\' := by
  rcases hq with rfl | rfl <;> refine ⟨by decide, ?_, by decide, by decide⟩ <;>
  · rw [hpy.space _ (by decide)]; decide

/-- A character of a literal as written: itself, or one of the three escapes. -/
inductive StrItem where
  | char (c : Char)
  | newline
  | single
  | double

/-- How an item is written. -/
def StrItem.raw : StrItem → List Char
  | .char c => [c]
  | .newline => ['\\', 'n']
  | .single => ['\\', '\'']
  | .double => ['\\', '"']

/-- What an item stands for. -/
def StrItem.meaning : StrItem → Char
  | .char c => c
  | .newline => '\n'
  | .single => '\''
  | .double => '"'

/-- The written form of a literal's content. -/
def rawText (is : List StrItem) : List Char := is.flatMap StrItem.raw

/-- The text it stands for. -/
def meaningText (is : List StrItem) : List Char := is.map StrItem.meaning

/-- Ordinary characters are neither backslashes nor the delimiter. -/
def PlainItems (q : Char) (is : List StrItem) : Prop :=
  ∀ c, .char c ∈ is → c ≠ '\\' ∧ c ≠ q

/-- The second character of a text. -/
def second (cs : List Char) : Option Char := cs.tail.head?

/-- No quote stands two characters after an escaped `n`, and no double quote two characters after
an escaped single quote; `after` is what follows the items. -/
def EscapesClear : List StrItem → List Char → Prop
  | [], _ => True
  | i :: is, after =>
      (match i with
        | .newline => second (rawText is ++ after) ≠ some '\'' ∧ second (rawText is ++ after) ≠ some '"'
        | .single => second (rawText is ++ after) ≠ some '"'
        | _ => True) ∧ EscapesClear is after

theorem escapeSeq_rest (c : Char) (l : Lex) :
    l.escapeSeq c = if second l.rest = some c then (true, l.advance.advance) else (false, l) := rfl

theorem stringLoop_items {q : Char} (hq : q = '\'' ∨ q = '"') (is : List StrItem) (rest : List Char)
    (hp : PlainItems q is) (he : EscapesClear is (q :: rest)) (fuel : Nat) (l : Lex)
    (hl : l.rest = rawText is ++ q :: rest) (hf : l.rest.length < fuel) :
    ∃ l', l.stringLoop q fuel = .ok (meaningText is, l') ∧ l'.rest = rest := by
  have hqb : q ≠ '\\' := by rcases hq with rfl | rfl <;> decide
  induction is generalizing fuel l with
  | nil =>
      obtain _ | fuel := fuel
      · omega
      · simp only [rawText, List.flatMap_nil, List.nil_append] at hl
        refine ⟨l.advance, ?_, by simp [hl]⟩
        unfold Lex.stringLoop
        simp [hl, meaningText]
  | cons i is ih =>
      obtain _ | fuel := fuel
      · omega
      · have hp' : PlainItems q is := fun c hc => hp c (by simp [hc])
        have ih' := fun (l2 : Lex) (h2 : l2.rest = rawText is ++ q :: rest) (h3 : l2.rest.length < fuel) =>
          ih hp' he.2 fuel l2 h2 h3
        cases i with
        | char c =>
            obtain ⟨hc1, hc2⟩ := hp c (by simp)
            have hr : l.rest = c :: (rawText is ++ q :: rest) := by simp [hl, rawText, StrItem.raw]
            obtain ⟨l', h1, h2⟩ := ih' l.advance (by simp [hr]) (by simp [hr] at hf ⊢; omega)
            refine ⟨l', ?_, h2⟩
            unfold Lex.stringLoop
            simp [hr, hc1, hc2, h1, Except.map, meaningText, StrItem.meaning]
        | newline =>
            have hr : l.rest = '\\' :: 'n' :: (rawText is ++ q :: rest) := by simp [hl, rawText, StrItem.raw]
            have hx := he.1
            simp only at hx
            have hesc : l.escapes = (['\n'], l.advance.advance) := by
              have h1 : l.escapeSeq 'n' = (true, l.advance.advance) := by
                simp [escapeSeq_rest, hr, second]
              have h2 : l.advance.advance.escapeSeq '\'' = (false, l.advance.advance) := by
                rw [escapeSeq_rest, if_neg]
                simpa [hr] using hx.1
              have h3 : l.advance.advance.escapeSeq '"' = (false, l.advance.advance) := by
                rw [escapeSeq_rest, if_neg]
                simpa [hr] using hx.2
              simp [Lex.escapes, h1, h2, h3]
            obtain ⟨l', h1, h2⟩ := ih' l.advance.advance (by simp [hr]) (by simp [hr] at hf ⊢; omega)
            refine ⟨l', ?_, h2⟩
            unfold Lex.stringLoop
            simp [hr, Ne.symm hqb, hesc, h1, Except.map, meaningText, StrItem.meaning]
        | single =>
            have hr : l.rest = '\\' :: '\'' :: (rawText is ++ q :: rest) := by simp [hl, rawText, StrItem.raw]
            have hx := he.1
            simp only at hx
            have hesc : l.escapes = (['\''], l.advance.advance) := by
              have h1 : l.escapeSeq 'n' = (false, l) := by
                simp [escapeSeq_rest, hr, second]
              have h2 : l.escapeSeq '\'' = (true, l.advance.advance) := by
                simp [escapeSeq_rest, hr, second]
              have h3 : l.advance.advance.escapeSeq '"' = (false, l.advance.advance) := by
                rw [escapeSeq_rest, if_neg]
                simpa [hr] using hx
              simp [Lex.escapes, h1, h2, h3]
            obtain ⟨l', h1, h2⟩ := ih' l.advance.advance (by simp [hr]) (by simp [hr] at hf ⊢; omega)
            refine ⟨l', ?_, h2⟩
            unfold Lex.stringLoop
            simp [hr, Ne.symm hqb, hesc, h1, Except.map, meaningText, StrItem.meaning]
        | double =>
            have hr : l.rest = '\\' :: '"' :: (rawText is ++ q :: rest) := by simp [hl, rawText, StrItem.raw]
            have hesc : l.escapes = (['"'], l.advance.advance) := by
              have h1 : l.escapeSeq 'n' = (false, l) := by
                simp [escapeSeq_rest, hr, second]
              have h2 : l.escapeSeq '\'' = (false, l) := by
                simp [escapeSeq_rest, hr, second]
              have h3 : l.escapeSeq '"' = (true, l.advance.advance) := by
                simp [escapeSeq_rest, hr, second]
              simp [Lex.escapes, h1, h2, h3]
            obtain ⟨l', h1, h2⟩ := ih' l.advance.advance (by simp [hr]) (by simp [hr] at hf ⊢; omega)
            refine ⟨l', ?_, h2⟩
            unfold Lex.stringLoop
            simp [hr, Ne.symm hqb, hesc, h1, Except.map, meaningText, StrItem.meaning]

theorem quoted_token {py : PyCfg} (hpy : py.Lawful) {q : Char} (hq : q = '\'' ∨ q = '"') (is : List StrItem)
    (rest : List Char) (hp : PlainItems q is) (he : EscapesClear is (q :: rest)) (l : Lex)
    (hl : l.rest = q :: rawText is ++ q :: rest) :
    ∃ t l', l.getToken py = .ok (t, l') ∧ l'.rest = rest ∧ t.tt = .string ∧
      t.lexeme = .text (q :: meaningText is ++ [q]) := by
  obtain ⟨f1, f2, f3, f4⟩ := quote_facts hpy hq
  have hr : l.rest = q :: (rawText is ++ q :: rest) := by simp [hl]
  have hct : l.getToken py = l.string q := by
    rw [Lex.getToken, skip_of_head hr f1 f2]
    unfold Lex.token
    rw [hr]
    simp [f3, hq]
  obtain ⟨l', h1, h2⟩ := stringLoop_items hq is rest hp he (l.advance.rest.length + 1) l.advance
    (by simp [hr]) (by omega)
  rw [hct, Lex.string, h1]
  exact ⟨_, _, rfl, h2, rfl, rfl⟩

theorem dropLast_quoted (s : List Char) (q : Char) : (s ++ [q]).dropLast = s := by simp

/-- The VM's constant for a quoted lexeme is the text between the quotes. -/
theorem constOfStr_quoted {F : Type} [FloatOps F] [LawfulFloatOps F] {q : Char} (hq : q = '\'' ∨ q = '"')
    (s : List Char) :
    (constOfStr (String.ofList (q :: s ++ [q])) : Option (Val F)) = some (.str (String.ofList s)) := by
  have hl : (String.ofList (q :: s ++ [q])).toList = q :: s ++ [q] := by simp
  have hne : ∀ c : String, c.toList.head? ≠ some '\'' → c.toList.head? ≠ some '"' →
      String.ofList (q :: s ++ [q]) ≠ c := by
    intro c h1 h2 he
    rw [← he, hl] at h1 h2
    rcases hq with rfl | rfl
    · exact h1 rfl
    · exact h2 rfl
  have hp : parseI64 (String.ofList (q :: s ++ [q])) = none := by
    cases h : parseI64 (String.ofList (q :: s ++ [q])) with
    | none => rfl
    | some n =>
        obtain ⟨_, hs⟩ := (parseI64_iff _ _).1 h
        cases hs with
        | plain hd =>
            rw [hl] at hd
            obtain ⟨c, cs, hc, hdig⟩ := hd.head_isDigit
            simp only [List.cons_append, List.cons.injEq] at hc
            rcases hq with rfl | rfl <;> rw [← hc.1] at hdig <;> simp at hdig
        | plus he _ => rw [hl] at he; rcases hq with rfl | rfl <;> simp at he
        | minus he _ => rw [hl] at he; rcases hq with rfl | rfl <;> simp at he
  have hfp : (FloatOps.parse (String.ofList (q :: s ++ [q])) : Option F) = none := by
    apply LawfulFloatOps.parse_quoted
    rw [hl]
    rcases hq with rfl | rfl
    · exact .inl rfl
    · exact .inr rfl
  have hu : unquote (q :: s ++ [q]) = some s := by
    have h1 : q.utf8Size = 1 := by rcases hq with rfl | rfl <;> decide
    simp [unquote, h1, hq.symm]
  unfold constOfStr
  rw [if_neg (hne _ (by decide) (by decide)), if_neg (hne _ (by decide) (by decide)),
    if_neg (hne _ (by decide) (by decide)), hp, hfp, hl]
  simp only [hu, Option.map_some]

/-- **C28.** A quoted literal without backslashes and without its own delimiter inside is lexed as
one string token, and the constant made of that token is exactly the text between the quotes. -/
theorem plain_literal {py : PyCfg} (hpy : py.Lawful) {F : Type} [FloatOps F] [LawfulFloatOps F] {q : Char}
    (hq : q = '\'' ∨ q = '"') (s rest : List Char) (h1 : '\\' ∉ s) (h2 : q ∉ s) (l : Lex)
    (hl : l.rest = q :: s ++ q :: rest) :
    ∃ t l' lexeme, l.getToken py = .ok (t, l') ∧ l'.rest = rest ∧ t.tt = .string ∧ t.lexeme = .text lexeme ∧
      (constOfStr (String.ofList lexeme) : Option (Val F)) = some (.str (String.ofList s)) := by
  have hraw : rawText (s.map .char) = s := by
    simp [rawText, List.flatMap_map, StrItem.raw]
  have hmean : meaningText (s.map .char) = s := by
    simp [meaningText, Function.comp_def, StrItem.meaning]
  have hplain : PlainItems q (s.map .char) := by
    intro c hc
    simp only [List.mem_map, StrItem.char.injEq, exists_eq_right] at hc
    exact ⟨fun e => h1 (e ▸ hc), fun e => h2 (e ▸ hc)⟩
  have hclear : ∀ (s : List Char) after, EscapesClear (s.map .char) after := by
    intro s after
    induction s with
    | nil => trivial
    | cons c s ih => exact ⟨trivial, ih⟩
  obtain ⟨t, l', e1, e2, e3, e4⟩ := quoted_token hpy hq (s.map .char) rest hplain (hclear s _) l
    (by rw [hraw]; exact hl)
  rw [hmean] at e4
  exact ⟨t, l', _, e1, e2, e3, e4, constOfStr_quoted hq s⟩

/-- **C28.** With escapes: the constant is the text the items stand for, provided no quote follows
an escape at distance two.

Partial: without that proviso the lexer misreads the literal; see `escaped_literal_violated`. -/
theorem escaped_literal_partial {py : PyCfg} (hpy : py.Lawful) {F : Type} [FloatOps F] [LawfulFloatOps F]
    {q : Char} (hq : q = '\'' ∨ q = '"') (is : List StrItem) (rest : List Char) (hp : PlainItems q is)
    (he : EscapesClear is (q :: rest)) (l : Lex) (hl : l.rest = q :: rawText is ++ q :: rest) :
    ∃ t l' lexeme, l.getToken py = .ok (t, l') ∧ l'.rest = rest ∧ t.tt = .string ∧ t.lexeme = .text lexeme ∧
      (constOfStr (String.ofList lexeme) : Option (Val F)) = some (.str (String.ofList (meaningText is))) := by
  obtain ⟨t, l', e1, e2, e3, e4⟩ := quoted_token hpy hq is rest hp he l hl
  exact ⟨t, l', _, e1, e2, e3, e4, constOfStr_quoted hq _⟩

/-- A literal with escapes that meets the hypotheses. -/
example : PlainItems '"' [.char 'a', .newline, .char 'b', .char 'c', .double] ∧
    EscapesClear [.char 'a', .newline, .char 'b', .char 'c', .double] ('"' :: []) ∧
    '"' :: rawText [.char 'a', .newline, .char 'b', .char 'c', .double] ++ ['"'] =
      "\"a\\nbc\\\"\"".toList := by
  refine ⟨?_, ?_, by decide⟩
  · intro c hc
    simp at hc
    rcases hc with rfl | rfl | rfl <;> decide
  · simp [EscapesClear, second, rawText, StrItem.raw]

/-- **C28 fails**: in the literal `"\na'bc"` the letter `a` is lost, and the literal `"\na"` is not
recognised at all. -/
theorem escaped_literal_violated :
    (lexAll samplePy "\"\\na'bc\"".toList).toOption.map (fun ts => ts.map Token.lexeme) =
      some [.text ['"', '\n', '\'', 'b', 'c', '"'], .text []] ∧
    meaningText [.newline, .char 'a', .char '\'', .char 'b', .char 'c'] = ['\n', 'a', '\'', 'b', 'c'] ∧
    '"' :: rawText [.newline, .char 'a', .char '\'', .char 'b', .char 'c'] ++ ['"'] = "\"\\na'bc\"".toList ∧
    lexAll samplePy "\"\\na\"".toList = .error (.amanda msgInvalidString 1 6) := by
  decide +kernel

/-! ## C27: printing tokens and lexing them back -/

/-- How a token may be written: the text, the kind and what it denotes.  Numerals have at most
4300 digits, the most that Python's `int` reads. -/
inductive Written (py : PyCfg) : List Char → TT → Lexeme → Prop
  | word {w} : IsWord py w → (∀ tt, (w, tt) ∉ keywordTable) → Written py w .identifier (.text w)
  | keyword {w tt} : (w, tt) ∈ keywordTable → Written py w tt (.text w)
  | symbol {w tt} : (w, tt) ∈ symbolTable → Written py w tt (.text w)
  | numeral {w n} : Decimal w n → w.length ≤ 4300 → Written py w .integer (.int n)
  | quoted {q s} : q = '\'' ∨ q = '"' → '\\' ∉ s → q ∉ s →
      Written py (q :: s ++ [q]) .string (.text (q :: s ++ [q]))

/-- A nonempty run of blanks without line breaks. -/
def IsBlank (py : PyCfg) (w : List Char) : Prop :=
  w ≠ [] ∧ ∀ c ∈ w, py.isSpace c = true ∧ c ≠ '\n'

/-- A token to be written, and the blanks written after it. -/
structure WrittenToken where
  text : List Char
  tt : TT
  lexeme : Lexeme
  blanks : List Char

/-- Tokens that can be written, with blanks after each. -/
def WrittenOk (py : PyCfg) (ts : List WrittenToken) : Prop :=
  ∀ t ∈ ts, Written py t.text t.tt t.lexeme ∧ IsBlank py t.blanks

/-- The text of a sequence of tokens. -/
def writtenText (ts : List WrittenToken) : List Char := ts.flatMap fun t => t.text ++ t.blanks

theorem blank_facts {py : PyCfg} (hpy : py.Lawful) {c : Char} (h : py.isSpace c = true) :
    py.isAlnum c = false ∧ c ≠ '_' ∧ c ≠ '\'' ∧ c ≠ '"' ∧ c ≠ '.' ∧ py.isDigit c = false ∧
      ∀ s tt, (s, tt) ∈ symbolTable → c ∉ s := by
  have ascii : ∀ d : Char, d.toNat < 128 →
      (decide (9 ≤ d.toNat ∧ d.toNat ≤ 13) || decide (28 ≤ d.toNat ∧ d.toNat ≤ 32)) = false → c ≠ d := by
    rintro d h1 h2 rfl
    rw [hpy.space _ h1, h2] at h; simp at h
  refine ⟨hpy.space_alnum c h, ascii _ (by decide) (by decide), ascii _ (by decide) (by decide),
    ascii _ (by decide) (by decide), ascii _ (by decide) (by decide), ?_, ?_⟩
  · cases hd : py.isDigit c with
    | false => rfl
    | true =>
        have := hpy.digit_alnum c hd
        rw [hpy.space_alnum c h] at this; simp at this
  · intro s tt hs hc
    have key : ∀ p ∈ symbolTable, ∀ d ∈ p.1, d.toNat < 128 ∧
        (decide (9 ≤ d.toNat ∧ d.toNat ≤ 13) || decide (28 ≤ d.toNat ∧ d.toNat ≤ 32)) = false := by decide
    obtain ⟨h1, h2⟩ := key _ hs c hc
    exact ascii c h1 h2 rfl

theorem keyword_isWord {py : PyCfg} (hpy : py.Lawful) {w : List Char} {tt : TT} (h : (w, tt) ∈ keywordTable) :
    IsWord py w := by
  have key : ∀ p ∈ keywordTable, (∃ c ∈ p.1.head?, p.1 = c :: p.1.tail ∧ c.toNat < 128 ∧ (c.isAlpha = true ∨ c = '_')) ∧
      ∀ c ∈ p.1.tail, c.toNat < 128 ∧ (c.isAlphanum = true ∨ c = '_') := by decide
  obtain ⟨⟨c, _, h1, h2, h3⟩, h4⟩ := key _ h
  refine ⟨⟨c, _, h1, h3.imp_left fun h => by rw [hpy.alpha c h2, h]⟩, fun d hd => ?_⟩
  obtain ⟨h5, h6⟩ := h4 d hd
  exact h6.imp_left fun h => by rw [hpy.alnum d h5, h]

theorem decimal_digits {w : List Char} {n : Nat} (h : Decimal w n) :
    w ≠ [] ∧ (∀ c ∈ w, c.isDigit = true) ∧ n = Nat.ofDigitChars 10 w 0 := by
  induction h with
  | digit d hd => simp [hd, Nat.ofDigitChars]
  | snoc d _ hd ih =>
      obtain ⟨_, h2, h3⟩ := ih
      refine ⟨by simp, ?_, ?_⟩
      · intro c hc
        simp at hc
        rcases hc with hc | rfl
        · exact h2 c hc
        · exact hd
      · subst h3; simp [Nat.ofDigitChars, Nat.mul_comm]

theorem isDigit_ascii {c : Char} (h : c.isDigit = true) : c.toNat < 128 := by
  simp only [Char.isDigit, Bool.and_eq_true, decide_eq_true_eq] at h
  have := UInt32.le_iff_toNat_le.mp h.2
  have h2 : c.toNat = c.val.toNat := rfl
  simp at this
  omega

/-- A written token starts with a character that is neither a blank nor starts a comment. -/
theorem written_head {py : PyCfg} (hpy : py.Lawful) {w : List Char} {tt : TT} {x : Lexeme} (h : Written py w tt x) :
    ∃ c cs, w = c :: cs ∧ c ≠ '#' ∧ py.isSpace c = false := by
  have word : ∀ {w}, IsWord py w → ∃ c cs, w = c :: cs ∧ c ≠ '#' ∧ py.isSpace c = false := by
    rintro w ⟨⟨c, cs, h1, h2⟩, _⟩
    obtain ⟨f1, f2, _⟩ := word_head_facts hpy h2
    exact ⟨c, cs, h1, f1, f2⟩
  cases h with
  | word h _ => exact word h
  | keyword h => exact word (keyword_isWord hpy h)
  | symbol h =>
      obtain ⟨c, cs, h1, h2, h3, _⟩ := symbol_head_facts hpy h
      exact ⟨c, cs, h1, h2, h3⟩
  | numeral h _ =>
      obtain ⟨h1, h2, _⟩ := decimal_digits h
      obtain ⟨c, cs, rfl⟩ := List.exists_cons_of_ne_nil h1
      have hc := h2 c (by simp)
      have h128 := isDigit_ascii hc
      refine ⟨c, cs, rfl, ?_, ?_⟩
      · rintro rfl; simp at hc
      · cases hs : py.isSpace c with
        | false => rfl
        | true =>
            have := hpy.space_alnum c hs
            rw [hpy.digit_alnum c (by rw [hpy.digit c h128, hc])] at this; simp at this
  | quoted hq _ _ =>
      obtain ⟨f1, f2, _⟩ := quote_facts hpy hq
      exact ⟨_, _, rfl, f1, f2⟩


theorem numeral_token {py : PyCfg} (hpy : py.Lawful) {l : Lex} {w rest : List Char} {n : Nat}
    (hl : l.rest = w ++ rest) (hw : Decimal w n) (hlen : w.length ≤ 4300)
    (hstop : ∀ c cs, rest = c :: cs → py.isDigit c = false ∧ c ≠ '.') :
    ∃ t l', l.getToken py = .ok (t, l') ∧ l'.rest = rest ∧ t.tt = .integer ∧ t.lexeme = .int n := by
  obtain ⟨h1, h2, h3⟩ := decimal_digits hw
  obtain ⟨c, cs, rfl⟩ := List.exists_cons_of_ne_nil h1
  have hr : l.rest = c :: (cs ++ rest) := by simp [hl]
  have hdig : ∀ d ∈ c :: cs, py.isDigit d = true := fun d hd => by
    rw [hpy.digit d (isDigit_ascii (h2 d hd)), h2 d hd]
  have hc := h2 c (by simp)
  have hc' := hdig c (by simp)
  have nc : ∀ d : Char, d.isDigit = false → c ≠ d := by
    rintro d hd rfl; rw [hc] at hd; simp at hd
  have hsp : py.isSpace c = false := by
    cases hs : py.isSpace c with
    | false => rfl
    | true =>
        have := hpy.space_alnum c hs
        rw [hpy.digit_alnum c hc'] at this; simp at this
  have hal : py.isAlpha c = false := by
    cases hs : py.isAlpha c with
    | false => rfl
    | true =>
        have := hpy.alpha_digit c hs
        rw [hc'] at this; simp at this
  have hnum : l.getToken py = l.number py := by
    rw [Lex.getToken, skip_of_head hr (nc _ (by decide)) hsp]
    unfold Lex.token
    rw [hr]
    simp [nc '\n' (by decide), nc '\'' (by decide), nc '"' (by decide), nc '_' (by decide), hal, hc']
  obtain ⟨t1, t2⟩ := takeWhile_append_stop (rest := rest) hdig fun d ds hd => (hstop d ds hd).1
  have hs1 : (l.span py.isDigit).1 = c :: cs := by rw [span_taken, hl, t1]
  have hs2 : (l.span py.isDigit).2.rest = rest := by rw [span_rest, hl, t2]
  have hdot : '.' ∉ c :: cs := fun h => by simpa using h2 _ h
  have htok : l.number py = numberToken py (c :: cs) (l.span py.isDigit).2 := by
    unfold Lex.number
    generalize hg : l.span py.isDigit = g at *
    obtain ⟨g1, g2⟩ := g
    simp only at hs1 hs2 ⊢
    subst hs1
    rw [hs2]
    split
    next d ds => exact absurd rfl (hstop _ _ rfl).2
    next => rfl
  rw [hnum, htok, numberToken, if_neg hdot, hpy.int _ h1 h2 hlen]
  exact ⟨_, _, rfl, hs2, rfl, by rw [h3]⟩

/-- One written token before a blank. -/
theorem written_token {py : PyCfg} (hpy : py.Lawful) {l : Lex} {w rest : List Char} {tt : TT} {x : Lexeme}
    (hw : Written py w tt x) (hl : l.rest = w ++ rest) (hstop : ∃ c cs, rest = c :: cs ∧ py.isSpace c = true) :
    ∃ t l', l.getToken py = .ok (t, l') ∧ l'.rest = rest ∧ t.tt = tt ∧ t.lexeme = x := by
  obtain ⟨b, bs, rfl, hb⟩ := hstop
  obtain ⟨b1, b2, b3, b4, b5, b6, b7⟩ := blank_facts hpy hb
  have hword : IsWord py w → ∃ t l', l.getToken py = .ok (t, l') ∧ l'.rest = b :: bs ∧ t.lexeme = .text w ∧
      (∀ tt, (w, tt) ∈ keywordTable ↔ t.tt = tt ∧ t.tt ≠ .identifier) ∧
      (t.tt = .identifier ↔ ∀ tt, (w, tt) ∉ keywordTable) := fun h =>
    word_token hpy hl h (by simp [b1, b2]) (by simp [b3, b4])
  cases hw with
  | word h hk =>
      obtain ⟨t, l', h1, h2, h3, _, h5⟩ := hword h
      exact ⟨t, l', h1, h2, h5.2 hk, h3⟩
  | keyword h =>
      obtain ⟨t, l', h1, h2, h3, h4, _⟩ := hword (keyword_isWord hpy h)
      exact ⟨t, l', h1, h2, ((h4 _).1 h).1, h3⟩
  | symbol h =>
      obtain ⟨t, l', h1, h2, h3, h4⟩ := symbol_token hpy hl h (fun _ c cs e k hk => by
        simp only [List.cons.injEq] at e
        exact b7 _ k hk (by simp [e.1]))
      exact ⟨t, l', h1, h2, h4, h3⟩
  | numeral h hlen =>
      exact numeral_token hpy hl h hlen (by simp [b5, b6])
  | quoted hq h1 h2 =>
      rename_i q s
      have hraw : rawText (s.map .char) = s := by simp [rawText, List.flatMap_map, StrItem.raw]
      have hmean : meaningText (s.map .char) = s := by
        simp [meaningText, Function.comp_def, StrItem.meaning]
      have hclear : ∀ (s : List Char) after, EscapesClear (s.map .char) after := by
        intro s after
        induction s with
        | nil => trivial
        | cons c s ih => exact ⟨trivial, ih⟩
      obtain ⟨t, l', e1, e2, e3, e4⟩ := quoted_token hpy hq (s.map .char) (b :: bs)
        (by
          intro c hc
          simp only [List.mem_map, StrItem.char.injEq, exists_eq_right] at hc
          exact ⟨fun e => h1 (e ▸ hc), fun e => h2 (e ▸ hc)⟩) (hclear s _) l
        (by rw [hraw, hl]; simp)
      exact ⟨t, l', e1, e2, e3, by rw [e4, hmean]⟩

/-- Blanks before a token or the end are skipped. -/
theorem getToken_blanks {py : PyCfg} (hpy : py.Lawful) {l : Lex} {bs rest : List Char} (hl : l.rest = bs ++ rest)
    (hb : ∀ c ∈ bs, py.isSpace c = true ∧ c ≠ '\n')
    (hr : ∀ c cs, rest = c :: cs → c ≠ '#' ∧ py.isSpace c = false) :
    ∃ l' : Lex, l'.rest = rest ∧ l.getToken py = l'.getToken py := by
  have hself : ∀ l' : Lex, l'.rest = rest → l'.skip py = l' := by
    intro l' h
    rcases rest with _ | ⟨c, cs⟩
    · simp [Lex.skip, h]
    · exact skip_of_head h (hr c cs rfl).1 (hr c cs rfl).2
  rcases bs with _ | ⟨b, bs⟩
  · exact ⟨l, hl, rfl⟩
  · have hbl := hb b (by simp)
    have hb1 : b ≠ '#' := by
      rintro rfl
      have := hbl.1
      rw [hpy.space _ (by decide)] at this
      exact absurd this (by decide)
    obtain ⟨t1, t2⟩ := takeWhile_append_stop (p := fun c => c != '\n' && py.isSpace c) (w := b :: bs)
      (rest := rest) (fun c hc => by simp [hb c hc]) (fun c cs e => by simp [(hr c cs e).2])
    have hrest : (l.span fun c => c != '\n' && py.isSpace c).2.rest = rest := by
      rw [span_rest, hl, t2]
    have hskip : l.skip py = (l.span fun c => c != '\n' && py.isSpace c).2 := by
      have h0 : l.rest = b :: (bs ++ rest) := by simp [hl]
      have h1 : l.skip py = l.whitespace py := by
        simp only [Lex.skip, h0, List.head?_cons, Option.some.injEq, hb1, ↓reduceIte, hbl.1, hbl.2, ne_eq,
          not_false_eq_true, and_self]
      rw [h1]
      show (if (l.span fun c => c != '\n' && py.isSpace c).2.rest.head? = some '#' then _ else _) = _
      rw [if_neg]
      rw [hrest]
      rcases rest with _ | ⟨c, cs⟩
      · simp
      · simpa using (hr c cs rfl).1
    refine ⟨_, hrest, ?_⟩
    rw [Lex.getToken, Lex.getToken, hskip, hself _ hrest]

theorem written_ne_eof {py : PyCfg} {w : List Char} {tt : TT} {x : Lexeme} (h : Written py w tt x) :
    tt ≠ .lexEof := by
  have k1 : ∀ p ∈ keywordTable, p.2 ≠ TT.lexEof := by decide
  have k2 : ∀ p ∈ symbolTable, p.2 ≠ TT.lexEof := by decide
  cases h with
  | word _ _ => decide
  | keyword h => exact k1 _ h
  | symbol h => exact k2 _ h
  | numeral _ _ => decide
  | quoted _ _ _ => decide

theorem all_written {py : PyCfg} (hpy : py.Lawful) (ts : List WrittenToken) (hts : WrittenOk py ts)
    (bs : List Char) (hbs : ∀ c ∈ bs, py.isSpace c = true ∧ c ≠ '\n') (l : Lex)
    (hl : l.rest = bs ++ writtenText ts) (fuel : Nat) (hf : (writtenText ts).length < fuel) :
    ∃ out, l.all py fuel = .ok out ∧
      out.map (fun t => (t.tt, t.lexeme)) = ts.map (fun t => (t.tt, t.lexeme)) ++ [(.lexEof, .text [])] := by
  induction ts generalizing bs l fuel with
  | nil =>
      obtain ⟨l', h1, h2⟩ := getToken_blanks hpy hl hbs (by simp [writtenText])
      obtain _ | fuel := fuel
      · omega
      have h3 : l'.getToken py = .ok ({ tt := .lexEof, lexeme := .text [], line := l'.line, col := l'.pos }, l') := by
        have h1' : l'.rest = [] := by simpa [writtenText] using h1
        simp [Lex.getToken, Lex.skip, Lex.token, h1']
      exact ⟨_, by simp [Lex.all, h2, h3]; rfl, by simp⟩
  | cons t ts ih =>
      obtain ⟨hw, hb⟩ := hts t (by simp)
      have hts' : WrittenOk py ts := fun u hu => hts u (by simp [hu])
      obtain ⟨c, cs, hc1, hc2, hc3⟩ := written_head hpy hw
      have htxt : writtenText (t :: ts) = t.text ++ (t.blanks ++ writtenText ts) := by
        simp [writtenText]
      obtain ⟨l1, h1, h2⟩ := getToken_blanks hpy hl hbs (by
        intro d ds e
        rw [htxt, hc1] at e
        simp only [List.cons_append, List.cons.injEq] at e
        exact e.1 ▸ ⟨hc2, hc3⟩)
      obtain ⟨b, bs', hb'⟩ := List.exists_cons_of_ne_nil hb.1
      obtain ⟨tok, l2, h3, h4, h5, h6⟩ := written_token hpy hw (l := l1) (by rw [h1, htxt])
        ⟨b, bs' ++ writtenText ts, by simp [hb'], (hb.2 b (by simp [hb'])).1⟩
      obtain _ | fuel := fuel
      · omega
      obtain ⟨out, h7, h8⟩ := ih hts' t.blanks hb.2 l2 h4 fuel (by
        rw [htxt, hc1] at hf
        simp at hf ⊢; omega)
      have hne : tok.tt ≠ .lexEof := by
        rw [h5]
        exact written_ne_eof hw
      refine ⟨tok :: out, ?_, by simp [h5, h6, h8]⟩
      simp [Lex.all, h2, h3, hne, h7, Except.map]

/-- **C27.** Writing any sequence of identifiers, keywords, numerals, quoted strings and symbols with
blanks after each and lexing the text gives back the same sequence, followed by the end marker. -/
theorem tokens_lex_back {py : PyCfg} (hpy : py.Lawful) (ts : List WrittenToken) (hts : WrittenOk py ts) :
    ∃ out, lexAll py (writtenText ts) = .ok out ∧
      out.map (fun t => (t.tt, t.lexeme)) = ts.map (fun t => (t.tt, t.lexeme)) ++ [(.lexEof, .text [])] :=
  all_written hpy ts hts [] (by simp) _ (by simp [Lex.init]) _ (by omega)

/-- Tokens that meet the hypotheses. -/
example : WrittenOk samplePy
    [⟨"mostra".toList, .mostra, .text "mostra".toList, " ".toList⟩,
     ⟨"nota".toList, .identifier, .text "nota".toList, "  ".toList⟩,
     ⟨"<=".toList, .lesseq, .text "<=".toList, " ".toList⟩,
     ⟨"42".toList, .integer, .int 42, "\t".toList⟩,
     ⟨"\"it's\"".toList, .string, .text "\"it's\"".toList, " ".toList⟩] := by
  intro t ht
  simp only [List.mem_cons, List.not_mem_nil, or_false] at ht
  rcases ht with rfl | rfl | rfl | rfl | rfl
  · exact ⟨.keyword (by decide), by decide, by decide⟩
  · refine ⟨.word ⟨⟨'n', "ota".toList, by decide, by decide⟩, by decide⟩ ?_, by decide, by decide⟩
    have : ∀ p ∈ keywordTable, p.1 ≠ "nota".toList := by decide
    exact fun tt h => this _ h rfl
  · exact ⟨.symbol (by decide), by decide, by decide⟩
  · refine ⟨.numeral (n := 42) ?_ (by decide), by decide, by decide⟩
    exact .snoc (ds := ['4']) (n := 4) '2' (.digit '4' (by decide)) (by decide)
  · exact ⟨.quoted (q := '"') (s := "it's".toList) (by decide) (by decide) (by decide), by decide, by decide⟩

end Amanda

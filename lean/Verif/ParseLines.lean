import Verif.LineTrees
import Verif.Props.ErrorLines

/-!
# The parser only puts tokens of the text into its trees

Used by C64: tokens on lines of the text give trees on lines of the text.
-/

namespace Amanda.Lines

/-- Lines 1 to `N`. -/
def upTo (N n : Nat) : Prop := 1 ≤ n ∧ n ≤ N

/-- The expressions of a format string have no line feed and no backslash. -/
def PlainExprs (t : Token) : Prop := ∀ cs, .expr cs ∈ fmtSplit false t.inner [] → '\n' ∉ cs ∧ '\\' ∉ cs

/-- A token of one of `N` lines; the expressions of a format string are plain. -/
def TokIn (N : Nat) (t : Token) : Prop := upTo N t.line ∧ (t.tt = .formatStr → PlainExprs t)

/-- All tokens the parser may still see. -/
structure StateIn (N : Nat) (s : PState) : Prop where
  look : TokIn N s.look
  rest : ∀ t ∈ s.rest, TokIn N t
  last : ∀ t, s.last = .ok t → TokIn N t

/-- What results of parsing functions are made of. -/
class HasLines (α : Type) where
  has : Nat → α → Prop

export HasLines (has)

instance : HasLines Token := ⟨TokIn⟩
instance : HasLines Unit := ⟨fun _ _ => True⟩
instance : HasLines Bool := ⟨fun _ _ => True⟩
instance : HasLines Char := ⟨fun _ _ => True⟩
instance : HasLines TyExpr := ⟨fun _ _ => True⟩
instance : HasLines Pat := ⟨fun N => patLines (upTo N)⟩
instance : HasLines Expr := ⟨fun N => exprLines (upTo N)⟩
instance : HasLines Arm := ⟨fun N => armLines (upTo N)⟩
instance : HasLines Stmt := ⟨fun N => stmtLines (upTo N)⟩
instance : HasLines ElseIf := ⟨fun N => elseLines (upTo N)⟩
instance : HasLines Param := ⟨fun N p => TokIn N p.name⟩
instance : HasLines UniaoVariant := ⟨fun N p => TokIn N p.name⟩
instance : HasLines Annotation := ⟨fun N p => TokIn N p.tok⟩
instance {α : Type} [HasLines α] : HasLines (List α) := ⟨fun N l => ∀ a ∈ l, has N a⟩
instance {α : Type} [HasLines α] : HasLines (Option α) := ⟨fun N l => ∀ a, l = some a → has N a⟩
instance {α β : Type} [HasLines α] [HasLines β] : HasLines (α × β) := ⟨fun N p => has N p.1 ∧ has N p.2⟩

section
variable {N : Nat}
@[simp] theorem has_tok {t : Token} : has N t = TokIn N t := rfl
@[simp] theorem has_unit {t : Unit} : has N t = True := rfl
@[simp] theorem has_bool {t : Bool} : has N t = True := rfl
@[simp] theorem has_char {t : Char} : has N t = True := rfl
@[simp] theorem has_ty {t : TyExpr} : has N t = True := rfl
@[simp] theorem has_pat {t : Pat} : has N t = patLines (upTo N) t := rfl
@[simp] theorem has_expr {t : Expr} : has N t = exprLines (upTo N) t := rfl
@[simp] theorem has_arm {t : Arm} : has N t = armLines (upTo N) t := rfl
@[simp] theorem has_stmt {t : Stmt} : has N t = stmtLines (upTo N) t := rfl
@[simp] theorem has_else {t : ElseIf} : has N t = elseLines (upTo N) t := rfl
@[simp] theorem has_param {t : Param} : has N t = TokIn N t.name := rfl
@[simp] theorem has_variant {t : UniaoVariant} : has N t = TokIn N t.name := rfl
@[simp] theorem has_ann {t : Annotation} : has N t = TokIn N t.tok := rfl
@[simp] theorem has_list {α : Type} [HasLines α] {l : List α} : has N l = ∀ a ∈ l, has N a := rfl
@[simp] theorem has_opt {α : Type} [HasLines α] {l : Option α} : has N l = ∀ a, l = some a → has N a := rfl
@[simp] theorem has_pair {α β : Type} [HasLines α] [HasLines β] {p : α × β} : has N p = (has N p.1 ∧ has N p.2) := rfl
end

section
variable {L : Nat → Prop}

@[simp] theorem patsLines_iff : ∀ {l : List Pat}, patsLines L l ↔ ∀ p ∈ l, patLines L p
  | [] => by simp [patsLines]
  | p :: ps => by simp [patsLines, patsLines_iff]

@[simp] theorem exprsLines_iff : ∀ {l : List Expr}, exprsLines L l ↔ ∀ p ∈ l, exprLines L p
  | [] => by simp [exprsLines]
  | p :: ps => by simp [exprsLines, exprsLines_iff]

@[simp] theorem armsLines_iff : ∀ {l : List Arm}, armsLines L l ↔ ∀ p ∈ l, armLines L p
  | [] => by simp [armsLines]
  | p :: ps => by simp [armsLines, armsLines_iff]

@[simp] theorem stmtsLines_iff : ∀ {l : List Stmt}, stmtsLines L l ↔ ∀ p ∈ l, stmtLines L p
  | [] => by simp [stmtsLines]
  | p :: ps => by simp [stmtsLines, stmtsLines_iff]

@[simp] theorem elsesLines_iff : ∀ {l : List ElseIf}, elsesLines L l ↔ ∀ p ∈ l, elseLines L p
  | [] => by simp [elsesLines]
  | p :: ps => by simp [elsesLines, elsesLines_iff]

theorem exprLines_token : ∀ {e : Expr}, exprLines L e → L e.token.line
  | .const _, h | .var _, h | .alvo _, h => h
  | .fmtStr _ _, h | .converta _ _ _, h | .bin _ _ _, h | .assign _ _ _, h | .index _ _ _, h | .indexSet _ _ _, h
  | .un _ _, h | .named _ _, h | .iguala _ _ _, h | .list _ _ _, h | .get _ _, h => by
      simp only [exprLines] at h; exact h.1
  | .call c _, h => by simp only [exprLines] at h; unfold Expr.token; exact exprLines_token h.1
  | .set _ b, h => by simp only [exprLines] at h; unfold Expr.token; exact exprLines_token h.2
  | .path ts, h => by
      simp only [exprLines] at h
      cases ts with
      | nil => exact absurd rfl h.1
      | cons t ts => exact h.2 t (by simp)

theorem patLines_token {p : Pat} (h : patLines L p) : L p.token.line := by
  cases p with
  | adtPath ts args =>
      simp only [patLines] at h
      cases ts with
      | nil => exact absurd rfl h.1
      | cons t ts => exact h.2.1 t (by simp)
  | adtVar => simp only [patLines] at h; exact h.1
  | _ => simpa [patLines, Pat.token] using h

theorem armPatLines_of {p : Pat} (h : patLines L p) : armPatLines L p := by
  cases p <;> trivial

end

/-! ## The judgement -/

/-- Started where all tokens are as wanted, the function leaves them so, and gives such things itself. -/
class Keeps {α : Type} [HasLines α] (N : Nat) (m : P α) : Prop where
  run : ∀ s a s', StateIn N s → m s = .ok (a, s') → StateIn N s' ∧ has N a

section
variable {α β : Type} [HasLines α] [HasLines β] {N : Nat}

theorem Keeps.bind {m : P α} {f : α → P β} (h : Keeps N m) (hf : ∀ a, has N a → Keeps N (f a)) : Keeps N (m >>= f) := by
  constructor
  intro s b s' hs e
  change (m s >>= fun r => f r.1 r.2) = _ at e
  cases hm : m s with
  | error x => rw [hm] at e; cases e
  | ok r =>
      rw [hm] at e
      obtain ⟨h1, h2⟩ := h.run s r.1 r.2 hs hm
      exact (hf r.1 h2).run r.2 b s' h1 e

theorem Keeps.pure {a : α} (h : has N a) : Keeps N (Pure.pure a : P α) := by
  constructor
  intro s b s' hs e
  cases e
  exact ⟨hs, h⟩

theorem Keeps.ite {c : Prop} [Decidable c] {m m' : P α} (h : Keeps N m) (h' : Keeps N m') : Keeps N (if c then m else m') := by
  split
  · exact h
  · exact h'

instance {msg : String} : Keeps N (fail msg : P α) := ⟨by intro s a s' _ e; cases e⟩
instance {msg : String} : Keeps N (raiseExc msg : P α) := ⟨by intro s a s' _ e; cases e⟩

instance : Keeps N look := ⟨by intro s a s' h e; cases e; exact ⟨h, h.look⟩⟩

instance : Keeps N nextTok := by
  constructor
  intro s a s' h e
  unfold nextTok at e
  split at e
  · rename_i t ts hr
    cases e
    exact ⟨⟨h.rest t (by simp [hr]), fun u hu => h.rest u (by simp [hr, hu]), h.last⟩, h.look⟩
  · split at e
    · rename_i t ht
      cases e
      exact ⟨⟨h.last t ht, h.rest, h.last⟩, h.look⟩
    · cases e

instance {tt : TT} {msg : Option String} : Keeps N (consume tt msg) := by
  constructor
  intro s a s' h e
  unfold consume at e
  split at e
  · exact Keeps.run s a s' h e
  · cases e

theorem Keeps.loopN {c : TT → Bool} {body : α → P α} (hb : ∀ a, has N a → Keeps N (body a)) :
    ∀ (n : Nat) {a : α}, has N a → Keeps N (Amanda.loopN c body n a)
  | 0, _, _ => ⟨by intro s b s' _ e; cases e⟩
  | n + 1, a, ha => by
      constructor
      intro s b s' hs e
      unfold Amanda.loopN at e
      split at e
      · exact ((hb a ha).bind fun b hb' => Keeps.loopN hb n hb').run s b s' hs e
      · cases e; exact ⟨hs, ha⟩

theorem Keeps.loop {c : TT → Bool} {body : α → P α} {a : α} (ha : has N a) (hb : ∀ a, has N a → Keeps N (body a)) :
    Keeps N (Amanda.loop c body a) := ⟨fun s b s' hs e => (Keeps.loopN hb _ ha).run s b s' hs e⟩

instance : Keeps N skipNewlines := Keeps.loop trivial fun _ _ => Keeps.bind inferInstance fun _ _ => Keeps.pure trivial

instance {tt : TT} : Keeps N (consumeNl tt) := Keeps.bind inferInstance fun _ _ => inferInstance

instance {tt : TT} : Keeps N (accept tt) := by
  constructor
  intro s a s' h e
  unfold accept at e
  split at e
  · exact (Keeps.bind (N := N) inferInstance fun _ _ => Keeps.pure trivial).run s a s' h e
  · cases e; exact ⟨h, trivial⟩

instance : Keeps N endStmt := by
  constructor
  intro s a s' h e
  unfold endStmt at e
  split at e
  · exact (Keeps.bind (N := N) inferInstance fun _ _ => Keeps.pure trivial).run s a s' h e
  · cases e

end

theorem TokIn.line {N : Nat} {t : Token} (h : TokIn N t) : upTo N t.line := h.1

/-- Facts about what was read, to facts about what is made of it. -/
macro "made" : tactic => `(tactic| (
  (try intros)
  simp_all [exprLines, stmtLines, armLines, elseLines, patLines, TokIn.line, or_imp, forall_and]
  done))

/-- Steps through a parsing function. -/
macro "kept" : tactic => `(tactic| repeat' first
  | assumption
  | infer_instance
  | refine Keeps.ite ?_ ?_
  | refine Keeps.bind ?_ (fun _ _ => ?_)
  | refine Keeps.loop ?_ (fun _ _ => ?_)
  | refine Keeps.pure ?_
  | made
  | split)

/-- The functions that are called again. -/
class Known (N : Nat) (r : Rec) : Prop where
  type : Keeps N r.type
  pattern : Keeps N r.pattern
  equality : Keeps N r.equality
  assignment : Keeps N r.assignment
  unary : Keeps N r.unary
  block : Keeps N r.block

attribute [instance] Known.type Known.pattern Known.equality Known.assignment Known.unary Known.block

/-! ## Format strings -/

/-- Characters of the expressions of a format string are characters of the format string. -/
theorem fmtSplit_mem {b : Bool} {cs cur : List Char} {ds : List Char} {c : Char} (h : .expr ds ∈ fmtSplit b cs cur) (hc : c ∈ ds) :
    c ∈ cs ∨ b = true ∧ c ∈ cur := by
  fun_induction fmtSplit b cs cur with
  | case1 cur => unfold fmtFlush at h; split at h <;> simp at h
  | case2 cur cs ih => have := ih h; simp_all
  | case3 cur cs _ ih =>
      rcases List.mem_append.mp h with h | h
      · unfold fmtFlush at h; split at h <;> simp at h
      · have := ih h; simp_all
  | case4 cur c' cs _ hx ih => have := ih h; simp_all
  | case5 => simp at h
  | case6 cur cs ih =>
      rcases List.mem_cons.mp h with h | h
      · cases h; exact .inr ⟨rfl, hc⟩
      · have := ih h; simp_all
  | case7 cur c' cs hx ih =>
      have := ih h
      simp only [List.mem_append, List.mem_singleton, true_and] at this
      simp only [List.mem_cons, true_and]
      tauto

theorem plainExprs_of_chars {t : Token} (h : '\n' ∉ t.chars ∧ '\\' ∉ t.chars) : PlainExprs t := by
  have hsub : ∀ c, c ∈ t.inner → c ∈ t.chars := fun c hc => List.mem_of_mem_tail (List.dropLast_subset _ hc)
  intro cs hc
  refine ⟨fun hx => ?_, fun hx => ?_⟩
  · have := fmtSplit_mem hc hx; simp at this; exact h.1 (hsub _ this)
  · have := fmtSplit_mem hc hx; simp at this; exact h.2 (hsub _ this)

/-- Tokens of a text without line feeds and backslashes. -/
theorem getToken_plain {py : PyCfg} (hpy : py.Lawful) {N : Nat} {l l' : Lex} {t : Token} (hi : upTo N l.line) (hn : '\n' ∉ l.rest) (hb : '\\' ∉ l.rest)
    (h : l.getToken py = .ok (t, l')) : TokIn N t ∧ l'.line = l.line ∧ '\n' ∉ l'.rest ∧ '\\' ∉ l'.rest := by
  obtain ⟨gap, text, hs, hg, hsp⟩ := getToken_spec hpy h
  have hl := hsp.line
  have hx := hsp.next
  rw [skip_line] at hl hx
  have hsplit := hsp.split
  rw [hs, List.append_assoc] at hn hb
  simp only [List.mem_append, not_or] at hn hb
  have hnl : ¬ (t.tt = .newline ∧ text = ['\n']) := fun ⟨_, e⟩ => hn.2.1 (by simp [e])
  rw [if_neg hnl] at hx
  refine ⟨⟨hl ▸ hi, fun hf => plainExprs_of_chars ?_⟩, by omega, hn.2.2, hb.2.2⟩
  have hsp' := hsp.spells
  generalize htext : text = text' at hsp'
  cases hsp' with
  | fstring hq hlen hbody =>
      rename_i q body s line col
      subst htext
      have hbb := hb.2.1
      have hnn := hn.2.1
      simp only [List.mem_cons, not_or] at hbb hnn
      obtain ⟨rfl, _⟩ := hbody hbb.2.2
      simp only [List.mem_append, not_or] at hbb hnn
      have h1 : q ≠ '\n' ∧ q ≠ '\\' := by rcases hq with rfl | rfl <;> decide
      simp only [Token.chars, Lexeme.chars, List.cons_append, List.mem_cons, List.mem_append, not_or]
      exact ⟨⟨hnn.2.1, hnn.2.2.1, by simpa using hnn.2.2.2⟩, hbb.2.1, hbb.2.2.1, by simpa using hbb.2.2.2⟩
  | keyword hk => simp only at hf; subst hf; revert hk; simp [keywordTable]
  | symbol hk => simp only at hf; subst hf; revert hk; simp [symbolTable]
  | _ => simp at hf

theorem stream_plain {py : PyCfg} (hpy : py.Lawful) {N fuel : Nat} {l : Lex} (hi : upTo N l.line) (hn : '\n' ∉ l.rest) (hb : '\\' ∉ l.rest) :
    (∀ t ∈ (l.stream py fuel).1, TokIn N t) ∧ (∀ t, (l.stream py fuel).2 = .ok t → TokIn N t) := by
  induction fuel generalizing l with
  | zero => simp [Lex.stream]
  | succ fuel ih =>
      unfold Lex.stream
      cases h : l.getToken py with
      | error e => simp
      | ok p =>
          obtain ⟨t, l'⟩ := p
          obtain ⟨ht, hl, hn', hb'⟩ := getToken_plain hpy hi hn hb h
          by_cases he : t.tt = .lexEof
          · simp only [he, ↓reduceIte, List.mem_singleton, forall_eq]
            refine ⟨ht, fun u hu => ?_⟩
            cases h2 : l'.getToken py with
            | error e => rw [h2] at hu; simp [Except.map] at hu
            | ok p =>
                obtain ⟨u', l''⟩ := p
                rw [h2] at hu
                simp only [Except.map, Except.ok.injEq] at hu
                subst hu
                exact (getToken_plain hpy (hl ▸ hi) hn' hb' h2).1
          · simp only [he, ↓reduceIte]
            obtain ⟨i1, i2⟩ := ih (hl ▸ hi) hn' hb'
            exact ⟨by simpa using ⟨ht, i1⟩, i2⟩

/-- The parser's first state, given the tokens. -/
theorem init_in {py : PyCfg} {N : Nat} {src : List Char} {s : PState}
    (h : (∀ t ∈ (Lex.stream py (src.length + 1) (Lex.init src)).1, TokIn N t) ∧
      ∀ t, (Lex.stream py (src.length + 1) (Lex.init src)).2 = .ok t → TokIn N t)
    (hs : PState.init py src = .ok s) : StateIn N s := by
  unfold PState.init at hs
  rcases hx : Lex.stream py (src.length + 1) (Lex.init src) with ⟨_ | ⟨t, ts⟩, e | u⟩
  all_goals simp only [hx] at h hs
  · cases hs
  · cases hs; exact ⟨h.2 u rfl, by simp, h.2⟩
  · cases hs; exact ⟨h.1 t (by simp), fun x hx => h.1 x (by simp [hx]), by simp⟩
  · cases hs; exact ⟨h.1 t (by simp), fun x hx => h.1 x (by simp [hx]), h.2⟩

section
variable {N : Nat} {py : PyCfg} {r : Rec} [hr : Known N r]

theorem fstrExpr_keeps (hpy : py.Lawful) {token : Token} {cs : List Char} (ht : TokIn N token) (hn : '\n' ∉ cs) (hb : '\\' ∉ cs) :
    Keeps N (fstrExpr py r token cs) := by
  constructor
  intro s a s' hs e
  unfold fstrExpr at e
  simp only at e
  split at e
  · cases e
  · split at e
    · cases e
    · split at e
      · rename_i e' s'' he
        cases e
        cases hi : PState.init py cs with
        | error x => rw [hi] at he; cases he
        | ok s1 =>
            rw [hi] at he
            have h1 := init_in (stream_plain hpy (fuel := cs.length + 1) (l := Lex.init cs) ⟨Nat.le_refl _, Nat.le_trans ht.1.1 ht.1.2⟩ hn hb) hi
            exact ⟨hs, (hr.equality.run s1 _ _ h1 he).2⟩
      · cases e
      · cases e

theorem fmtParts_keeps (hpy : py.Lawful) {token : Token} (ht : TokIn N token) : ∀ {ps : List FmtPiece},
    (∀ cs, .expr cs ∈ ps → '\n' ∉ cs ∧ '\\' ∉ cs) → Keeps N (fmtParts py r token ps)
  | [], _ => .pure (by simp)
  | .text cs :: ps, h => by
      unfold fmtParts
      have := fmtParts_keeps hpy ht (ps := ps) fun cs hc => h cs (by simp [hc])
      refine .bind this fun l hl => .pure ?_
      made
  | .expr cs :: ps, h => by
      unfold fmtParts
      have := fmtParts_keeps hpy ht (ps := ps) fun cs hc => h cs (by simp [hc])
      have hc := h cs (by simp)
      refine .bind (fstrExpr_keeps hpy ht hc.1 hc.2) fun e he => .bind this fun l hl => .pure ?_
      made
  | .unterminated :: _, _ => by unfold fmtParts; infer_instance

theorem parseFormatStr_keeps (hpy : py.Lawful) {s : PState} (hs : StateIn N s) (ht : s.look.tt = .formatStr) {a : Expr} {s' : PState}
    (e : parseFormatStr py r s = .ok (a, s')) : StateIn N s' ∧ has N a := by
  unfold parseFormatStr at e
  change (nextTok s >>= fun x => _) = _ at e
  cases hm : nextTok s with
  | error x => rw [hm] at e; cases e
  | ok x =>
      have hk := Keeps.run (m := nextTok) s x.1 x.2 hs hm
      have hl : x.1 = s.look := by
        unfold nextTok at hm
        split at hm
        · cases hm; rfl
        · split at hm
          · cases hm; rfl
          · cases hm
      rw [hm] at e
      obtain ⟨token, s1⟩ := x
      simp only at hl hk
      subst hl
      refine Keeps.run (self := ?_) (m := (do
        let parts ← fmtParts py r s.look (fmtSplit false s.look.inner [])
        if (fmtSplit false s.look.inner []).any FmtPiece.isExpr then pure (.fmtStr s.look parts)
        else
          match parts with
          | p :: _ => pure p
          | [] => raiseExc "IndexError")) s1 a s' hk.1 e
      refine .bind (fmtParts_keeps hpy hs.look (hs.look.2 ht)) fun parts hparts => ?_
      have := hs.look
      kept

end

/-! ## Types and expressions -/

section
variable {N : Nat} {py : PyCfg} {r : Rec} [hr : Known N r]

instance genericList_keeps {α : Type} [HasLines α] {item : P α} [Keeps N item] : Keeps N (genericList item) := by
  unfold genericList; kept

instance : Keeps N (genericArgs r) := by unfold genericArgs; kept
instance : Keeps N genericParams := by unfold genericParams; kept
instance : Keeps N (isMaybeType) := by unfold isMaybeType; kept
instance {t : Token} : Keeps N (typePath r t) := by unfold typePath; kept
instance {t : Token} : Keeps N (typeName r t) := by unfold typeName; kept
instance : Keeps N (typeL r) := by unfold typeL; kept

/-- A path with at least one name. -/
theorem pathTail_keeps {head : Token} (h : TokIn N head) : Keeps N (pathTail head) := by
  unfold pathTail
  let inst : HasLines (List Token) := ⟨fun N l => l ≠ [] ∧ ∀ t ∈ l, TokIn N t⟩
  refine @Keeps.bind _ _ inst _ _ _ _ (@Keeps.loop _ inst _ _ _ _ ⟨by simp, by simpa using h⟩ fun acc ha => ?_) fun l hl => .pure ?_
  · refine .bind inferInstance fun _ _ => .bind inferInstance fun t ht => @Keeps.pure _ inst _ _ ⟨by simp, ?_⟩
    intro u hu
    rcases List.mem_append.mp hu with hu | hu
    · exact ha.2 u hu
    · simp only [List.mem_singleton] at hu; exact hu ▸ ht
  · simp only [has_expr, exprLines]
    exact ⟨hl.1, fun t ht => (hl.2 t ht).1⟩

instance : Keeps N primaryName := by
  unfold primaryName
  refine .bind inferInstance fun t ht => .bind inferInstance fun _ _ => .ite (pathTail_keeps ht) (.pure ?_)
  made

instance : Keeps N (listElements r) := by unfold listElements; kept
instance : Keeps N (primaryList r) := by unfold primaryList; kept

theorem armBody_keeps {tok : Token} (h : TokIn N tok) :
    ∀ s a s', StateIn N s → armBody r tok s = .ok (a, s') → StateIn N s' ∧ TokIn N a.1 ∧ upTo N a.2.1.line ∧ stmtsLines (upTo N) a.2.2 := by
  let inst : HasLines (Token × Token × List Stmt) := ⟨fun N a => TokIn N a.1 ∧ upTo N a.2.1.line ∧ stmtsLines (upTo N) a.2.2⟩
  refine @Keeps.run _ inst _ _ ?_
  unfold armBody
  refine @Keeps.bind _ _ _ inst _ _ _ inferInstance fun t ht => @Keeps.ite _ inst _ _ _ _ _ ?_ ?_
  · refine @Keeps.bind _ _ _ inst _ _ _ inferInstance fun t ht => @Keeps.bind _ _ _ inst _ _ _ hr.block fun b hb =>
      @Keeps.bind _ _ _ inst _ _ _ inferInstance fun t' ht' => @Keeps.pure _ inst _ _ ⟨ht, ht.1, ?_⟩
    simpa using hb
  · refine @Keeps.bind _ _ _ inst _ _ _ hr.equality fun e he => @Keeps.pure _ inst _ _ ⟨h, exprLines_token he, ?_⟩
    simpa [stmtLines] using ⟨exprLines_token he, he⟩

instance : Keeps N (igualaArm r) := by
  unfold igualaArm
  refine .bind inferInstance fun _ _ => .bind inferInstance fun pat hpat => .bind inferInstance fun tok ht => .bind inferInstance fun _ _ => ?_
  let inst : HasLines (Token × Token × List Stmt) := ⟨fun N a => TokIn N a.1 ∧ upTo N a.2.1.line ∧ stmtsLines (upTo N) a.2.2⟩
  refine @Keeps.bind _ _ inst _ _ _ _ (@Keeps.mk _ inst _ _ (armBody_keeps ht)) fun a ha => .bind inferInstance fun _ _ => .pure ?_
  simp only [has_arm, armLines]
  exact ⟨ha.1.1, armPatLines_of hpat, ha.2⟩

instance : Keeps N (igualaStmt r) := by unfold igualaStmt moreArms; kept

theorem primary_keeps (hpy : py.Lawful) : Keeps N (primary py r) := by
  constructor
  intro s a s' hs e
  unfold primary at e
  change (if s.look.tt = .identifier then _ else _ : P Expr) s = _ at e
  have hl := hs.look
  split at e
  · exact Keeps.run (m := primaryName) s a s' hs e
  split at e
  · refine Keeps.run (self := ?_) s a s' hs e
    kept
  split at e
  · exact Keeps.run (m := primaryList r) s a s' hs e
  split at e
  · exact parseFormatStr_keeps hpy hs ‹_› e
  refine Keeps.run (self := ?_) s a s' hs e
  kept

instance : Keeps N (argument r) := by
  unfold argument
  refine .bind inferInstance fun e he => .bind inferInstance fun t ht => ?_
  split
  · refine .ite (.bind inferInstance fun _ _ => .bind inferInstance fun a ha => .pure ?_) (.pure he)
    made
  · exact .pure he

instance : Keeps N (firstArg r) := by unfold firstArg; kept
instance : Keeps N (callArgs r) := by unfold callArgs; kept
theorem callSuffix_keeps {e : Expr} (h : exprLines (upTo N) e) : Keeps N (callSuffix r e) := by unfold callSuffix; kept
theorem callCast_keeps {e : Expr} (h : exprLines (upTo N) e) : Keeps N (callCast r e) := by unfold callCast; kept

theorem callL_keeps (hpy : py.Lawful) : Keeps N (callL py r) := by
  unfold callL
  exact .bind (primary_keeps hpy) fun e he => .bind (.loop he fun e he => callSuffix_keeps he) fun e he => callCast_keeps he

theorem unaryL_keeps (hpy : py.Lawful) : Keeps N (unaryL py r) := by
  have := callL_keeps (N := N) (r := r) hpy
  unfold unaryL; kept

omit hr in
theorem binLevel_keeps {ops : TT → Bool} {operand : P Expr} (h : Keeps N operand) : Keeps N (binLevel ops operand) := by
  unfold binLevel; kept

theorem equalityL_keeps (hpy : py.Lawful) : Keeps N (equalityL py r) :=
  binLevel_keeps (binLevel_keeps (binLevel_keeps (binLevel_keeps (unaryL_keeps hpy))))

omit hr in
theorem mkAssign_lines {tok : Token} {e v : Expr} (ht : TokIn N tok) (he : exprLines (upTo N) e) (hv : exprLines (upTo N) v) :
    exprLines (upTo N) (mkAssign tok e v) := by
  unfold mkAssign
  have := ht.1
  split <;> simp_all [exprLines]

theorem assignmentL_keeps (hpy : py.Lawful) : Keeps N (assignmentL py r) := by
  unfold assignmentL
  refine .bind (equalityL_keeps hpy) fun e he => .bind inferInstance fun _ _ => .ite (.bind inferInstance fun tok ht => .ite ?_ inferInstance) (.pure he)
  exact .bind inferInstance fun v hv => .pure (mkAssign_lines ht he hv)

theorem compoundRhs_keeps (hpy : py.Lawful) {eq op : Token} {e : Expr} (hq : upTo N eq.line) (ho : upTo N op.line) (he : exprLines (upTo N) e) :
    Keeps N (compoundRhs py r eq op e) := by
  have := equalityL_keeps (N := N) (r := r) hpy
  unfold compoundRhs; kept

theorem expression_keeps (hpy : py.Lawful) : Keeps N (expression py r) := by
  unfold expression
  refine .bind (assignmentL_keeps hpy) fun e he => .bind inferInstance fun t ht => ?_
  split
  · exact .pure he
  · refine .ite (.bind inferInstance fun t ht => ?_) inferInstance
    exact compoundRhs_keeps hpy ht.1 ht.1 he

/-! ## Patterns -/

instance : Keeps N (patternArgs r) := by unfold patternArgs; kept

theorem patternL_keeps (hpy : py.Lawful) : Keeps N (patternL py r) := by
  unfold patternL
  refine .bind (primary_keeps hpy) fun e he => .bind inferInstance fun t ht => ?_
  simp only [has_expr] at he
  split
  · simp only [exprLines] at he
    kept
  · simp only [exprLines] at he
    kept
  · simp only [exprLines] at he
    kept
  · infer_instance

/-! ## Declarations -/

instance : Keeps N annotationAttrs := by unfold annotationAttrs; kept
instance : Keeps N annotationBody := by unfold annotationBody; kept
instance {tt : TT} : Keeps N (annotationList tt) := by unfold annotationList; kept
theorem paramTail_keeps {name : Token} (h : TokIn N name) : Keeps N (paramTail r name) := by unfold paramTail; kept

instance : Keeps N (formalParams r) := by
  unfold formalParams
  refine .bind inferInstance fun _ _ => .bind inferInstance fun _ _ => .ite (.bind inferInstance fun n hn => .bind (paramTail_keeps hn) fun p hp =>
    .loop (by made) fun acc ha => .bind inferInstance fun _ _ => .bind inferInstance fun n hn => .bind (paramTail_keeps hn) fun p hp =>
    .bind inferInstance fun _ _ => .pure (by made)) (.pure (by made))

instance : Keeps N (returnType r) := by unfold returnType; kept
instance : Keeps N (functionHeader r) := by unfold functionHeader; kept

theorem functionDecl_keeps {ann : List Annotation} (h : has N ann) : Keeps N (functionDecl r ann) := by
  unfold functionDecl; kept

instance : Keeps N (methodParams r) := by unfold methodParams; kept
instance : Keeps N (methodReturn r) := by unfold methodReturn; kept

theorem methodDecl_keeps {ann : List Annotation} (h : has N ann) : Keeps N (methodDecl r ann) := by
  unfold methodDecl; kept

instance : Keeps N (variantParams r) := by unfold variantParams; kept
instance : Keeps N (uniaoVariant r) := by unfold uniaoVariant; kept
instance : Keeps N (uniaoVariants r) := by unfold uniaoVariants; kept

theorem uniaoDecl_keeps {ann : List Annotation} (h : has N ann) : Keeps N (uniaoDecl r ann) := by
  unfold uniaoDecl; kept

theorem declAssign_keeps (hpy : py.Lawful) {name : Token} (h : upTo N name.line) : Keeps N (declAssign py r name) := by
  have := equalityL_keeps (N := N) (r := r) hpy
  unfold declAssign; kept

theorem simpleDecl_keeps (hpy : py.Lawful) {name : Token} (h : upTo N name.line) : Keeps N (simpleDecl py r name) := by
  have := declAssign_keeps (r := r) hpy h
  unfold simpleDecl
  refine .bind inferInstance fun tok ht => .bind inferInstance fun ty _ => .bind this fun a ha => .pure ?_
  cases a with
  | none => made
  | some a => have := ha a rfl; made

theorem multiDecl_keeps {name : Token} (h : upTo N name.line) : Keeps N (multiDecl r name) := by
  unfold multiDecl
  let inst : HasLines (List Token) := ⟨fun N l => ∀ t ∈ l, upTo N t.line⟩
  refine @Keeps.bind _ _ inst _ _ _ _ (@Keeps.loop _ inst _ _ _ _ (by simpa [has, inst] using h) fun acc ha => ?_) fun l hl =>
    .bind inferInstance fun tok ht => .bind inferInstance fun _ _ => .pure ?_
  · refine .bind inferInstance fun _ _ => .bind inferInstance fun t ht => @Keeps.pure _ inst _ _ ?_
    intro u hu
    rcases List.mem_append.mp hu with hu | hu
    · exact ha u hu
    · simp only [List.mem_singleton] at hu; exact hu ▸ ht.1
  · have hl' : ∀ t ∈ l, upTo N t.line := hl
    have := ht.1
    simp only [has_list, List.mem_map, forall_exists_index, and_imp, forall_apply_eq_imp_iff₂, has_stmt, stmtLines]
    exact fun t ht => ⟨this, hl' t ht⟩

theorem fieldDecl_keeps (hpy : py.Lawful) {name : Token} (h : upTo N name.line) : Keeps N (fieldDecl py r name) := by
  have := simpleDecl_keeps (r := r) hpy h
  have := multiDecl_keeps (r := r) h
  unfold fieldDecl; kept

theorem registoLine_keeps (hpy : py.Lawful) {acc : List Stmt} (h : has N acc) : Keeps N (registoLine py r acc) := by
  unfold registoLine
  refine .bind inferInstance fun _ _ => .ite (by kept) (.ite (.bind inferInstance fun n hn => .bind (fieldDecl_keeps hpy hn.1) fun ds hd =>
    .bind inferInstance fun _ _ => .pure (by made)) inferInstance)

theorem registoDecl_keeps (hpy : py.Lawful) {ann : List Annotation} (h : has N ann) : Keeps N (registoDecl py r ann) := by
  unfold registoDecl
  refine .bind inferInstance fun _ _ => .bind inferInstance fun n hn => .bind inferInstance fun g hg =>
    .bind (.loop (by made) fun acc ha => registoLine_keeps hpy ha) fun fs hf => .bind inferInstance fun _ _ => .pure (by made)

/-! ## Statements -/

instance : Keeps N (elseBranch r) := by unfold elseBranch; kept

omit hr in
theorem one_in {t : Token} (h : TokIn N t) : upTo N 1 := ⟨Nat.le_refl _, Nat.le_trans h.1.1 h.1.2⟩

theorem seIguala_keeps (hpy : py.Lawful) {token : Token} (h : TokIn N token) : Keeps N (seIguala py r token) := by
  unfold seIguala
  refine .bind inferInstance fun _ _ => .bind (equalityL_keeps hpy) fun e he => .bind inferInstance fun _ _ =>
    .bind (patternL_keeps hpy) fun pat hp => .bind inferInstance fun _ _ => .bind inferInstance fun b hb =>
    .bind inferInstance fun d hd => .bind inferInstance fun _ _ => .pure ?_
  have h1 := one_in h
  have h2 := patLines_token hp
  have h3 := armPatLines_of hp
  have h4 := h.1
  cases d with
  | none => simp_all [stmtLines, exprLines, armLines, armPatLines]
  | some d => simp_all [stmtLines, exprLines, armLines, armPatLines]

theorem elseIfs_keeps (hpy : py.Lawful) : Keeps N (elseIfs py r) := by
  have := equalityL_keeps (N := N) (r := r) hpy
  unfold elseIfs; kept

theorem seStatement_keeps (hpy : py.Lawful) : Keeps N (seStatement py r) := by
  have := equalityL_keeps (N := N) (r := r) hpy
  unfold seStatement
  refine .bind inferInstance fun t ht => .bind inferInstance fun _ _ => .ite (seIguala_keeps hpy ht) ?_
  refine .bind this fun e he => .bind inferInstance fun _ _ => .bind inferInstance fun b hb => .bind (elseIfs_keeps hpy) fun es hes =>
    .bind inferInstance fun d hd => .bind inferInstance fun _ _ => .pure ?_
  cases d <;> made

theorem enquantoStmt_keeps (hpy : py.Lawful) : Keeps N (enquantoStmt py r) := by
  have := equalityL_keeps (N := N) (r := r) hpy
  unfold enquantoStmt; kept

theorem incPart_keeps (hpy : py.Lawful) : Keeps N (incPart py r) := by
  have := equalityL_keeps (N := N) (r := r) hpy
  unfold incPart; kept

theorem paraStmt_keeps (hpy : py.Lawful) : Keeps N (paraStmt py r) := by
  have := equalityL_keeps (N := N) (r := r) hpy
  unfold paraStmt
  refine .bind inferInstance fun t ht => .bind inferInstance fun n hn => .bind inferInstance fun _ _ => .bind this fun x hx => .bind inferInstance fun _ _ =>
    .bind this fun y hy => .bind (incPart_keeps hpy) fun z hz => .bind inferInstance fun _ _ => .bind inferInstance fun b hb => .bind inferInstance fun _ _ => .pure ?_
  cases z <;> made

instance : Keeps N (defaultCase r) := by unfold defaultCase; kept

theorem escolhaStmt_keeps (hpy : py.Lawful) : Keeps N (escolhaStmt py r) := by
  have := equalityL_keeps (N := N) (r := r) hpy
  unfold escolhaStmt
  refine .bind inferInstance fun t ht => .bind this fun e he => .bind inferInstance fun _ _ => .bind inferInstance fun _ _ =>
    .bind (by kept) fun cs hcs => .bind inferInstance fun d hd => .bind inferInstance fun _ _ => .pure ?_
  cases d <;> made

theorem retornaStmt_keeps (hpy : py.Lawful) : Keeps N (retornaStmt py r) := by
  have := equalityL_keeps (N := N) (r := r) hpy
  unfold retornaStmt; kept

theorem declTail_keeps (hpy : py.Lawful) {e : Expr} (h : exprLines (upTo N) e) : Keeps N (declTail py r e) := by
  unfold declTail
  refine .bind inferInstance fun _ _ => ?_
  split
  · simp only [exprLines] at h
    refine .ite (.bind (simpleDecl_keeps hpy h) fun d hd => .pure (by made)) (.ite (multiDecl_keeps h) (.pure (by made)))
  · exact .pure (by made)

theorem declStmt_keeps (hpy : py.Lawful) : Keeps N (declStmt py r) := by
  unfold declStmt
  exact .bind (expression_keeps hpy) fun e he => .bind (declTail_keeps hpy he) fun ds hd => .bind inferInstance fun _ _ => .pure hd

theorem statement_keeps (hpy : py.Lawful) : Keeps N (statement py r) := by
  have := equalityL_keeps (N := N) (r := r) hpy
  have := retornaStmt_keeps (N := N) (r := r) hpy
  have := enquantoStmt_keeps (N := N) (r := r) hpy
  have := seStatement_keeps (N := N) (r := r) hpy
  have := paraStmt_keeps (N := N) (r := r) hpy
  have := escolhaStmt_keeps (N := N) (r := r) hpy
  have := declStmt_keeps (N := N) (r := r) hpy
  unfold statement; kept

instance : Keeps N declAnnotations := by unfold declAnnotations; kept

theorem declaration_keeps (hpy : py.Lawful) : Keeps N (declaration py r) := by
  unfold declaration
  refine .bind inferInstance fun ann ha => .bind inferInstance fun _ _ => ?_
  have := functionDecl_keeps (r := r) ha
  have := methodDecl_keeps (r := r) ha
  have := registoDecl_keeps (r := r) hpy ha
  have := uniaoDecl_keeps (r := r) ha
  have := statement_keeps (N := N) (r := r) hpy
  kept

theorem blockItem_keeps (hpy : py.Lawful) {acc : List Stmt} (h : has N acc) : Keeps N (blockItem py r acc) := by
  unfold blockItem
  exact .bind inferInstance fun _ _ => .ite (.bind inferInstance fun _ _ => .pure h)
    (.bind (declaration_keeps hpy) fun ss hs => .pure (by made))

theorem blockL_keeps (hpy : py.Lawful) : Keeps N (blockL py r) := .loop (by simp) fun _ h => blockItem_keeps hpy h

theorem known_up (hpy : py.Lawful) : Known N (r.up py) where
  type := inferInstanceAs (Keeps N (typeL r))
  pattern := patternL_keeps hpy
  equality := equalityL_keeps hpy
  assignment := assignmentL_keeps hpy
  unary := unaryL_keeps hpy
  block := blockL_keeps hpy

end

theorem known {N : Nat} {py : PyCfg} (hpy : py.Lawful) : ∀ n, Known N (recN py n)
  | 0 => by constructor <;> exact ⟨by intro s a s' _ e; cases e⟩
  | n + 1 => have := known (N := N) hpy n; known_up hpy

/-! ## Programs -/

/-- `usa` comes first. -/
theorem usaStmt_keeps {N : Nat} : ∀ s a s', StateIn N s → usaStmt s = .ok (a, s') → StateIn N s' ∧ usaLines (upTo N) a := by
  let inst : HasLines Stmt := ⟨fun N => usaLines (upTo N)⟩
  have hi : Keeps N usaItems := by unfold usaItems; kept
  refine @Keeps.run _ inst _ _ ?_
  unfold usaStmt
  refine @Keeps.bind _ _ _ inst _ _ _ inferInstance fun t ht => @Keeps.bind _ _ _ inst _ _ _ inferInstance fun m hm =>
    @Keeps.bind _ _ _ inst _ _ _ inferInstance fun _ _ => @Keeps.ite _ inst _ _ _ _ _ ?_ ?_
  · refine @Keeps.bind _ _ _ inst _ _ _ inferInstance fun _ _ => @Keeps.ite _ inst _ _ _ _ _ ?_ (@Keeps.ite _ inst _ _ _ _ _ ?_ ?_)
    · exact @Keeps.bind _ _ _ inst _ _ _ inferInstance fun _ _ => @Keeps.pure _ inst _ _ ⟨ht.1, hm.1⟩
    · exact @Keeps.bind _ _ _ inst _ _ _ hi fun _ _ => @Keeps.pure _ inst _ _ ⟨ht.1, hm.1⟩
    · infer_instance
  · exact @Keeps.bind _ _ _ inst _ _ _ inferInstance fun _ _ => @Keeps.pure _ inst _ _ ⟨ht.1, hm.1⟩

theorem moduleL_lines {N : Nat} {py : PyCfg} {r : Rec} [Known N r] (hpy : py.Lawful) {s s' : PState} {t : Tree} (hs : StateIn N s)
    (h : moduleL py r s = .ok (t, s')) : treeLines (upTo N) t := by
  let inst : HasLines (List Stmt) := ⟨fun N l => ∀ s ∈ l, usaLines (upTo N) s ∨ stmtLines (upTo N) s⟩
  let instT : HasLines Tree := ⟨fun N => treeLines (upTo N)⟩
  refine (Keeps.run (self := ?_) s t s' hs h).2
  unfold moduleL
  refine .bind inferInstance fun _ _ => .bind inferInstance fun ann ha => @Keeps.bind _ _ inst _ _ _ _ (@Keeps.loop _ inst _ _ _ _ (by simp [has, inst]) fun acc hacc => ?_)
    fun us hus => @Keeps.bind _ _ inst _ _ _ _ (@Keeps.loop _ inst _ _ _ _ hus fun acc hacc => ?_) fun l hl => .pure ⟨fun a h => (ha a h).1, hl⟩
  · let instU : HasLines Stmt := ⟨fun N => usaLines (upTo N)⟩
    refine @Keeps.bind _ _ instU inst _ _ _ (@Keeps.mk _ instU _ _ usaStmt_keeps) fun u hu => @Keeps.bind _ _ _ inst _ _ _ inferInstance fun _ _ => @Keeps.pure _ inst _ _ ?_
    intro x hx
    rcases List.mem_append.mp hx with hx | hx
    · exact hacc x hx
    · simp only [List.mem_singleton] at hx; exact hx ▸ .inl hu
  · unfold blockItem
    refine @Keeps.bind _ _ _ inst _ _ _ inferInstance fun _ _ => @Keeps.ite _ inst _ _ _ _ _ (@Keeps.bind _ _ _ inst _ _ _ inferInstance fun _ _ => @Keeps.pure _ inst _ _ hacc) ?_
    refine @Keeps.bind _ _ instHasLinesList inst _ _ _ (declaration_keeps hpy) fun ss hss => @Keeps.pure _ inst _ _ ?_
    intro x hx
    rcases List.mem_append.mp hx with hx | hx
    · exact hacc x hx
    · exact .inr (hss x hx)

/-- The expressions in the format strings of a text have no line feed and no backslash. -/
def PlainFormats (py : PyCfg) (src : List Char) : Prop :=
  ∀ t ∈ (Lex.stream py (src.length + 1) (Lex.init src)).1, t.tt = .formatStr → PlainExprs t

/-- What comes after the last token is an end token again. -/
theorem stream_last {py : PyCfg} (hpy : py.Lawful) (src : List Char) {t : Token} (h : (Lex.stream py (src.length + 1) (Lex.init src)).2 = .ok t) :
    t.tt = .lexEof := by
  have hany := init_spec hpy src (tok := fun _ => True) (err := fun e => Reported e ∨ Escapes e) (fun _ _ => trivial) (by
      rintro e (h | ⟨h, _⟩)
      · exact .inl h
      · exact .inr (.inl h))
  revert hany
  unfold PState.init
  rcases hs : Lex.stream py (src.length + 1) (Lex.init src) with ⟨_ | ⟨t, ts⟩, e | u⟩
  all_goals simp only [hs] at h
  · cases h
  · cases h
    rintro ⟨hg, hw⟩
    exact (hg.ended _ rfl).1
  · cases h
  · cases h
    rintro ⟨hg, hw⟩
    exact (hg.ended _ rfl).1

/-- The trees the parser makes. -/
theorem parse_lines {py : PyCfg} (hpy : py.Lawful) {src : List Char} (hf : PlainFormats py src) {t : Tree} (h : parse py src = .ok t) :
    treeLines (LineOf src) t := by
  by_cases hne : src = []
  · subst hne
    cases h
    exact ⟨by simp, by simp⟩
  have hi : LineInv (Pipeline.fileLines src).length (Lex.init src) := by
    have := lines_pos hne
    exact ⟨Nat.le_refl _, this, by simp only [Lex.init]; omega⟩
  obtain ⟨h1, h2, -⟩ := stream_lines hpy (fuel := src.length + 1) hi
  have hL : LineOf src = upTo (Pipeline.fileLines src).length := by
    funext n
    exact propext (lineOf_iff src n)
  rw [hL]
  unfold parse at h
  obtain ⟨s, hs, h⟩ := except_bind_eq_ok.mp h
  obtain ⟨⟨t', s'⟩, hm, h⟩ := except_bind_eq_ok.mp h
  cases h
  have := known (N := (Pipeline.fileLines src).length) hpy (s.weight + 1)
  refine moduleL_lines hpy (init_in ⟨fun u hu => ⟨h1 u hu, hf u hu⟩, fun u hu => ⟨h2 u hu, fun hx => ?_⟩⟩ hs) hm
  rw [stream_last hpy src hu] at hx
  cases hx

end Amanda.Lines

import Verif.Grammar
import Verif.Props.Soundness

/-!
# C62: the parser makes the trees of the grammar
-/

namespace Amanda

open Imports

namespace Grammar

/-! ## What a parsing function gives -/

/-- If the next token is as `p` says and the function succeeds, what it gives is as `Q` says. -/
def Gives {α : Type} (p : Token → Prop) (m : P α) (Q : α → Prop) : Prop :=
  ∀ s a s', p s.look → m s = .ok (a, s') → Q a

/-- Any token. -/
def anyTok : Token → Prop := fun _ => True

section
variable {α β : Type} {p : Token → Prop}

theorem Gives.mono {m : P α} {Q R : α → Prop} {q : Token → Prop} (h : Gives q m Q) (hp : ∀ t, p t → q t)
    (hq : ∀ a, Q a → R a) : Gives p m R := fun s a s' ht h' => hq a (h s a s' (hp _ ht) h')

theorem Gives.any {m : P α} {Q : α → Prop} (h : Gives anyTok m Q) : Gives p m Q := h.mono (fun _ _ => trivial) fun _ h => h

theorem Gives.pure {Q : α → Prop} {a : α} (h : Q a) : Gives p (Pure.pure a : P α) Q := by
  intro s b s' _ e
  cases e
  exact h

theorem Gives.bind {m : P α} {f : α → P β} {Q : α → Prop} {R : β → Prop} (h : Gives p m Q)
    (hf : ∀ a, Q a → Gives anyTok (f a) R) : Gives p (m >>= f) R := by
  intro s b s' ht e
  change (m s >>= fun r => f r.1 r.2) = _ at e
  cases hm : m s with
  | error x => rw [hm] at e; cases e
  | ok r =>
      rw [hm] at e
      exact hf r.1 (h s r.1 r.2 ht hm) r.2 b s' trivial e

theorem Gives.skip {m : P α} {f : α → P β} {R : β → Prop} (hf : ∀ a, Gives anyTok (f a) R) : Gives p (m >>= f) R :=
  Gives.bind (Q := fun _ => True) (fun _ _ _ _ _ => trivial) fun a _ => hf a

theorem Gives.look {f : Token → P β} {R : β → Prop} (h : ∀ t, p t → Gives (· = t) (f t) R) : Gives p (Amanda.look >>= f) R := by
  intro s b s' ht e
  exact h s.look ht s b s' rfl e

theorem Gives.fail {Q : α → Prop} {msg : String} : Gives p (Amanda.fail msg : P α) Q := by intro s a s' _ e; cases e

theorem Gives.raise {Q : α → Prop} {msg : String} : Gives p (raiseExc msg : P α) Q := by intro s a s' _ e; cases e

theorem Gives.next : Gives p nextTok p := by
  intro s a s' ht e
  unfold nextTok at e
  split at e
  · cases e; exact ht
  · split at e
    · cases e; exact ht
    · cases e

theorem Gives.consume {tt : TT} {msg : Option String} : Gives p (Amanda.consume tt msg) fun t => t.tt = tt := by
  intro s a s' ht e
  unfold Amanda.consume at e
  split at e
  · rename_i h
    exact (Gives.next (p := fun t => t.tt = tt)) s a s' h e
  · cases e

theorem Gives.consumeNl {tt : TT} : Gives p (Amanda.consumeNl tt) fun t => t.tt = tt := .skip fun _ => .consume

theorem Gives.ite {c : Prop} [Decidable c] {m m' : P α} {Q : α → Prop} (h : c → Gives p m Q) (h' : ¬ c → Gives p m' Q) :
    Gives p (if c then m else m') Q := by
  split
  · exact h ‹_›
  · exact h' ‹_›

theorem Gives.loopN {c : TT → Bool} {body : α → P α} {Q : α → Prop} (hb : ∀ a, Q a → Gives (fun t => c t.tt = true) (body a) Q) :
    ∀ (n : Nat) {a : α}, Q a → Gives anyTok (Amanda.loopN c body n a) Q
  | 0, _, _ => by intro s b s' _ e; cases e
  | n + 1, a, ha => by
      intro s b s' _ e
      unfold Amanda.loopN at e
      split at e
      · rename_i hc
        exact ((hb a ha).bind fun b hb' => Gives.loopN hb n hb') s b s' hc e
      · cases e; exact ha

theorem Gives.loop {c : TT → Bool} {body : α → P α} {Q : α → Prop} {a : α} (ha : Q a)
    (hb : ∀ a, Q a → Gives (fun t => c t.tt = true) (body a) Q) : Gives p (Amanda.loop c body a) Q :=
  fun s b s' _ e => Gives.loopN hb _ ha s b s' trivial e

/-- A loop that is entered. -/
theorem Gives.loopOnce {c : TT → Bool} {body : α → P α} {Q : α → Prop} {a : α} (hc : ∀ t, p t → c t.tt = true)
    (ha : Gives p (body a) Q) (hb : ∀ a, Q a → Gives (fun t => c t.tt = true) (body a) Q) : Gives p (Amanda.loop c body a) Q := by
  intro s b s' ht e
  change Amanda.loopN c body (s.weight + 1) a s = _ at e
  unfold Amanda.loopN at e
  rw [if_pos (hc _ ht)] at e
  exact (ha.bind fun b hb' => Gives.loopN hb _ hb') s b s' ht e

end

/-! ## Lists -/

theorem typesOk_append (a b : List TyExpr) : typesOk (a ++ b) = (typesOk a && typesOk b) := by
  induction a with
  | nil => simp [typesOk]
  | cons t ts ih => simp [typesOk, ih, Bool.and_assoc]

theorem patsOk_append (a b : List Pat) : patsOk (a ++ b) = (patsOk a && patsOk b) := by
  induction a with
  | nil => simp [patsOk]
  | cons t ts ih => simp [patsOk, ih, Bool.and_assoc]

theorem valuesOk_append (x : Bool) (a b : List Expr) : valuesOk x (a ++ b) = (valuesOk x a && valuesOk x b) := by
  induction a with
  | nil => simp [valuesOk]
  | cons t ts ih => simp [valuesOk, ih, Bool.and_assoc]

theorem argsOk_append (x : Bool) (a b : List Expr) : argsOk x (a ++ b) = (argsOk x a && argsOk x b) := by
  induction a with
  | nil => simp [argsOk]
  | cons t ts ih => cases t <;> simp [argsOk, ih, Bool.and_assoc]

theorem armsOk_append (x : Bool) (a b : List Arm) : armsOk x (a ++ b) = (armsOk x a && armsOk x b) := by
  induction a with
  | nil => simp [armsOk]
  | cons t ts ih => cases t; simp [armsOk, ih, Bool.and_assoc]

theorem stmtsOk_append (x : Bool) (a b : List Stmt) : stmtsOk x (a ++ b) = (stmtsOk x a && stmtsOk x b) := by
  induction a with
  | nil => simp [stmtsOk]
  | cons t ts ih => simp [stmtsOk, ih, Bool.and_assoc]

theorem elsesOk_append (x : Bool) (a b : List ElseIf) : elsesOk x (a ++ b) = (elsesOk x a && elsesOk x b) := by
  induction a with
  | nil => simp [elsesOk]
  | cons t ts ih => cases t; simp [elsesOk, ih, Bool.and_assoc]

theorem fieldsOk_append (x : Bool) (a b : List Stmt) : fieldsOk x (a ++ b) = (fieldsOk x a && fieldsOk x b) := by
  induction a with
  | nil => simp [fieldsOk]
  | cons t ts ih => cases t <;> simp [fieldsOk, ih, Bool.and_assoc]

theorem argsOk_value {x : Bool} {e : Expr} (h : exprOk x false e = true) : argsOk x [e] = true := by
  cases e <;> simp_all [argsOk, exprOk]

theorem assignOk_value {x : Bool} {e : Expr} (h : exprOk x false e = true) : exprOk x true e = true := by
  cases e <;> simp_all [exprOk]

/-! ## The functions that are called again -/

/-- What they give. -/
structure Good (r : Rec) : Prop where
  type : Gives anyTok r.type (typeOk · = true)
  pattern : Gives anyTok r.pattern (patOk · = true)
  equality : Gives anyTok r.equality (exprOk true false · = true)
  assignment : Gives anyTok r.assignment (exprOk true true · = true)
  unary : Gives anyTok r.unary (exprOk true false · = true)
  block : Gives anyTok r.block (stmtsOk true · = true)

theorem good_zero (py : PyCfg) : Good (recN py 0) := by
  constructor <;> intro s a s' _ e <;> cases e

section
variable {py : PyCfg} {r : Rec} (h : Good r) {p : Token → Prop}

theorem ident_of {t : Token} (h : t.tt = .identifier) : ident t = true := by simp [ident, h]

/-! ### Types -/

theorem genericList_gives {α : Type} {item : P α} {Q : α → Prop} (hi : Gives anyTok item Q) :
    Gives p (genericList item) fun l => l ≠ [] ∧ ∀ a ∈ l, Q a := by
  unfold genericList
  refine .skip fun _ => .look fun t _ => .ite (fun _ => .fail) fun ht => ?_
  have step : ∀ acc : List α, (∀ a ∈ acc, Q a) → Gives anyTok (do
      let x ← item
      let _ ← accept .comma
      Pure.pure (acc ++ [x])) fun l => l ≠ [] ∧ ∀ a ∈ l, Q a := by
    intro acc hacc
    refine .bind hi fun x hx => .skip fun _ => .pure ⟨by simp, ?_⟩
    intro a ha
    rcases List.mem_append.mp ha with ha | ha
    · exact hacc a ha
    · simp only [List.mem_singleton] at ha; exact ha ▸ hx
  refine .bind (Q := fun l => l ≠ [] ∧ ∀ a ∈ l, Q a) (.loopOnce ?_ (step [] (by simp)).any fun acc ha => (step acc ha.2).any) ?_
  · rintro _ rfl; simpa using ht
  · exact fun l hl => .skip fun _ => .pure hl

theorem typesOk_all {l : List TyExpr} (h : ∀ a ∈ l, typeOk a = true) : typesOk l = true := by
  induction l with
  | nil => rfl
  | cons a l ih => simp [typesOk, h a (by simp), ih fun b hb => h b (by simp [hb])]

/-- Optional arguments of a type. -/
def argsGiven : Option (List TyExpr) → Prop
  | none => True
  | some as => as ≠ [] ∧ typesOk as = true

include h in
theorem genericArgs_gives : Gives p (genericArgs r) argsGiven := by
  unfold genericArgs
  refine .look fun _ _ => .ite (fun _ => ?_) fun _ => .pure trivial
  exact .bind (genericList_gives h.type) fun l hl => .pure ⟨hl.1, typesOk_all hl.2⟩

theorem genericParams_gives : Gives p genericParams (·.all ident = true) := by
  unfold genericParams
  refine .look fun _ _ => .ite (fun _ => ?_) fun _ => .pure rfl
  exact (genericList_gives (.consume (p := anyTok))).mono (fun _ h => h) fun l hl =>
    List.all_eq_true.mpr fun a ha => ident_of (hl.2 a ha)

include h in
theorem typePath_gives {head : Token} (hh : ident head = true) (hp : ∀ t, p t → t.tt = .dot) :
    Gives p (typePath r head) (typeOk · = true) := by
  unfold typePath
  have step : ∀ acc : List (List Char), 1 ≤ acc.length → Gives anyTok (do
      let _ ← Amanda.consume .dot
      let t ← Amanda.consume .identifier
      Pure.pure (acc ++ [t.chars])) fun l => 2 ≤ l.length := by
    intro acc ha
    refine .skip fun _ => .skip fun _ => .pure ?_
    simp; omega
  refine .bind (Q := fun l => 2 ≤ l.length) (.loopOnce (fun t ht => by simp [hp t ht]) (step _ (by simp)).any
    fun acc ha => (step acc (by omega)).any) fun comps hc => ?_
  refine .bind (genericArgs_gives h) fun args ha => .skip fun _ => .pure ?_
  cases args with
  | none => simp [typeOk, hh, hc]
  | some as => simp [typeOk, hh, hc, ha.1, ha.2]

include h in
theorem typeL_gives : Gives p (typeL r) (typeOk · = true) := by
  unfold typeL
  refine .look fun _ _ => .ite (fun _ => ?_) fun _ => .ite (fun _ => ?_) fun _ => .fail
  · refine .bind .consume fun name hn => ?_
    unfold typeName
    refine .look fun _ _ => .ite (fun hd => ?_) fun _ => ?_
    · exact typePath_gives h (ident_of hn) (by rintro _ rfl; exact hd)
    · refine .bind (genericArgs_gives h) fun args ha => .skip fun _ => .pure ?_
      cases args with
      | none => simp [typeOk, ident_of hn]
      | some as => simp [typeOk, ident_of hn, ha.1, ha.2]
  · refine .skip fun _ => .bind h.type fun el hel => .skip fun _ => .skip fun _ => .pure ?_
    simpa [typeOk] using hel

/-! ### Expressions -/

include h in
theorem fstrExpr_gives {token : Token} {cs : List Char} : Gives p (fstrExpr py r token cs) (exprOk true false · = true) := by
  intro s a s' _ e
  unfold fstrExpr at e
  simp only at e
  split at e
  · cases e
  · split at e
    · cases e
    · split at e
      · rename_i e' s'' he
        cases e
        cases hi : PState.init py cs with
        | error x => rw [hi] at he; cases he
        | ok s1 => rw [hi] at he; exact h.equality s1 _ _ trivial he
      · cases e
      · cases e

include h in
theorem fmtParts_gives {token : Token} : ∀ {ps : List FmtPiece} {p : Token → Prop},
    Gives p (fmtParts py r token ps) (valuesOk true · = true)
  | [], _ => .pure (by simp [valuesOk])
  | .text cs :: ps, _ => by
      unfold fmtParts
      exact .bind fmtParts_gives fun l hl => .pure (by simp [valuesOk, exprOk, literal, hl])
  | .expr cs :: ps, _ => by
      unfold fmtParts
      exact .bind (fstrExpr_gives h) fun e he => .bind fmtParts_gives fun l hl => .pure (by simp [valuesOk, he, hl])
  | .unterminated :: _, _ => by unfold fmtParts; exact .fail

include h in
theorem parseFormatStr_gives (hp : ∀ t, p t → t.tt = .formatStr) : Gives p (parseFormatStr py r) (exprOk true false · = true) := by
  unfold parseFormatStr
  refine .bind .next fun token ht => ?_
  refine .bind (fmtParts_gives h) fun parts hparts => .ite (fun _ => .pure ?_) fun _ => ?_
  · simp [exprOk, hp _ ht, hparts]
  · cases parts with
    | nil => exact .raise
    | cons e es =>
        simp only [valuesOk, Bool.and_eq_true] at hparts
        exact .pure hparts.1

theorem primaryName_gives : Gives p primaryName (exprOk true false · = true) := by
  unfold primaryName
  refine .bind .consume fun t ht => .look fun n _ => .ite (fun hn => ?_) fun _ => .pure (by simp [exprOk, ident_of ht])
  unfold pathTail
  have step : ∀ acc : List Token, 1 ≤ acc.length ∧ acc.all ident = true → Gives anyTok (do
      let _ ← Amanda.consume .doublecolon
      let t ← Amanda.consume .identifier
        (some "Expressão de caminho inválida. Esperava-se um identificador após o símbolo '::'")
      Pure.pure (acc ++ [t])) fun l => 2 ≤ l.length ∧ l.all ident = true := by
    intro acc ha
    refine .skip fun _ => .bind .consume fun t ht => .pure ⟨?_, ?_⟩
    · simp; omega
    · simp only [List.all_append, ha.2, List.all_cons, List.all_nil, ident_of ht]; rfl
  refine .bind (Q := fun l => 2 ≤ l.length ∧ l.all ident = true)
    (.loopOnce (by rintro _ rfl; simp [hn]) (step _ ⟨by simp, by simp [ident_of ht]⟩).any
      fun acc ha => (step acc ⟨by omega, ha.2⟩).any) fun comps hc => .pure ?_
  simp only [exprOk, hc.2, hc.1, decide_true, Bool.and_self]

include h in
theorem primaryList_gives : Gives p (primaryList r) (exprOk true false · = true) := by
  unfold primaryList
  refine .skip fun _ => .skip fun _ => .bind h.type fun ty hty => .skip fun _ =>
    .bind (Q := (valuesOk true · = true)) ?_ fun es hes => .skip fun _ => .pure (by simp [exprOk, hty, hes])
  unfold listElements
  refine .look fun _ _ => .ite (fun _ => .pure (by simp [valuesOk])) fun _ => .skip fun _ => .bind h.equality fun e he => ?_
  refine .loop (by simp [valuesOk, he]) fun acc hacc => .skip fun _ => .skip fun _ => .bind h.equality fun e he =>
    .skip fun _ => .pure ?_
  simp [valuesOk_append, valuesOk, hacc, he]

include h in
theorem igualaArm_gives : Gives p (igualaArm r) fun a => armsOk true [a] = true := by
  unfold igualaArm
  refine .skip fun _ => .bind h.pattern fun pat hpat => .skip fun tok => .skip fun _ =>
    .bind (Q := fun x => stmtsOk true x.2.2 = true) ?_ fun x hx => .skip fun _ => .pure ?_
  · unfold armBody
    refine .look fun _ _ => .ite (fun _ => ?_) fun _ => ?_
    · exact .skip fun _ => .bind h.block fun b hb => .skip fun _ => .pure hb
    · exact .bind h.equality.any fun e he => .pure (by simp [stmtsOk, stmtOk, he])
  · simp [armsOk, hpat, hx]

include h in
theorem igualaStmt_gives : Gives p (igualaStmt r) (exprOk true false · = true) := by
  unfold igualaStmt
  refine .skip fun _ => .bind h.equality fun e he => .bind (Q := (armsOk true · = true)) ?_ fun arms ha => .skip fun _ => .pure ?_
  · refine .loop (by simp [armsOk]) fun acc hacc => .bind (igualaArm_gives h) fun a ha => ?_
    unfold moreArms
    refine .loop (by simp only [armsOk_append, hacc, ha]; rfl) fun acc hacc => .skip fun _ => .bind (igualaArm_gives h) fun a ha => .pure ?_
    simp only [armsOk_append, hacc, ha]; rfl
  · simp [exprOk, he, ha]

theorem isLiteral_literal {t : TT} (h : isLiteral t = true) : literal t = true := by
  revert h; cases t <;> decide

include h in
theorem primary_gives : Gives p (primary py r) (exprOk true false · = true) := by
  unfold primary
  refine .look fun t _ => .ite (fun _ => primaryName_gives) fun _ => .ite (fun hl => ?_) fun _ => .ite (fun _ => primaryList_gives h)
    fun _ => .ite (fun hf => parseFormatStr_gives h (by rintro _ rfl; exact hf)) fun _ => .ite (fun _ => ?_) fun _ =>
    .ite (fun _ => ?_) fun _ => .ite (fun _ => igualaStmt_gives h) fun _ => .fail
  · exact .bind .next fun u hu => .pure (by subst hu; simpa [exprOk] using isLiteral_literal hl)
  · exact .skip fun _ => .bind h.equality fun e he => .skip fun _ => .pure he
  · exact .bind .consume fun u hu => .pure (by simp [exprOk, hu])

include h in
theorem argument_gives : Gives p (argument r) fun e => argsOk true [e] = true := by
  unfold argument
  refine .bind h.equality.any fun e he => .look fun _ _ => ?_
  split
  · rename_i name
    refine .ite (fun _ => ?_) fun _ => .pure (argsOk_value he)
    exact .skip fun _ => .bind h.equality fun a ha => .pure (by simp_all [argsOk, exprOk])
  · exact .pure (argsOk_value he)

include h in
theorem callArgs_gives : Gives p (callArgs r) (argsOk true · = true) := by
  unfold callArgs
  refine .skip fun _ => .bind (Q := (argsOk true · = true)) ?_ fun first hf => .skip fun _ =>
    .bind (Q := (argsOk true · = true)) ?_ fun l hl => .skip fun _ => .pure hl
  · unfold firstArg
    exact .look fun _ _ => .ite (fun _ => .pure (by simp [argsOk])) fun _ => .bind (argument_gives h) fun a ha => .pure ha
  · refine .loop hf fun acc hacc => .skip fun _ => .skip fun _ => .bind (argument_gives h) fun a ha => .skip fun _ => .pure ?_
    simp only [argsOk_append, hacc, ha]; rfl

include h in
theorem callL_gives : Gives p (callL py r) (exprOk true false · = true) := by
  unfold callL
  refine .bind (primary_gives h) fun e he => .bind (Q := (exprOk true false · = true)) (.loop he fun e he => ?_) fun e he => ?_
  · unfold callSuffix
    refine .look fun _ _ => .ite (fun _ => ?_) fun _ => .ite (fun _ => ?_) fun _ => ?_
    · exact .skip fun _ => .bind (callArgs_gives h) fun args ha => .skip fun _ => .pure (by simp [exprOk, he, ha])
    · exact .skip fun _ => .bind h.equality fun i hi => .skip fun _ => .pure (by simp [exprOk, he, hi])
    · exact .skip fun _ => .bind .consume fun m hm => .pure (by simp [exprOk, he, ident_of hm])
  · unfold callCast
    refine .look fun _ _ => .ite (fun _ => ?_) fun _ => .pure he
    exact .skip fun _ => .bind h.type fun ty hty => .pure (by simp [exprOk, he, hty])

include h in
theorem unaryL_gives : Gives p (unaryL py r) (exprOk true false · = true) := by
  unfold unaryL
  refine .look fun t _ => .ite (fun ht => ?_) fun _ => callL_gives h
  refine .bind .next fun u hu => .bind h.unary fun e he => .pure ?_
  subst hu
  rcases ht with ht | ht | ht <;> simp [exprOk, unary, ht, he]

theorem binLevel_gives {ops : TT → Bool} {operand : P Expr} (ho : ∀ t, ops t = true → binary t = true)
    (hx : Gives anyTok operand (exprOk true false · = true)) : Gives p (binLevel ops operand) (exprOk true false · = true) := by
  unfold binLevel
  refine .bind hx.any fun e he => .loop he fun e he => .bind .next fun op hop => .bind hx fun e' he' => .pure ?_
  simp [exprOk, ho _ hop, he, he']

include h in
theorem equalityL_gives : Gives p (equalityL py r) (exprOk true false · = true) := by
  unfold equalityL comparison addition term
  refine binLevel_gives ?_ (binLevel_gives ?_ (binLevel_gives ?_ (binLevel_gives ?_ (unaryL_gives h)))) <;> intro t <;> cases t <;> decide

theorem mkAssign_ok {tok : Token} {e v : Expr} (ha : e.isAssignable = true) (he : exprOk true false e = true)
    (hv : exprOk true true v = true) : exprOk true true (mkAssign tok e v) = true := by
  cases e <;> simp_all [Expr.isAssignable, mkAssign, exprOk, isVar, isGet, isIndex]

include h in
theorem assignmentL_gives : Gives p (assignmentL py r) (exprOk true true · = true) := by
  unfold assignmentL
  refine .bind (equalityL_gives h) fun e he => .look fun _ _ => .ite (fun _ => ?_) fun _ => .pure (assignOk_value he)
  refine .skip fun _ => .ite (fun ha => ?_) fun _ => .fail
  exact .bind h.assignment fun v hv => .pure (mkAssign_ok ha he hv)

theorem compoundOp_binary {t t' : TT} {c : Char} (h : compoundOp t = some (t', c)) : binary t' = true := by
  unfold compoundOp at h
  split at h <;> first | (cases h; done) | (simp only [Option.some.injEq, Prod.mk.injEq] at h; rw [← h.1]; decide)

include h in
theorem expression_gives : Gives p (expression py r) fun e => stmtOk true (.expr e) = true := by
  unfold expression
  refine .bind (assignmentL_gives h) fun e he => .look fun t _ => ?_
  split
  · exact .pure (by simp [stmtOk, he])
  · rename_i tt c hc
    refine .ite (fun ha => ?_) fun _ => .fail
    refine .skip fun u => ?_
    have hb := compoundOp_binary hc
    unfold compoundRhs
    cases e <;> simp only [Expr.isAssignable, Bool.false_eq_true] at ha
    · exact .bind (equalityL_gives h) fun v hv => .pure (by simp_all [stmtOk, exprOk, isVar])
    · exact .bind h.assignment fun v hv => .pure (by simp_all [stmtOk, exprOk, isGet])
    · exact .bind (equalityL_gives h) fun v hv => .pure (by simp_all [stmtOk, exprOk, isIndex])
    · exact .bind (equalityL_gives h) fun v hv => .pure (by simp_all [stmtOk, chainedOk, isIndexSet])

/-! ### Patterns -/

include h in
theorem patternArgs_gives : Gives p (patternArgs r) fun l => l ≠ [] ∧ patsOk l = true := by
  unfold patternArgs
  refine .skip fun _ => .bind h.pattern fun q hq => .skip fun _ => .bind (Q := fun l => l ≠ [] ∧ patsOk l = true)
    (.loop ⟨by simp, by simp [patsOk, hq]⟩ fun acc ha => ?_) fun l hl => .skip fun _ => .pure hl
  exact .skip fun _ => .bind h.pattern fun q hq => .pure ⟨by simp, by simp [patsOk_append, patsOk, ha.2, hq]⟩

include h in
theorem patternL_gives : Gives p (patternL py r) (patOk · = true) := by
  unfold patternL
  refine .bind (primary_gives h) fun e he => .look fun t _ => ?_
  split
  · simp only [exprOk, Bool.and_eq_true, decide_eq_true_eq] at he
    refine .ite (fun _ => ?_) fun _ => .pure (by simp only [patOk, patsOk, he.1, he.2]; rfl)
    exact .bind (patternArgs_gives h) fun args ha => .pure (by simp only [patOk, he.1, he.2, ha.2]; rfl)
  · simp only [exprOk] at he
    refine .ite (fun _ => ?_) fun _ => .pure (by simp [patOk, he])
    exact .bind (patternArgs_gives h) fun args ha => .pure (by simp [patOk, he, ha.1, ha.2])
  · refine .ite (fun hi => .pure (by simp [patOk, hi])) fun _ => .ite (fun hs => .pure (by simp [patOk, hs])) fun _ => .raise
  · exact .fail

/-! ### Declarations -/

include h in
theorem paramTail_gives {name : Token} (hn : ident name = true) : Gives p (paramTail r name) (paramOk · = true) := by
  unfold paramTail
  exact .skip fun _ => .bind h.type fun ty hty => .pure (by simp [paramOk, hn, hty])

include h in
theorem formalParams_gives : Gives p (formalParams r) (·.all paramOk = true) := by
  unfold formalParams
  refine .skip fun _ => .look fun _ _ => .ite (fun _ => ?_) fun _ => .pure rfl
  refine .bind .consumeNl fun name hn => .bind (paramTail_gives h (ident_of hn)) fun q hq => ?_
  refine .loop (by simp [hq]) fun acc hacc => .skip fun _ => .bind .consumeNl fun name hn =>
    .bind (paramTail_gives h (ident_of hn)) fun q hq => .skip fun _ => .pure ?_
  simp only [List.all_append, hacc, List.all_cons, hq, List.all_nil]; rfl

include h in
theorem functionDecl_gives {ann : List Annotation} : Gives p (functionDecl r ann) (stmtOk true · = true) := by
  unfold functionDecl
  refine .skip fun _ => .skip fun native => .bind
    (Q := fun x => ident x.1 = true ∧ x.2.1.all paramOk = true ∧ typeOkOpt x.2.2 = true) ?_ fun x hx => ?_
  · unfold functionHeader
    refine .bind .consume fun name hn => .skip fun _ => .bind (formalParams_gives h) fun ps hps => .skip fun _ =>
      .bind (Q := fun x => typeOkOpt x = true) ?_ fun ret hret => .pure ⟨ident_of hn, hps, hret⟩
    unfold returnType
    refine .skip fun _ => .ite (fun _ => .skip fun _ => .ite (fun _ => .pure rfl) fun _ => ?_) fun _ => .pure rfl
    exact .bind h.type fun ty hty => .pure hty
  · obtain ⟨name, ps, ret⟩ := x
    obtain ⟨h1, h2, h3⟩ := hx
    simp only at h1 h2 h3
    refine .ite (fun _ => .skip fun _ => .pure ?_) fun _ => ?_
    · simp only [stmtOk, h1, h2, h3]; rfl
    · refine .bind h.block fun b hb => .skip fun _ => .pure ?_
      simp only [stmtOk, h1, h2, h3, hb]; rfl

include h in
theorem methodDecl_gives {ann : List Annotation} : Gives p (methodDecl r ann) (stmtOk true · = true) := by
  unfold methodDecl
  refine .skip fun _ => .bind genericParams_gives fun gs hgs => .bind h.type fun ty hty => .skip fun _ =>
    .bind .consume fun name hn => .skip fun _ => .skip fun _ => .bind (Q := (·.all paramOk = true)) ?_ fun ps hps => .skip fun _ =>
    .bind (Q := fun x => typeOkOpt x = true) ?_ fun ret hret => .bind h.block fun b hb => .skip fun _ => .pure ?_
  · unfold methodParams
    exact .skip fun _ => .ite (fun _ => formalParams_gives h) fun _ => .pure rfl
  · unfold methodReturn
    exact .skip fun _ => .ite (fun _ => .bind h.type fun ty hty => .pure hty) fun _ => .pure rfl
  · simp only [stmtOk, hgs, hty, ident_of hn, hps, hret, hb]; rfl

include h in
theorem uniaoVariant_gives : Gives p (uniaoVariant r) (variantOk · = true) := by
  unfold uniaoVariant
  refine .bind .consume fun name hn => .bind (Q := (typesOk · = true)) ?_ fun ps hps => .pure (by simp [variantOk, ident_of hn, hps])
  unfold variantParams
  refine .skip fun _ => .ite (fun _ => .skip fun _ => .bind h.type fun ty hty => ?_) fun _ => .pure (by simp [typesOk])
  refine .bind (Q := (typesOk · = true)) (.loop (by simp [typesOk, hty]) fun acc hacc => ?_) fun l hl => .skip fun _ => .pure hl
  exact .skip fun _ => .skip fun _ => .bind h.type fun ty hty => .skip fun _ => .pure (by simp [typesOk_append, typesOk, hacc, hty])

include h in
theorem uniaoDecl_gives {ann : List Annotation} : Gives p (uniaoDecl r ann) (stmtOk true · = true) := by
  unfold uniaoDecl
  refine .skip fun _ => .bind .consume fun name hn => .bind genericParams_gives fun gs hgs => .skip fun _ =>
    .bind (Q := (·.all variantOk = true)) ?_ fun vs hvs => .skip fun _ => .skip fun _ => .pure ?_
  · unfold uniaoVariants
    refine .look fun _ _ => .ite (fun _ => .bind (uniaoVariant_gives h) fun v hv => .skip fun _ => ?_) fun _ => .pure rfl
    refine .loop (by simp [hv]) fun acc hacc => .skip fun _ => .skip fun _ => .bind (uniaoVariant_gives h) fun v hv => .pure ?_
    simp only [List.all_append, hacc, List.all_cons, hv, List.all_nil]; rfl
  · simp only [stmtOk, ident_of hn, hgs, hvs]; rfl

include h in
theorem simpleDecl_gives {name : Token} (hn : ident name = true) :
    Gives p (simpleDecl py r name) fun s => fieldsOk true [s] = true := by
  unfold simpleDecl
  refine .skip fun tok => .bind h.type fun ty hty => ?_
  unfold declAssign
  refine .bind (Q := fun a => ∀ tok, fieldsOk true [.varDecl tok name ty a] = true) ?_ fun a ha => .pure (ha _)
  refine .look fun _ _ => .ite (fun _ => ?_) fun _ => .pure fun _ => by simp [fieldsOk, isDecl, stmtOk, hn, hty]
  exact .skip fun _ => .bind (equalityL_gives h) fun e he => .pure fun _ => by simp [fieldsOk, isDecl, stmtOk, hn, hty, he]

include h in
theorem multiDecl_gives {name : Token} (hn : ident name = true) : Gives p (multiDecl r name) (fieldsOk true · = true) := by
  unfold multiDecl
  refine .bind (Q := (·.all ident = true)) (.loop (by simp [hn]) fun acc hacc => ?_) fun names hnames => ?_
  · refine .skip fun _ => .bind .consume fun n hn => .pure ?_
    simp only [List.all_append, hacc, List.all_cons, ident_of hn, List.all_nil]; rfl
  · refine .skip fun tok => .bind h.type fun ty hty => .pure ?_
    clear hn
    induction names with
    | nil => simp [fieldsOk]
    | cons n ns ih =>
        simp only [List.all_cons, Bool.and_eq_true] at hnames
        simp only [List.map_cons, fieldsOk, isDecl, stmtOk, hnames.1, hty, ih hnames.2]; rfl

theorem stmtsOk_fields {x : Bool} : ∀ {l : List Stmt}, fieldsOk x l = true → stmtsOk x l = true
  | [], _ => by simp [stmtsOk]
  | s :: ss, hl => by
      simp only [fieldsOk, Bool.and_eq_true] at hl
      simp only [stmtsOk, hl.1.2, stmtsOk_fields hl.2]; rfl

include h in
theorem registoDecl_gives {ann : List Annotation} : Gives p (registoDecl py r ann) (stmtOk true · = true) := by
  unfold registoDecl
  refine .skip fun _ => .bind .consume fun name hn => .bind genericParams_gives fun gs hgs =>
    .bind (Q := (fieldsOk true · = true)) (.loop (by simp [fieldsOk]) fun acc hacc => ?_) fun fields hf => .skip fun _ => .pure ?_
  · unfold registoLine
    refine .look fun _ _ => .ite (fun _ => .skip fun _ => .skip fun _ => .pure hacc) fun _ => .ite (fun _ => ?_) fun _ => .fail
    refine .bind .consume fun name hn => .bind (Q := (fieldsOk true · = true)) ?_ fun ds hds => .skip fun _ => .pure ?_
    · unfold fieldDecl
      refine .look fun _ _ => .ite (fun _ => ?_) fun _ => .ite (fun _ => multiDecl_gives h (ident_of hn)) fun _ =>
        .pure (by simp [fieldsOk])
      exact .bind (simpleDecl_gives h (ident_of hn)) fun d hd => .pure hd
    · simp [fieldsOk_append, hacc, hds]
  · simp only [stmtOk, ident_of hn, hgs, hf]; rfl

/-! ### Statements -/

/-- Optional blocks. -/
def blockOkOpt : Option (List Stmt) → Prop
  | none => True
  | some b => stmtsOk true b = true

include h in
theorem elseBranch_gives : Gives p (elseBranch r) blockOkOpt := by
  unfold elseBranch
  exact .skip fun _ => .ite (fun _ => .bind h.block fun b hb => .pure hb) fun _ => .pure trivial

include h in
theorem seStatement_gives : Gives p (seStatement py r) (stmtOk true · = true) := by
  unfold seStatement
  refine .skip fun token => .look fun _ _ => .ite (fun _ => ?_) fun _ => ?_
  · unfold seIguala
    refine .skip fun _ => .bind (equalityL_gives h) fun e he => .skip fun _ => .bind (patternL_gives h) fun pat hpat =>
      .skip fun _ => .bind h.block fun b hb => .bind (elseBranch_gives h) fun d hd => .skip fun _ => .pure ?_
    have hw : ident wildcardTok = true := by decide
    cases d with
    | none => simp [stmtOk, exprOk, armsOk, he, hpat, hb, patOk, hw, stmtsOk]
    | some d => simp only [blockOkOpt] at hd; simp [stmtOk, exprOk, armsOk, he, hpat, hb, patOk, hw, hd]
  · refine .bind (equalityL_gives h) fun c hc => .skip fun _ => .bind h.block fun b hb =>
      .bind (Q := (elsesOk true · = true)) ?_ fun es hes => .bind (elseBranch_gives h) fun d hd => .skip fun _ => .pure ?_
    · unfold elseIfs
      refine .loop (by simp [elsesOk]) fun acc hacc => .skip fun _ => .bind (equalityL_gives h) fun c hc => .skip fun _ =>
        .bind h.block fun b hb => .pure ?_
      simp [elsesOk_append, elsesOk, hacc, hc, hb]
    · cases d with
      | none => simp [stmtOk, hc, hb, hes]
      | some d => simp only [blockOkOpt] at hd; simp [stmtOk, hc, hb, hes, hd]

include h in
theorem paraStmt_gives : Gives p (paraStmt py r) (stmtOk true · = true) := by
  unfold paraStmt
  refine .skip fun _ => .bind .consume fun name hn => .skip fun _ => .bind (equalityL_gives h) fun x hx => .skip fun _ =>
    .bind (equalityL_gives h) fun y hy => .bind (Q := fun z => ∀ e, z = some e → exprOk true false e = true) ?_ fun z hz =>
    .skip fun _ => .bind h.block fun b hb => .skip fun _ => .pure ?_
  · unfold incPart
    refine .skip fun _ => .ite (fun _ => ?_) fun _ => .pure (by simp)
    exact .bind (equalityL_gives h) fun e he => .pure (by rintro _ ⟨⟩; exact he)
  · cases z with
    | none => simp [stmtOk, ident_of hn, hx, hy, hb]
    | some z => simp [stmtOk, ident_of hn, hx, hy, hb, hz z rfl]

include h in
theorem escolhaStmt_gives : Gives p (escolhaStmt py r) (stmtOk true · = true) := by
  unfold escolhaStmt
  refine .skip fun _ => .bind (equalityL_gives h) fun e he => .skip fun _ => .skip fun _ =>
    .bind (Q := (elsesOk true · = true)) ?_ fun es hes => .bind (Q := blockOkOpt) ?_ fun d hd => .skip fun _ => .pure ?_
  · refine .loop (by simp [elsesOk]) fun acc hacc => .skip fun _ => .bind (equalityL_gives h) fun c hc => .skip fun _ =>
      .bind h.block fun b hb => .pure ?_
    simp [elsesOk_append, elsesOk, hacc, hc, hb]
  · unfold defaultCase
    exact .skip fun _ => .ite (fun _ => .skip fun _ => .bind h.block fun b hb => .pure hb) fun _ => .pure trivial
  · cases d with
    | none => simp [stmtOk, he, hes]
    | some d => simp only [blockOkOpt] at hd; simp [stmtOk, he, hes, hd]

include h in
theorem declStmt_gives : Gives p (declStmt py r) (stmtsOk true · = true) := by
  unfold declStmt
  refine .bind (expression_gives h) fun e he => .bind (Q := (stmtsOk true · = true)) ?_ fun ds hds => .skip fun _ => .pure hds
  unfold declTail
  refine .look fun _ _ => ?_
  split
  · rename_i name
    have hn : ident name = true := by simpa [stmtOk, exprOk, chainedOk] using he
    refine .ite (fun _ => ?_) fun _ => .ite (fun _ => ?_) fun _ => .pure (by simp [stmtsOk, he])
    · exact .bind (simpleDecl_gives h hn) fun d hd => .pure (stmtsOk_fields hd)
    · exact (multiDecl_gives h hn).mono (fun _ h => h) fun _ => stmtsOk_fields
  · exact .pure (by simp [stmtsOk, he])

theorem stmtsOk_one {s : Stmt} (hs : stmtOk true s = true) : stmtsOk true [s] = true := by simp [stmtsOk, hs]

include h in
theorem statement_gives : Gives p (statement py r) (stmtsOk true · = true) := by
  unfold statement
  refine .look fun t _ => .ite (fun _ => ?_) fun _ => .ite (fun _ => ?_) fun _ => .ite (fun _ => ?_) fun _ => .ite (fun _ => ?_) fun _ =>
    .ite (fun _ => .bind (seStatement_gives h) fun s hs => .pure (stmtsOk_one hs)) fun _ =>
    .ite (fun _ => .bind (paraStmt_gives h) fun s hs => .pure (stmtsOk_one hs)) fun _ =>
    .ite (fun _ => .bind (escolhaStmt_gives h) fun s hs => .pure (stmtsOk_one hs)) fun _ =>
    .ite (fun ht => ?_) fun _ => .ite (fun _ => ?_) fun _ => declStmt_gives h
  · exact .skip fun _ => .bind (equalityL_gives h) fun e he => .skip fun _ => .pure (by simp [stmtsOk, stmtOk, he])
  · refine .bind (Q := (stmtOk true · = true)) ?_ fun s hs => .pure (stmtsOk_one hs)
    unfold retornaStmt
    refine .skip fun _ => .look fun _ _ => .ite (fun _ => .skip fun _ => .pure (by simp [stmtOk])) fun _ => ?_
    exact .bind (equalityL_gives h) fun e he => .skip fun _ => .pure (by simp [stmtOk, he])
  · exact .skip fun _ => .bind (equalityL_gives h) fun e he => .skip fun _ => .pure (by simp [stmtsOk, stmtOk, he])
  · refine .bind (Q := (stmtOk true · = true)) ?_ fun s hs => .pure (stmtsOk_one hs)
    unfold enquantoStmt
    exact .skip fun _ => .bind (equalityL_gives h) fun c hc => .skip fun _ => .bind h.block fun b hb => .skip fun _ =>
      .pure (by simp [stmtOk, hc, hb])
  · refine .bind .next fun u hu => .skip fun _ => .pure ?_
    subst hu
    rcases ht with ht | ht <;> simp [stmtsOk, stmtOk, ht]
  · refine .bind (igualaStmt_gives h) fun e he => .pure ?_
    cases e <;> simp_all [stmtsOk, stmtOk, exprOk]

include h in
theorem blockItem_gives {acc : List Stmt} {Q : List Stmt → Prop} (hacc : Q acc)
    (hq : ∀ ss, stmtsOk true ss = true → Q (acc ++ ss)) : Gives p (blockItem py r acc) Q := by
  unfold blockItem
  refine .look fun _ _ => .ite (fun _ => .skip fun _ => .pure hacc) fun _ => ?_
  refine .bind (Q := (stmtsOk true · = true)) ?_ fun ss hss => .pure (hq ss hss)
  unfold declaration
  refine .skip fun ann => .look fun _ _ =>
    .ite (fun _ => .bind (functionDecl_gives h) fun s hs => .pure (stmtsOk_one hs)) fun _ =>
    .ite (fun _ => .bind (methodDecl_gives h) fun s hs => .pure (stmtsOk_one hs)) fun _ =>
    .ite (fun _ => .bind (registoDecl_gives h) fun s hs => .pure (stmtsOk_one hs)) fun _ =>
    .ite (fun _ => .bind (uniaoDecl_gives h) fun s hs => .pure (stmtsOk_one hs)) fun _ => statement_gives h

include h in
theorem blockL_gives : Gives p (blockL py r) (stmtsOk true · = true) := by
  unfold blockL
  refine .loop (by simp [stmtsOk]) fun acc hacc => blockItem_gives h hacc fun ss hss => ?_
  simp [stmtsOk_append, hacc, hss]

include h in
theorem good_up : Good (r.up py) where
  type := typeL_gives h
  pattern := patternL_gives h
  equality := equalityL_gives h
  assignment := assignmentL_gives h
  unary := unaryL_gives h
  block := blockL_gives h

end

theorem good (py : PyCfg) : ∀ n, Good (recN py n)
  | 0 => good_zero py
  | n + 1 => good_up (good py n)

theorem usaStmt_gives {p : Token → Prop} : Gives p usaStmt (usaOk · = true) := by
  unfold usaStmt
  refine .skip fun _ => .bind .consume fun m hm => .skip fun _ => .ite (fun _ => ?_) fun _ => .skip fun _ => .pure (by simp [usaOk, hm])
  refine .look fun _ _ => .ite (fun _ => .bind .consume fun a ha => .pure (by simp [usaOk, hm, ident_of ha])) fun _ =>
    .ite (fun _ => ?_) fun _ => .fail
  refine .bind (Q := (· ≠ [])) ?_ fun l hl => .pure (by simp [usaOk, hm, hl])
  unfold usaItems
  refine .skip fun _ => .skip fun t => .bind (Q := fun l : List (List Char) => l ≠ []) (.loop (List.cons_ne_nil _ _) fun acc _ => ?_)
    fun l hl => .skip fun _ => .pure hl
  exact .skip fun _ => .skip fun _ => .pure (by simp)

theorem treeOk_of {x : Bool} {t : Tree} {us ss : List Stmt} (ht : t.stmts = us ++ ss) (hus : us.all usaOk = true)
    (hss : stmtsOk x ss = true) : treeOk x t = true := by
  unfold treeOk
  rw [ht]
  induction us generalizing t with
  | nil =>
      cases ss with
      | nil => simp [stmtsOk]
      | cons s ss =>
          simp only [stmtsOk, Bool.and_eq_true] at hss
          have : usaOk s = false := by
            cases s with
            | usa => simp [stmtOk] at hss
            | _ => rfl
          simp [stmtsOk, this, hss]
  | cons u us ih =>
      simp only [List.all_cons, Bool.and_eq_true] at hus
      simpa [hus.1] using ih (t := ⟨[], us ++ ss⟩) rfl hus.2

theorem moduleL_gives {py : PyCfg} {r : Rec} (h : Good r) {p : Token → Prop} : Gives p (moduleL py r) (treeOk true · = true) := by
  unfold moduleL
  refine .skip fun _ => .skip fun _ => .bind (Q := (·.all usaOk = true)) (.loop rfl fun acc hacc => ?_) fun us hus => ?_
  · refine .bind usaStmt_gives fun u hu => .skip fun _ => .pure ?_
    simp only [List.all_append, hacc, List.all_cons, hu, List.all_nil]; rfl
  · refine .bind (Q := fun l => ∃ ss, l = us ++ ss ∧ stmtsOk true ss = true) (.loop ⟨[], (List.append_nil us).symm, by simp [stmtsOk]⟩
      fun acc hacc => ?_) fun l hl => .pure ?_
    · obtain ⟨ss, rfl, hss⟩ := hacc
      exact blockItem_gives h ⟨ss, rfl, hss⟩ fun ss' h' => ⟨ss ++ ss', by simp, by simp [stmtsOk_append, hss, h']⟩
    · obtain ⟨ss, rfl, hss⟩ := hl
      exact treeOk_of rfl hus hss

end Grammar

open Grammar

/-- **C62** except that an assignment to an element may be the target of a second one.  Whatever text is
parsed, the tree is one of the grammar: targets of assignments are variables, fields and elements, assignments stand
where their value is not used except by another one, operators are operators, names are names, declarations are for
the variable they name, `usa` comes first.  (Missing: `v[0] = 1 += 2`, see `parsed_tree_violated`.) -/
theorem parsed_tree_partial (py : PyCfg) (src : List Char) (t : Tree) (h : parse py src = .ok t) :
    treeOk true t = true := by
  unfold parse at h
  cases hi : PState.init py src with
  | error e => rw [hi] at h; cases h
  | ok s =>
      rw [hi] at h
      change (moduleL py (recN py (s.weight + 1)) s >>= fun r => pure r.1) = _ at h
      cases hm : moduleL py (recN py (s.weight + 1)) s with
      | error e => rw [hm] at h; cases h
      | ok r =>
          rw [hm] at h
          cases h
          exact moduleL_gives (p := anyTok) (good py _) s r.1 r.2 trivial hm

/-- Whether a text is parsed and the tree is one of the grammar. -/
def inGrammar (lax : Bool) (src : List Char) : Option Bool :=
  match parse samplePy src with
  | .ok t => some (treeOk lax t)
  | .error _ => none

set_option maxRecDepth 100000 in
/-- A program with assignments to variables, elements and fields, one after the other, `usa`, named arguments. -/
example : inGrammar false (chars! "usa \"/b\" => [f]\nregisto P\n x : int\nfim\np : P = P(x : 1)\nv : [int] = [int: 1]\np.x = v[0] = 2\nv[0] += 3\nse p.x > 1 entao\n mostra p.x :> texto\nfim\n") =
    some true := by decide +kernel

set_option maxRecDepth 100000 in
/-- **C62 fails.**  In `v[0] = 1 += 2` the target of the second assignment is the first one. -/
theorem parsed_tree_violated : ∃ src t, parse samplePy src = .ok t ∧ treeOk false t = false := by
  have h : inGrammar false (chars! "v[0] = 1 += 2\n") = some false := by decide +kernel
  unfold inGrammar at h
  split at h
  · rename_i t ht
    exact ⟨_, t, ht, by simpa using h⟩
  · cases h

set_option maxRecDepth 100000 in
/-- ... the checker ends with an exception of Python. -/
example : (match Check.runText (chars! "v : [int] = [int: 1]\nv[0] = 1 += 2\n") with
    | .raised e => e == "AttributeError"
    | _ => false) = true := by decide +kernel

end Amanda

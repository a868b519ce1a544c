import Verif.SrcMap
import Verif.CodegenLemmas

/-!
# Lines of generated instructions

What code generation does to the history of appended instructions and to `src_map`, and in which order the
lines of the nodes of a tree are taken up.
-/

namespace Amanda

namespace Codegen

/-! ## Lines in the order of generation -/

/-- From a node on line `p` (or an earlier one) to one on line `line`, not further up. -/
def up (line : Nat) (p : Int) : Option Int := if p ≤ (line : Int) then some (line : Int) else none

/-- One after another. -/
def thenW (a b : Int → Option Int) (p : Int) : Option Int := (a p).bind b

/-- Perhaps not at all. -/
def maybeW (a : Int → Option Int) (p : Int) : Option Int := (a p).bind fun q => if p ≤ q then some q else none

mutual
/-- The last line of an expression generated after line `p`, if no node is on a line above the one before
it in the order of generation: a node, then its children; the arguments of a call, then the callee. -/
def walkE : TExpr → Int → Option Int
  | .const line _ _ => up line
  | .fmtStr line parts => thenW (up line) (walkEs parts)
  | .var line _ _ _ => up line
  | .converta line target _ _ => thenW (up line) (walkE target)
  | .alvo line _ => up line
  | .bin line op left right lty rty _ =>
      match nullTest op lty rty with
      | some (true, _) => thenW (up line) (walkE left)
      | some (false, _) => thenW (up line) (walkE right)
      | none => thenW (up line) (thenW (walkE left) (walkE right))
  | .un line _ operand _ => thenW (up line) (walkE operand)
  | .assign line _ right => thenW (up line) (walkE right)
  | .iguala line decision => thenW (up line) (walkD decision)
  | .call line callee args _ _ => thenW (up line) (thenW (walkEs args) (walkE callee))
  | .list line elements => thenW (up line) (walkEs elements)
  | .named line _ arg => thenW (up line) (walkE arg)
  | .get line target _ _ => thenW (up line) (walkE target)
  | .index line target index => thenW (up line) (thenW (walkE target) (walkE index))
  | .indexSet line target index value => thenW (up line) (thenW (walkE target) (thenW (walkE index) (walkE value)))
  | .set line target expr => thenW (up line) (thenW (walkE target) (walkE expr))
  | .unwrap line option default => thenW (up line) (thenW (walkE option) (walkO default))
  | .path line _ => up line
/-- A child that may be missing. -/
def walkO : Option TExpr → Int → Option Int
  | none => some
  | some e => walkE e
/-- Expressions one after another. -/
def walkEs : List TExpr → Int → Option Int
  | [] => some
  | e :: es => thenW (walkE e) (walkEs es)
/-- Decision trees: the arms in the order of the cases. -/
def walkD : Decision → Int → Option Int
  | .success _ line _ body => thenW (up line) (walkSs body)
  | .switch _ cases _ => walkCs cases
  | .fail => some
/-- Cases one after another. -/
def walkCs : List DCase → Int → Option Int
  | [] => some
  | c :: cs => thenW (walkC c) (walkCs cs)
/-- One case. -/
def walkC : DCase → Int → Option Int
  | .mk _ _ body => walkD body
/-- Statements; the increment of a `para` loop comes after its body. -/
def walkS : TStmt → Int → Option Int
  | .expr e => walkE e
  | .varDecl line _ _ (some (.mk _ right)) => thenW (up line) (walkE right)
  | .varDecl line _ _ none => up line
  | .loopCtl line _ => up line
  | .retorna line e => thenW (up line) (walkO e)
  | .produz line e => thenW (up line) (walkE e)
  | .mostra line e => thenW (up line) (walkE e)
  | .se line cond thenB elsifs elseB =>
      thenW (up line) (thenW (walkE cond) (thenW (walkB thenB) (thenW (walkElses elsifs) (walkOB elseB))))
  | .enquanto line cond (.mk _ body) => thenW (up line) (thenW (walkE cond) (walkSs body))
  | .para line _ start stop inc (.mk _ body) =>
      thenW (up line) (thenW (walkE start) (thenW (walkE stop) (thenW (walkSs body) (walkO inc))))
  | .func line _ (.mk _ body) => thenW (up line) (maybeW (walkSs body))
  | .registo line _ _ => up line
  | .uniao line _ _ => up line
  | .noop line => up line
/-- Statements one after another. -/
def walkSs : List TStmt → Int → Option Int
  | [] => some
  | s :: ss => thenW (walkS s) (walkSs ss)
/-- Blocks. -/
def walkB : TBlock → Int → Option Int
  | .mk _ body => walkSs body
/-- A block that may be missing. -/
def walkOB : Option TBlock → Int → Option Int
  | none => some
  | some b => walkB b
/-- The `senaose` branches. -/
def walkElses : List TElse → Int → Option Int
  | [] => some
  | .mk cond body :: rest => thenW (walkE cond) (thenW (walkB body) (walkElses rest))
end

/-! ## The history -/

/-- Where the instructions start, the first one at `ip`. -/
def starts (ip : Nat) : List Ins → List Nat
  | [] => []
  | i :: is => ip :: starts (ip + i.op.size) is

theorem starts_append (ip : Nat) (a b : List Ins) : starts ip (a ++ b) = starts ip a ++ starts (ip + codeSize a) b := by
  induction a generalizing ip with
  | nil => simp [starts, codeSize]
  | cons i a ih => simp [starts, ih, codeSize, Nat.add_assoc]

/-- The history, the map and the instructions belong together. -/
structure HistOk (s : Gen) : Prop where
  map : s.srcMap = notes s.emitted []
  at_ : s.emitted.map Prod.snd = starts 0 s.ops
  ip : s.ip = codeSize s.ops

/-- Lines that only grow. -/
structure Climb (s s' : Gen) : Prop where
  le : s.line ≤ s'.line
  log : ∃ log : List (Int × Nat), s'.emitted = s.emitted ++ log ∧ (log.Pairwise fun p q => p.1 ≤ q.1) ∧
    ∀ p ∈ log, s.line ≤ p.1 ∧ p.1 ≤ s'.line

theorem Climb.trans {a b c : Gen} (h : Climb a b) (k : Climb b c) : Climb a c := by
  obtain ⟨l1, e1, p1, b1⟩ := h.log
  obtain ⟨l2, e2, p2, b2⟩ := k.log
  have hle := h.le
  have kle := k.le
  refine ⟨by omega, l1 ++ l2, by rw [e2, e1, List.append_assoc], ?_, ?_⟩
  · rw [List.pairwise_append]
    exact ⟨p1, p2, fun x hx y hy => by have := (b1 x hx).2; have := (b2 y hy).1; omega⟩
  · intro p hp
    rcases List.mem_append.1 hp with hp | hp
    · have := b1 p hp; omega
    · have := b2 p hp; omega

/-- Generation along `w`. -/
def Ln (w : Int → Option Int) (m : G α) : Prop :=
  ∀ s a s', m s = .ok (a, s') → (HistOk s → HistOk s') ∧
    ∀ p q, w p = some q → s.line ≤ p → Climb s s' ∧ s'.line ≤ q

theorem ln_bind {w1 w2 : Int → Option Int} {m : G α} {f : α → G β} (h : Ln w1 m) (k : ∀ a, Ln w2 (f a)) :
    Ln (thenW w1 w2) (m >>= f) := by
  intro s b s'' hr
  obtain ⟨a, s', h1, h2⟩ := G.bind_ok.1 hr
  obtain ⟨i1, i2⟩ := h s a s' h1
  obtain ⟨k1, k2⟩ := k a s' b s'' h2
  refine ⟨fun x => k1 (i1 x), fun p r hw hp => ?_⟩
  obtain ⟨q, hq, hw⟩ := Option.bind_eq_some_iff.1 hw
  obtain ⟨c1, e1⟩ := i2 p q hq hp
  obtain ⟨c2, e2⟩ := k2 q r hw e1
  exact ⟨c1.trans c2, e2⟩

theorem ln_flat {w : Int → Option Int} {m : G α} {f : α → G β} (h : Ln some m) (k : ∀ a, Ln w (f a)) :
    Ln w (m >>= f) := ln_bind (w1 := some) h k

theorem thenW_some (w : Int → Option Int) : thenW w some = w := by
  funext p
  simp [thenW]

theorem ln_last {w : Int → Option Int} {m : G α} {f : α → G β} (h : Ln w m) (k : ∀ a, Ln some (f a)) :
    Ln w (m >>= f) := by
  have := ln_bind h k
  rwa [thenW_some] at this

/-- Steps without lines and instructions. -/
theorem ln_of {m : G α}
    (h : ∀ s a s', m s = .ok (a, s') → s'.line = s.line ∧ s'.srcMap = s.srcMap ∧ s'.emitted = s.emitted ∧
      s'.ops = s.ops ∧ s'.ip = s.ip) : Ln some m := by
  intro s a s' hr
  obtain ⟨h1, h2, h3, h4, h5⟩ := h s a s' hr
  refine ⟨fun k => ⟨by rw [h2, h3]; exact k.map, by rw [h3, h4]; exact k.at_, by rw [h5, h4]; exact k.ip⟩, ?_⟩
  intro p q hq hp
  cases hq
  exact ⟨⟨by omega, [], by simp [h3], by simp, by simp⟩, by omega⟩

theorem ln_pure (a : α) : Ln some (G.pure a) :=
  ln_of fun s b s' h => by obtain ⟨-, rfl⟩ := Prod.mk.inj (Except.ok.inj h); simp

theorem ln_raise {w : Int → Option Int} (e : PyErr) : Ln w (G.raise e : G α) :=
  fun s b s' h => absurd h (by simp [G.raise])

theorem ln_get : Ln some G.get :=
  ln_of fun s b s' h => by obtain ⟨-, rfl⟩ := Prod.mk.inj (Except.ok.inj h); simp

theorem ln_need (o : Option α) (e : String) : Ln some (G.need o e) := by
  cases o
  · exact ln_raise _
  · exact ln_pure _

theorem ln_emit (op : Op) (args : List Nat) : Ln some (emit op args) := by
  intro s u s' h
  obtain ⟨-, rfl⟩ := Prod.mk.inj (Except.ok.inj h)
  refine ⟨fun k => ⟨?_, ?_, ?_⟩, ?_⟩
  · simp only [notes_snoc, k.map]
  · simp only [List.map_append, List.map_cons, List.map_nil, k.at_, starts_append, starts, k.ip, Nat.zero_add]
  · simp [k.ip, codeSize]
  · intro p q hq hp
    cases hq
    exact ⟨⟨Int.le_refl _, [(s.line, s.ip)], rfl, by simp, by simp⟩, hp⟩

theorem ln_newLabel : Ln some newLabel :=
  ln_of fun s b s' h => by obtain ⟨-, rfl⟩ := Prod.mk.inj (Except.ok.inj h); simp

theorem ln_patch (l : Nat) : Ln some (patchLabel l) :=
  ln_of fun s b s' h => by
    unfold patchLabel at h
    split at h
    · exact absurd h (by simp)
    · obtain ⟨-, rfl⟩ := Prod.mk.inj (Except.ok.inj h); simp

theorem ln_checkIndex (i : Nat) : Ln some (checkIndex i) := by
  unfold checkIndex
  split
  · exact ln_pure _
  · exact ln_raise _

theorem ln_constIndex (c : ConstKey) : Ln some (constIndex c) :=
  ln_flat (ln_of fun s b s' h => by obtain ⟨-, rfl⟩ := Prod.mk.inj (Except.ok.inj h); simp)
    fun i => ln_checkIndex i

theorem ln_nameIndex (c : String) : Ln some (nameIndex c) :=
  ln_flat (ln_of fun s b s' h => by obtain ⟨-, rfl⟩ := Prod.mk.inj (Except.ok.inj h); simp)
    fun i => ln_checkIndex i

theorem ln_declareLocal (sym : SymRef) : Ln some (declareLocal sym) :=
  ln_of fun s b s' h => by obtain ⟨-, rfl⟩ := Prod.mk.inj (Except.ok.inj h); simp

theorem ln_ite {w : Int → Option Int} {c : Prop} [Decidable c] {a b : G α} (ha : Ln w a) (hb : Ln w b) :
    Ln w (if c then a else b) := by
  split
  · exact ha
  · exact hb

theorem ln_setLine (line : Nat) : Ln (up line) (setLine line) := by
  intro s u s' h
  obtain ⟨-, rfl⟩ := Prod.mk.inj (Except.ok.inj h)
  refine ⟨fun k => ⟨k.map, k.at_, k.ip⟩, ?_⟩
  intro p q hq hp
  unfold up at hq
  split at hq
  next hle =>
    cases hq
    exact ⟨⟨by simp only; omega, [], by simp, by simp, by simp⟩, Int.le_refl _⟩
  · cases hq

theorem ln_variantIndex (v : VariantRef) : Ln some (variantIndex v) :=
  ln_of fun s b s' h => by obtain ⟨-, rfl⟩ := Prod.mk.inj (Except.ok.inj h); simp

theorem ln_enter (x : ScopeId) : Ln some (enterBlock x) :=
  ln_of fun s b s' h => by obtain ⟨-, rfl⟩ := Prod.mk.inj (Except.ok.inj h); simp

theorem ln_exit (ctx : GenCtx) : Ln some (exitBlock ctx) :=
  ln_of fun s b s' h => by obtain ⟨-, rfl⟩ := Prod.mk.inj (Except.ok.inj h); simp

theorem ln_setLoop (a b : Option Nat) : Ln some (setLoop a b) :=
  ln_of fun s b s' h => by obtain ⟨-, rfl⟩ := Prod.mk.inj (Except.ok.inj h); simp

/-- One step of a proof without lines. -/
macro "ln1" : tactic => `(tactic| first
  | with_reducible assumption
  | with_reducible exact ln_pure _
  | with_reducible exact ln_raise _
  | with_reducible exact ln_get
  | with_reducible exact ln_need _ _
  | with_reducible exact ln_emit _ _
  | with_reducible exact ln_constIndex _
  | with_reducible exact ln_nameIndex _
  | with_reducible exact ln_declareLocal _
  | with_reducible exact ln_patch _
  | with_reducible exact ln_newLabel
  | with_reducible exact ln_variantIndex _
  | with_reducible exact ln_enter _
  | with_reducible exact ln_exit _
  | with_reducible exact ln_setLoop _ _
  | (with_reducible refine ln_flat ?_ fun _ => ?_)
  | (with_reducible refine ln_ite ?_ ?_))

theorem ln_loadConst (c : ConstKey) : Ln some (loadConst c) := by unfold loadConst; repeat ln1

theorem ln_loadName (c : String) : Ln some (loadName c) := by unfold loadName; repeat ln1

theorem ln_symOf (ctx : GenCtx) (id : Option SymId) : Ln some (symOf ctx id) := by unfold symOf; repeat ln1

theorem ln_loadVariable (ctx : GenCtx) (sym : SymRef) : Ln some (loadVariable ctx sym) := by
  unfold loadVariable; repeat ln1

theorem ln_localSlot (sym : SymRef) : Ln some (localSlot sym) := by
  unfold localSlot
  refine ln_flat ln_get fun _ => ?_
  split <;> ln1

theorem ln_setVariable (sym : SymRef) : Ln some (setVariable sym) := by
  unfold setVariable
  repeat first | ln1 | exact ln_localSlot _

theorem ln_autoCast (ctx : GenCtx) (t : Ty) : Ln some (autoCast ctx t) := by
  unfold autoCast
  repeat first | ln1 | exact ln_loadVariable _ _

theorem ln_variantTag (v : VariantRef) : Ln some (variantTag v) := by unfold variantTag; repeat ln1

theorem ln_genPath (v : Option VariantRef) : Ln some (genPath v) := by
  unfold genPath
  repeat first | ln1 | exact ln_variantTag _ | exact ln_loadConst _

theorem ln_genTest (ctx : GenCtx) (v : SymId) (c : ConsRef) : Ln some (genTest ctx v c) := by
  unfold genTest
  cases c <;>
  repeat first | ln1 | exact ln_symOf _ _ | exact ln_loadVariable _ _ | exact ln_loadConst _ | exact ln_variantTag _

theorem ln_genMatchArgs (ctx : GenCtx) (as : List SymId) : Ln some (genMatchArgs ctx as) := by
  induction as with
  | nil => exact ln_pure _
  | cons a rest ih =>
      unfold genMatchArgs
      repeat first | ln1 | exact ln_symOf _ _ | exact ln_loadConst _

theorem ln_genCaseBindings (ctx : GenCtx) (v : SymId) (c : ConsRef) (as : List SymId) :
    Ln some (genCaseBindings ctx v c as) := by
  unfold genCaseBindings
  cases c <;>
  repeat first | ln1 | exact ln_symOf _ _ | exact ln_loadVariable _ _ | exact ln_genMatchArgs _ _

theorem ln_genArmBindings (ctx : GenCtx) (x : ScopeId) (bs : List (String × SymId)) :
    Ln some (genArmBindings ctx x bs) := by
  induction bs with
  | nil => exact ln_pure _
  | cons b rest ih =>
      unfold genArmBindings
      repeat first | ln1 | exact ln_symOf _ _ | exact ln_loadVariable _ _ | exact ln_setVariable _

theorem ln_genCallOp (ctx : GenCtx) (sym : Sym) (k : Nat) (t : Ty) : Ln some (genCallOp ctx sym k t) := by
  unfold genCallOp
  cases sym.kind <;> repeat first | ln1 | exact ln_autoCast _ _

theorem ln_genLoopCtl (b : Bool) : Ln some (genLoopCtl b) := by unfold genLoopCtl; repeat ln1

theorem ln_genRegisto (ctx : GenCtx) (name : String) (fields : List String) : Ln some (genRegisto ctx name fields) := by
  unfold genRegisto
  have h : ∀ f : Gen → List RegistoOut, Ln some (G.modify fun s => { s with registos := f s }) := fun f =>
    ln_of fun s b s' h => by obtain ⟨-, rfl⟩ := Prod.mk.inj (Except.ok.inj h); simp
  repeat first | ln1 | exact h _ | exact ln_symOf _ _ | exact ln_setVariable _

theorem ln_genVariants (vs : List VariantRef) : Ln some (genVariants vs) := by
  induction vs with
  | nil => exact ln_pure _
  | cons v rest ih => unfold genVariants; repeat ln1

theorem ln_startLocals (ctx : GenCtx) (ps : List SymId) : Ln some (startLocals ctx ps) :=
  ln_of fun s b s' h => by
    unfold startLocals at h
    cases hp : paramLocals ctx ps [] with
    | error e => rw [hp] at h; simp [Except.map] at h
    | ok l =>
        rw [hp] at h
        obtain ⟨-, rfl⟩ := Prod.mk.inj (Except.ok.inj h)
        simp

theorem ln_endFunc (ctx : GenCtx) (sym : Sym) (a b : Nat) (prev : List (String × Nat)) :
    Ln some (endFunc ctx sym a b prev) := by
  unfold endFunc
  have h1 : Ln some (G.modify fun s => { s with funcLocals := prev, finished := s.finished ++ [s.funcLocals] }) :=
    ln_of fun s b s' h => by obtain ⟨-, rfl⟩ := Prod.mk.inj (Except.ok.inj h); simp
  have h2 : ∀ f : FuncOut, Ln some (G.modify fun s => { s with funcs := s.funcs ++ [f] }) := fun f =>
    ln_of fun s b s' h => by obtain ⟨-, rfl⟩ := Prod.mk.inj (Except.ok.inj h); simp
  repeat first | ln1 | exact ln_loadConst _ | exact h2 _

theorem ln_chain (ctx : GenCtx) (c : Option SymId) : Ln some (genChain ctx c) := by
  unfold genChain
  cases c <;> repeat first | ln1 | exact ln_symOf _ _ | exact ln_loadVariable _ _

/-- `ln1` with the lemmas about the functions of codegen.py. -/
macro "ln" : tactic => `(tactic| first
  | with_reducible exact ln_loadConst _
  | with_reducible exact ln_loadName _
  | with_reducible exact ln_autoCast _ _
  | with_reducible exact ln_symOf _ _
  | with_reducible exact ln_loadVariable _ _
  | with_reducible exact ln_setVariable _
  | with_reducible exact ln_genPath _
  | with_reducible exact ln_genTest _ _ _
  | with_reducible exact ln_genCaseBindings _ _ _ _
  | with_reducible exact ln_genArmBindings _ _ _
  | with_reducible exact ln_genCallOp _ _ _ _
  | with_reducible exact ln_genLoopCtl _
  | with_reducible exact ln_genRegisto _ _ _
  | with_reducible exact ln_genVariants _
  | with_reducible exact ln_startLocals _ _
  | with_reducible exact ln_endFunc _ _ _ _ _
  | with_reducible exact ln_chain _ _
  | ln1)

/-! ## The `gen_…` methods -/

theorem ln_atLine {w : Int → Option Int} (line : Nat) {m : G Unit} (h : Ln w m) :
    Ln (thenW (up line) w) (atLine line m) := ln_bind (ln_setLine line) fun _ => h

theorem ln_atLine' (line : Nat) {m : G Unit} (h : Ln some m) : Ln (up line) (atLine line m) :=
  ln_last (ln_setLine line) fun _ => h

theorem ln_genScoped {w : Int → Option Int} (ctx : GenCtx) (x : ScopeId) {a : G Unit} (h : Ln w a) :
    Ln w (genScoped ctx x a) := by
  unfold genScoped
  exact ln_flat (ln_enter _) fun _ => ln_last h fun _ => ln_exit _

theorem ln_maybe {w : Int → Option Int} {m : G Unit} (h : Ln w m ∨ Ln some m) : Ln (maybeW w) m := by
  intro s a s' hr
  rcases h with h | h
  · obtain ⟨h1, h2⟩ := h s a s' hr
    refine ⟨h1, fun p q hq hp => ?_⟩
    obtain ⟨r, hr, hq⟩ := Option.bind_eq_some_iff.1 hq
    split at hq
    · cases hq; exact h2 p _ hr hp
    · cases hq
  · obtain ⟨h1, h2⟩ := h s a s' hr
    refine ⟨h1, fun p q hq hp => ?_⟩
    obtain ⟨r, hr, hq⟩ := Option.bind_eq_some_iff.1 hq
    split at hq
    next hle =>
      cases hq
      obtain ⟨c, e⟩ := h2 p p rfl hp
      exact ⟨c, by omega⟩
    · cases hq

variable {w1 w2 w3 w4 : Int → Option Int} {a b c d : G Unit}

theorem ln_genBranch (i l : Nat) (ha : Ln w1 a) (hb : Ln w2 b) : Ln (thenW w1 w2) (genBranch a b i l) := by
  unfold genBranch
  refine ln_bind ha fun _ => ln_flat (ln_emit _ _) fun _ => ln_last hb fun _ => ?_
  repeat ln

theorem thenW_assoc (x y z : Int → Option Int) : thenW (thenW x y) z = thenW x (thenW y z) := by
  funext p
  simp only [thenW]
  cases x p <;> rfl

theorem ln_genSe {f : Nat → G Unit} (ha : Ln w1 a) (hb : Ln w2 b) (hf : ∀ n, Ln w3 (f n)) (hc : Ln w4 c) :
    Ln (thenW w1 (thenW w2 (thenW w3 w4))) (genSe a b f c) := by
  unfold genSe
  refine ln_flat ln_newLabel fun _ => ln_flat ln_newLabel fun _ => ?_
  rw [← thenW_assoc]
  exact ln_bind (ln_genBranch _ _ ha hb) fun _ => ln_bind (hf _) fun _ => ln_last hc fun _ => ln_patch _

theorem ln_genLoopBody (ctx : GenCtx) (x : ScopeId) (l1 l2 : Nat) (ha : Ln w1 a) (hb : Ln w2 b) :
    Ln (thenW w1 w2) (genLoopBody ctx x a b l1 l2) := by
  unfold genLoopBody
  refine ln_flat (ln_enter _) fun _ => ln_flat (ln_patch _) fun _ => ln_bind ha fun _ => ln_flat (ln_emit _ _) fun _ =>
    ln_last hb fun _ => ?_
  repeat ln

theorem ln_genEnquanto (ctx : GenCtx) (x : ScopeId) (ha : Ln w1 a) (hb : Ln w2 b) :
    Ln (thenW w1 w2) (genEnquanto ctx x a b) := by
  unfold genEnquanto
  exact ln_flat ln_newLabel fun _ => ln_flat ln_get fun _ => ln_flat ln_newLabel fun _ =>
    ln_flat (ln_setLoop _ _) fun _ => ln_last (ln_genLoopBody _ _ _ _ ha hb) fun _ => ln_setLoop _ _

theorem ln_genParaTest (ctx : GenCtx) (v : SymRef) (l : Nat) (ha : Ln w1 a) : Ln w1 (genParaTest ctx v a l) := by
  unfold genParaTest
  exact ln_flat (ln_loadVariable _ _) fun _ => ln_last ha fun _ => by repeat ln

theorem ln_genParaStep (ctx : GenCtx) (v : SymRef) (ha : Ln w1 a) : Ln w1 (genParaStep ctx v a) := by
  unfold genParaStep
  exact ln_last ha fun _ => by repeat ln

theorem ln_genPara (ctx : GenCtx) (nm : String) (x : ScopeId) (ha : Ln w1 a) (hb : Ln w2 b) (hc : Ln w3 c)
    (hd : Ln w4 d) : Ln (thenW w1 (thenW w2 (thenW w3 w4))) (genPara ctx nm x a b d c) := by
  unfold genPara
  refine ln_flat ln_newLabel fun _ => ln_flat ln_newLabel fun _ => ln_flat (ln_enter _) fun _ => ln_bind ha fun _ =>
    ln_flat (ln_symOf _ _) fun v => ln_flat (ln_setVariable _) fun _ => ln_flat (ln_patch _) fun _ =>
    ln_bind (ln_genParaTest _ _ _ hb) fun _ => ln_bind hc fun _ => ln_last (ln_genParaStep _ _ hd) fun _ => ?_
  repeat ln

theorem ln_genFunc (ctx : GenCtx) (sy : SymId) (x : ScopeId) (ha : Ln w1 a) : Ln (maybeW w1) (genFunc ctx sy x a) := by
  unfold genFunc
  refine ln_flat (ln_symOf _ _) fun f => ln_flat (ln_nameIndex _) fun _ => ln_flat ln_newLabel fun _ =>
    ln_flat (ln_emit _ _) fun _ => ln_flat ln_newLabel fun _ => ln_flat ln_get fun _ => ln_flat (ln_startLocals _ _) fun _ =>
    ln_last (ln_maybe ?_) fun _ => ln_endFunc _ _ _ _ _
  unfold genFuncBody
  cases f.builtin
  · exact .inl (ln_genScoped _ _ ha)
  · exact .inr (ln_pure _)

theorem ln_genSwitch {f : Nat → Nat → G Unit} {g : Nat → G Unit} (hf : ∀ i j, Ln w1 (f i j)) (hg : ∀ i, Ln w2 (g i)) :
    Ln (thenW w1 w2) (genSwitch f g) := by
  unfold genSwitch
  exact ln_flat ln_newLabel fun _ => ln_flat ln_newLabel fun _ => ln_bind (hf _ _) fun _ => ln_last (hg _) fun _ => ln_patch _

theorem ln_genCaseCode (ctx : GenCtx) (v : SymId) (c : ConsRef) (as : List SymId) (i j : Nat) (ha : Ln w1 a) :
    Ln w1 (genCaseCode ctx v c as a i j) := by
  unfold genCaseCode
  refine ln_flat (ln_genTest _ _ _) fun _ => ln_flat (ln_emit _ _) fun _ => ln_flat (ln_genCaseBindings _ _ _ _) fun _ =>
    ln_last ha fun _ => ?_
  repeat ln

theorem ln_genSuccess (ctx : GenCtx) (bs : List (String × SymId)) (line : Nat) (x : ScopeId) (ha : Ln w1 a) :
    Ln (thenW (up line) w1) (genSuccess ctx bs line x a) := by
  unfold genSuccess
  exact ln_flat (ln_genArmBindings _ _ _) fun _ => ln_bind (ln_setLine _) fun _ => ln_genScoped _ _ ha

theorem ln_genAssign (ctx : GenCtx) (c : Option SymId) (sy : SymId) (ha : Ln w1 a) : Ln w1 (genAssign ctx a c sy) := by
  unfold genAssign
  exact ln_last ha fun _ => by repeat ln

theorem ln_genVariable (ctx : GenCtx) (nm : String) (sy : Option SymId) (p : Ty) : Ln some (genVariable ctx nm sy p) := by
  unfold genVariable
  repeat ln

theorem ln_genDeclare (ctx : GenCtx) (nm : String) (ty : Ty) : Ln some (genDeclare ctx nm ty) := by
  unfold genDeclare
  repeat ln

/-! ## Trees -/

mutual
theorem ln_genExpr (ctx : GenCtx) : ∀ e : TExpr, Ln (walkE e) (genExpr ctx e)
  | .const _ _ _ => by unfold genExpr walkE genConstant; exact ln_atLine' _ (by repeat ln)
  | .fmtStr _ parts => by
      unfold genExpr walkE genFmtStr
      exact ln_atLine _ (ln_last (ln_genExprs ctx parts) fun _ => ln_emit _ _)
  | .var _ _ _ _ => by unfold genExpr walkE; exact ln_atLine' _ (ln_genVariable _ _ _ _)
  | .converta _ t _ _ => by
      unfold genExpr walkE genConverta
      exact ln_atLine _ (ln_last (ln_genExpr ctx t) fun _ => by repeat ln)
  | .alvo _ _ => by unfold genExpr walkE genAlvo; exact ln_atLine' _ (by repeat ln)
  | .bin _ op l r lty rty _ => by
      have hl := ln_genExpr ctx l
      have hr := ln_genExpr ctx r
      unfold genExpr walkE genBinop
      rcases nullTest op lty rty with _ | ⟨_ | _, neg⟩
      · refine ln_atLine _ ?_
        unfold genOperator
        exact ln_bind hl fun _ => ln_last hr fun _ => by repeat ln
      · refine ln_atLine _ ?_
        unfold genNullTest
        exact ln_last hr fun _ => by repeat ln
      · refine ln_atLine _ ?_
        unfold genNullTest
        exact ln_last hl fun _ => by repeat ln
  | .un _ _ e _ => by
      unfold genExpr walkE genUnaryop
      exact ln_atLine _ (ln_last (ln_genExpr ctx e) fun _ => by repeat ln)
  | .assign _ _ r => by unfold genExpr walkE; exact ln_atLine _ (ln_genAssign _ _ _ (ln_genExpr ctx r))
  | .iguala _ d => by unfold genExpr walkE; exact ln_atLine _ (ln_genDecision ctx d)
  | .call _ c args _ _ => by
      unfold genExpr walkE genCall
      exact ln_atLine _ (ln_bind (ln_genExprs ctx args) fun _ => ln_last (ln_genExpr ctx c) fun _ => by repeat ln)
  | .list _ es => by
      unfold genExpr walkE genList
      exact ln_atLine _ (ln_last (ln_genExprs ctx es) fun _ => ln_emit _ _)
  | .named _ _ e => by
      unfold genExpr walkE genNamed
      exact ln_atLine _ (ln_flat (ln_loadName _) fun _ => ln_genExpr ctx e)
  | .get _ t _ _ => by
      unfold genExpr walkE genGet
      exact ln_atLine _ (ln_last (ln_genExpr ctx t) fun _ => by repeat ln)
  | .index _ t i => by
      unfold genExpr walkE genIndexGet
      exact ln_atLine _ (ln_bind (ln_genExpr ctx t) fun _ => ln_last (ln_genExpr ctx i) fun _ => ln_emit _ _)
  | .indexSet _ t i v => by
      unfold genExpr walkE genIndexSet
      exact ln_atLine _ (ln_bind (ln_genExpr ctx t) fun _ => ln_bind (ln_genExpr ctx i) fun _ =>
        ln_last (ln_genExpr ctx v) fun _ => ln_emit _ _)
  | .set _ t v => by
      unfold genExpr walkE genSet
      exact ln_atLine _ (ln_bind (ln_genExpr ctx t) fun _ => ln_last (ln_genExpr ctx v) fun _ => ln_emit _ _)
  | .unwrap _ o none => by
      unfold genExpr walkE genUnwrap genOpt walkO
      exact ln_atLine _ (ln_bind (ln_genExpr ctx o) fun _ => ln_emit _ _)
  | .unwrap _ o (some d) => by
      unfold genExpr walkE genUnwrap genOpt walkO
      exact ln_atLine _ (ln_bind (ln_genExpr ctx o) fun _ => ln_last (ln_genExpr ctx d) fun _ => ln_emit _ _)
  | .path _ _ => by unfold genExpr walkE; exact ln_atLine' _ (ln_genPath _)
theorem ln_genExprs (ctx : GenCtx) : ∀ es : List TExpr, Ln (walkEs es) (genExprs ctx es)
  | [] => by unfold genExprs walkEs; exact ln_pure _
  | e :: es => by unfold genExprs walkEs; exact ln_bind (ln_genExpr ctx e) fun _ => ln_genExprs ctx es
theorem ln_genDecision (ctx : GenCtx) : ∀ d : Decision, Ln (walkD d) (genDecision ctx d)
  | .success _ _ _ body => by unfold genDecision walkD; exact ln_genSuccess _ _ _ _ (ln_genStmts ctx body)
  | .switch v (c :: cs) _ => by
      unfold genDecision walkD walkCs
      exact ln_genSwitch (fun i j => ln_genCase ctx v c i j) (fun i => ln_genCases ctx v i cs)
  | .switch _ [] _ => by unfold genDecision; exact ln_raise _
  | .fail => by unfold genDecision; exact ln_raise _
theorem ln_genCase (ctx : GenCtx) (v : SymId) : ∀ (c : DCase) (i j : Nat), Ln (walkC c) (genCase ctx v c i j)
  | .mk c as body, i, j => by unfold genCase walkC; exact ln_genCaseCode _ _ _ _ _ _ (ln_genDecision ctx body)
theorem ln_genCases (ctx : GenCtx) (v : SymId) (i : Nat) : ∀ cs : List DCase, Ln (walkCs cs) (genCases ctx v i cs)
  | [] => by unfold genCases walkCs; exact ln_pure _
  | c :: cs => by
      unfold genCases walkCs
      exact ln_flat ln_newLabel fun _ => ln_bind (ln_genCase ctx v c _ _) fun _ => ln_genCases ctx v i cs
theorem ln_genStmt (ctx : GenCtx) : ∀ s : TStmt, Ln (walkS s) (genStmt ctx s)
  | .expr e => by unfold genStmt walkS; exact ln_genExpr ctx e
  | .varDecl _ _ _ (some (.mk _ r)) => by
      unfold genStmt walkS; exact ln_atLine _ (ln_genAssign _ _ _ (ln_genExpr ctx r))
  | .varDecl _ _ _ none => by unfold genStmt walkS; exact ln_atLine' _ (ln_genDeclare _ _ _)
  | .loopCtl _ _ => by unfold genStmt walkS; exact ln_atLine' _ (ln_genLoopCtl _)
  | .retorna _ none => by
      unfold genStmt walkS walkO genRetorna genOpt
      exact ln_atLine _ (by repeat ln)
  | .retorna _ (some e) => by
      unfold genStmt walkS walkO genRetorna genOpt
      exact ln_atLine _ (ln_last (ln_genExpr ctx e) fun _ => ln_emit _ _)
  | .produz _ e => by unfold genStmt walkS; exact ln_atLine _ (ln_genExpr ctx e)
  | .mostra _ e => by
      unfold genStmt walkS genMostra
      exact ln_atLine _ (ln_last (ln_genExpr ctx e) fun _ => ln_emit _ _)
  | .se _ cond t es el => by
      unfold genStmt walkS
      exact ln_atLine _ (ln_genSe (ln_genExpr ctx cond) (ln_genBlock ctx t) (fun n => ln_genElses ctx n es)
        (ln_genOptBlock ctx el))
  | .enquanto _ cond (.mk _ body) => by
      unfold genStmt walkS
      exact ln_atLine _ (ln_genEnquanto _ _ (ln_genExpr ctx cond) (ln_genStmts ctx body))
  | .para _ _ a b none (.mk _ body) => by
      unfold genStmt walkS walkO genOpt genInc
      exact ln_atLine _ (ln_genPara _ _ _ (ln_genExpr ctx a) (ln_genExpr ctx b) (ln_genStmts ctx body) (ln_loadConst _))
  | .para _ _ a b (some i) (.mk _ body) => by
      unfold genStmt walkS walkO genOpt genInc
      exact ln_atLine _ (ln_genPara _ _ _ (ln_genExpr ctx a) (ln_genExpr ctx b) (ln_genStmts ctx body) (ln_genExpr ctx i))
  | .func _ _ (.mk _ body) => by
      unfold genStmt walkS; exact ln_atLine _ (ln_genFunc _ _ _ (ln_genStmts ctx body))
  | .registo _ _ _ => by unfold genStmt walkS; exact ln_atLine' _ (ln_genRegisto _ _ _)
  | .uniao _ _ _ => by
      unfold genStmt walkS genUniao
      exact ln_atLine' _ (by repeat ln)
  | .noop _ => by unfold genStmt walkS; exact ln_setLine _
theorem ln_genStmts (ctx : GenCtx) : ∀ ss : List TStmt, Ln (walkSs ss) (genStmts ctx ss)
  | [] => by unfold genStmts walkSs; exact ln_pure _
  | s :: ss => by unfold genStmts walkSs; exact ln_bind (ln_genStmt ctx s) fun _ => ln_genStmts ctx ss
theorem ln_genBlock (ctx : GenCtx) : ∀ b : TBlock, Ln (walkB b) (genBlock ctx b)
  | .mk _ body => by unfold genBlock walkB; exact ln_genScoped _ _ (ln_genStmts ctx body)
theorem ln_genOptBlock (ctx : GenCtx) : ∀ b : Option TBlock, Ln (walkOB b) (genOptBlock ctx b)
  | none => by unfold genOptBlock walkOB; exact ln_pure _
  | some b => by unfold genOptBlock walkOB; exact ln_genBlock ctx b
theorem ln_genElses (ctx : GenCtx) (i : Nat) : ∀ es : List TElse, Ln (walkElses es) (genElses ctx i es)
  | [] => by unfold genElses walkElses; exact ln_pure _
  | .mk cond body :: rest => by
      unfold genElses walkElses genElsif
      refine ln_flat ln_newLabel fun _ => ?_
      rw [← thenW_assoc]
      exact ln_bind (ln_genBranch _ _ (ln_genExpr ctx cond) (ln_genBlock ctx body)) fun _ => ln_genElses ctx i rest
end

/-! ## Modules -/

theorem ln_genGlobals (ctx : GenCtx) (l : List (String × SymId)) : Ln some (genGlobals ctx l) := by
  induction l with
  | nil => exact ln_pure _
  | cons p rest ih =>
      unfold genGlobals
      repeat ln

theorem size_pos (op : Op) : 1 ≤ op.size := by cases op <;> decide

theorem starts_rising (ip : Nat) (is : List Ins) : (starts ip is).Pairwise (· < ·) ∧ ∀ x ∈ starts ip is, ip ≤ x := by
  induction is generalizing ip with
  | nil => simp [starts]
  | cons i is ih =>
      obtain ⟨h1, h2⟩ := ih (ip + i.op.size)
      have := size_pos i.op
      simp only [starts, List.pairwise_cons, List.mem_cons]
      refine ⟨⟨fun x hx => by have := h2 x hx; omega, h1⟩, ?_⟩
      rintro x (rfl | hx)
      · exact Nat.le_refl _
      · have := h2 x hx; omega

theorem HistOk.rising {s : Gen} (h : HistOk s) : Rising s.emitted := by
  have := (starts_rising 0 s.ops).1
  rw [← h.at_, List.pairwise_map] at this
  exact this

/-- The history of a module: all lines of the body in order, then the `HALT` on line 0. -/
theorem module_history {ctx : GenCtx} {m : ModuleIn} {fin : Gen} (h : genModule ctx m {} = .ok ((), fin)) :
    HistOk fin ∧ ∃ log o, fin.emitted = log ++ [((0 : Int), o)] ∧
      ∀ q, walkSs m.body (-1) = some q → log.Pairwise fun p r => p.1 ≤ r.1 := by
  have h0 : HistOk ({} : Gen) := ⟨rfl, rfl, rfl⟩
  unfold genModule at h
  obtain ⟨_, s1, e1, h⟩ := G.bind_ok.1 h
  obtain ⟨_, s2, e2, h⟩ := G.bind_ok.1 h
  obtain ⟨tab, s3, e3, h⟩ := G.bind_ok.1 h
  obtain ⟨_, s4, e4, h⟩ := G.bind_ok.1 h
  obtain ⟨_, s5, e5, h⟩ := G.bind_ok.1 h
  obtain ⟨_, s6, e6, h⟩ := G.bind_ok.1 h
  obtain ⟨_, s7, e7, h⟩ := G.bind_ok.1 h
  obtain ⟨_, s8, e8, h⟩ := G.bind_ok.1 h
  split at h
  · obtain ⟨_, s9, e9, h⟩ := G.bind_ok.1 h
    have l1 := ln_constIndex _ _ _ _ e1
    have l2 := ln_constIndex _ _ _ _ e2
    have l3 := ln_need _ _ _ _ _ e3
    have l4 := ln_genGlobals _ _ _ _ _ e4
    have l5 := ln_enter _ _ _ _ e5
    have l6 := ln_genStmts _ _ _ _ _ e6
    have l7 := ln_exit _ _ _ _ e7
    have l8 := ln_get _ _ _ e8
    have l9 := ln_setLine _ _ _ _ e9
    have l10 := ln_emit _ _ _ _ _ h
    refine ⟨l10.1 (l9.1 (l8.1 (l7.1 (l6.1 (l5.1 (l4.1 (l3.1 (l2.1 (l1.1 h0))))))))), ?_⟩
    obtain ⟨-, rfl⟩ := Prod.mk.inj (Except.ok.inj h)
    obtain ⟨-, rfl⟩ := Prod.mk.inj (Except.ok.inj e9)
    refine ⟨s8.emitted, _, rfl, ?_⟩
    intro q hq
    have c1 := l1.2 (-1) (-1) rfl (by decide)
    have c2 := l2.2 (-1) (-1) rfl c1.2
    have c3 := l3.2 (-1) (-1) rfl c2.2
    have c4 := l4.2 (-1) (-1) rfl c3.2
    have c5 := l5.2 (-1) (-1) rfl c4.2
    have c6 := l6.2 (-1) q hq c5.2
    have c7 := l7.2 q q rfl c6.2
    have c8 := l8.2 q q rfl c7.2
    obtain ⟨log, hlog, hp, -⟩ :=
      (c1.1.trans (c2.1.trans (c3.1.trans (c4.1.trans (c5.1.trans (c6.1.trans (c7.1.trans c8.1))))))).log
    rw [hlog]
    exact hp
  · exact absurd h (by simp [G.raise])

end Codegen

end Amanda

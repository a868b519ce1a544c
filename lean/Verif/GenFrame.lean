import Verif.CodegenLemmas
import Verif.SourceWf

/-!
# What code generation leaves as it was

Scopes and loop labels are put back, and the table of local variables only grows.  The last holds when
the table ends up with the slots `0, 1, 2, …` in order: declaring a name twice (codegen.py:560-563)
spoils that for good.
-/

namespace Amanda

namespace Codegen

open Source

/-- The slots of a table are `0, 1, 2, …`. -/
def Dense (d : List (String × Nat)) : Prop := d.map Prod.snd = List.range d.length

instance (d : List (String × Nat)) : Decidable (Dense d) := inferInstanceAs (Decidable (_ = _))

theorem Dense.prefix {a b : List (String × Nat)} (h : Dense b) (p : a <+: b) : Dense a := by
  obtain ⟨c, rfl⟩ := p
  unfold Dense at *
  rw [List.map_append, List.length_append, List.range_add] at h
  exact (List.append_inj h (by simp)).1

theorem Dense.get {d : List (String × Nat)} (h : Dense d) {i : Nat} {p : String × Nat}
    (hi : d[i]? = some p) : p.2 = i := by
  have h1 : (d.map Prod.snd)[i]? = some p.2 := by simp [hi]
  rw [h] at h1
  have := List.getElem?_eq_some_iff.1 h1
  obtain ⟨hl, he⟩ := this
  simpa using he.symm

/-- A table that is in order after a name got a new slot did not have the name. -/
theorem store_prefix {d : List (String × Nat)} {k : String} (h : Dense (store d k d.length)) :
    d <+: store d k d.length := by
  unfold store at *
  split at h
  · rename_i hk
    exfalso
    cases hf : d.find? (·.1 == k) with
    | none => simp [lookup, hf] at hk
    | some p =>
        have hp := List.find?_some hf
        have hm := List.mem_of_find?_eq_some hf
        obtain ⟨i, hi, hp'⟩ := List.mem_iff_getElem.1 hm
        have hg : (d.map fun p => if p.1 == k then (k, d.length) else p)[i]? = some (k, d.length) := by
          rw [List.getElem?_map, List.getElem?_eq_getElem hi, hp']
          exact congrArg some (if_pos hp)
        have := Dense.get h hg
        simp at this
        omega
  · rename_i hk
    rw [if_neg hk]
    exact List.prefix_append _ _

theorem find?_prefix {p : α → Bool} {a b : List α} (h : a <+: b) {x : α} (hx : a.find? p = some x) :
    b.find? p = some x := by
  obtain ⟨c, rfl⟩ := h
  rw [List.find?_append, hx]; rfl

theorem lookup_prefix {a b : List (String × Nat)} (h : a <+: b) {k : String} {i : Nat}
    (hx : lookup a k = some i) : lookup b k = some i := by
  unfold lookup at *
  cases hf : a.find? (·.1 == k) with
  | none => rw [hf] at hx; cases hx
  | some p => rw [hf] at hx; rw [find?_prefix h hf]; exact hx

theorem lookup_lt {d : List (String × Nat)} (h : Dense d) {k : String} {i : Nat}
    (hx : lookup d k = some i) : i < d.length := by
  unfold lookup at hx
  cases hf : d.find? (·.1 == k) with
  | none => rw [hf] at hx; cases hx
  | some p =>
      rw [hf] at hx
      cases hx
      obtain ⟨j, hj, hp⟩ := List.mem_iff_getElem.1 (List.mem_of_find?_eq_some hf)
      have := Dense.get h (List.getElem?_eq_some_iff.2 ⟨hj, hp⟩)
      show p.2 < _
      omega

/-- Distinct names have distinct slots. -/
theorem lookup_inj {d : List (String × Nat)} (h : Dense d) {k k' : String} {i : Nat}
    (hx : lookup d k = some i) (hy : lookup d k' = some i) : k = k' := by
  unfold lookup at hx hy
  cases hf : d.find? (·.1 == k) with
  | none => rw [hf] at hx; cases hx
  | some p =>
  cases hg : d.find? (·.1 == k') with
  | none => rw [hg] at hy; cases hy
  | some q =>
      rw [hf] at hx; rw [hg] at hy
      obtain ⟨j, hj, hp⟩ := List.mem_iff_getElem.1 (List.mem_of_find?_eq_some hf)
      obtain ⟨j', hj', hq⟩ := List.mem_iff_getElem.1 (List.mem_of_find?_eq_some hg)
      have e1 := Dense.get h (List.getElem?_eq_some_iff.2 ⟨hj, hp⟩)
      have e2 := Dense.get h (List.getElem?_eq_some_iff.2 ⟨hj', hq⟩)
      have e3 : p.2 = i := Option.some.inj hx
      have e4 : q.2 = i := Option.some.inj hy
      have e5 : j = j' := by omega
      subst e5
      have h1 := List.find?_some hf
      have h2 := List.find?_some hg
      rw [hp] at hq
      subst hq
      simp at h1 h2
      rw [← h1, ← h2]

/-- What is the same, or only grew, after a piece of code. -/
structure Frame (s s' : Gen) : Prop where
  scope : s'.scope = s.scope
  start : s'.loopStart = s.loopStart
  exit : s'.loopExit = s.loopExit
  locals : Dense s'.funcLocals → s.funcLocals <+: s'.funcLocals
  finished : s.finished <+: s'.finished

theorem Frame.refl (s : Gen) : Frame s s :=
  ⟨rfl, rfl, rfl, fun _ => List.prefix_rfl, List.prefix_rfl⟩

theorem Frame.trans {a b c : Gen} (h : Frame a b) (k : Frame b c) : Frame a c :=
  ⟨k.scope.trans h.scope, k.start.trans h.start, k.exit.trans h.exit,
    fun d => (h.locals (d.prefix (k.locals d))).trans (k.locals d), h.finished.trans k.finished⟩

/-- Code generation in scope `sc`. -/
def Fr (sc : Option ScopeId) (m : G α) : Prop :=
  ∀ s a s', m s = .ok (a, s') → s.scope = sc → Frame s s'

theorem fr_bind {sc : Option ScopeId} {m : G α} {f : α → G β} (h : Fr sc m) (k : ∀ a, Fr sc (f a)) :
    Fr sc (m >>= f) := by
  intro s b s'' hr hs
  obtain ⟨a, s', h1, h2⟩ := G.bind_ok.1 hr
  have e := h s a s' h1 hs
  exact e.trans (k a s' b s'' h2 (e.scope.trans hs))

/-- Steps that change nothing `Frame` speaks about. -/
theorem fr_of {sc : Option ScopeId} {m : G α}
    (h : ∀ s a s', m s = .ok (a, s') → s'.scope = s.scope ∧ s'.loopStart = s.loopStart ∧
      s'.loopExit = s.loopExit ∧ s'.funcLocals = s.funcLocals ∧ s'.finished = s.finished) : Fr sc m := by
  intro s a s' hr _
  obtain ⟨h1, h2, h3, h4, h5⟩ := h s a s' hr
  exact ⟨h1, h2, h3, fun _ => h4 ▸ List.prefix_rfl, h5 ▸ List.prefix_rfl⟩

theorem fr_pure {sc : Option ScopeId} (a : α) : Fr sc (G.pure a) :=
  fr_of fun s b s' h => by obtain ⟨-, rfl⟩ := Prod.mk.inj (Except.ok.inj h); simp

theorem fr_raise {sc : Option ScopeId} (e : PyErr) : Fr sc (G.raise e : G α) :=
  fr_of fun s b s' h => absurd h (by simp [G.raise])

theorem fr_get {sc : Option ScopeId} : Fr sc G.get :=
  fr_of fun s b s' h => by obtain ⟨-, rfl⟩ := Prod.mk.inj (Except.ok.inj h); simp

theorem fr_need {sc : Option ScopeId} (o : Option α) (e : String) : Fr sc (G.need o e) := by
  cases o
  · exact fr_raise _
  · exact fr_pure _

theorem fr_emit {sc : Option ScopeId} (op : Op) (args : List Nat) : Fr sc (emit op args) :=
  fr_of fun s b s' h => by obtain ⟨-, rfl⟩ := Prod.mk.inj (Except.ok.inj h); simp

theorem fr_newLabel {sc : Option ScopeId} : Fr sc newLabel :=
  fr_of fun s b s' h => by obtain ⟨-, rfl⟩ := Prod.mk.inj (Except.ok.inj h); simp

theorem fr_patch {sc : Option ScopeId} (l : Nat) : Fr sc (patchLabel l) :=
  fr_of fun s b s' h => by
    unfold patchLabel at h
    split at h
    · exact absurd h (by simp)
    · obtain ⟨-, rfl⟩ := Prod.mk.inj (Except.ok.inj h); simp

theorem fr_checkIndex {sc : Option ScopeId} (i : Nat) : Fr sc (checkIndex i) := by
  unfold checkIndex
  split
  · exact fr_pure _
  · exact fr_raise _

theorem fr_constIndex {sc : Option ScopeId} (c : ConstKey) : Fr sc (constIndex c) :=
  fr_bind (fr_of fun s b s' h => by obtain ⟨-, rfl⟩ := Prod.mk.inj (Except.ok.inj h); simp)
    fun i => fr_checkIndex i

theorem fr_nameIndex {sc : Option ScopeId} (c : String) : Fr sc (nameIndex c) :=
  fr_bind (fr_of fun s b s' h => by obtain ⟨-, rfl⟩ := Prod.mk.inj (Except.ok.inj h); simp)
    fun i => fr_checkIndex i

theorem fr_declareLocal {sc : Option ScopeId} (sym : SymRef) : Fr sc (declareLocal sym) := by
  intro s b s' h _
  obtain ⟨-, rfl⟩ := Prod.mk.inj (Except.ok.inj h)
  exact ⟨rfl, rfl, rfl, fun d => store_prefix d, List.prefix_rfl⟩

theorem fr_ite {sc : Option ScopeId} {c : Prop} [Decidable c] {a b : G α} (ha : Fr sc a) (hb : Fr sc b) :
    Fr sc (if c then a else b) := by
  split
  · exact ha
  · exact hb

theorem fr_setLine {sc : Option ScopeId} (line : Nat) : Fr sc (setLine line) :=
  fr_of fun s b s' h => by obtain ⟨-, rfl⟩ := Prod.mk.inj (Except.ok.inj h); simp

theorem fr_variantIndex {sc : Option ScopeId} (v : VariantRef) : Fr sc (variantIndex v) :=
  fr_of fun s b s' h => by obtain ⟨-, rfl⟩ := Prod.mk.inj (Except.ok.inj h); simp

/-- One step of a `Fr` proof. -/
macro "fr1" : tactic => `(tactic| first
  | with_reducible assumption
  | with_reducible exact fr_pure _
  | with_reducible exact fr_raise _
  | with_reducible exact fr_get
  | with_reducible exact fr_need _ _
  | with_reducible exact fr_emit _ _
  | with_reducible exact fr_constIndex _
  | with_reducible exact fr_nameIndex _
  | with_reducible exact fr_declareLocal _
  | with_reducible exact fr_patch _
  | with_reducible exact fr_newLabel
  | with_reducible exact fr_setLine _
  | with_reducible exact fr_variantIndex _
  | (with_reducible refine fr_bind ?_ fun _ => ?_)
  | (with_reducible refine fr_ite ?_ ?_))

theorem fr_loadConst {sc : Option ScopeId} (c : ConstKey) : Fr sc (loadConst c) := by
  unfold loadConst; repeat fr1

theorem fr_loadName {sc : Option ScopeId} (c : String) : Fr sc (loadName c) := by
  unfold loadName; repeat fr1

theorem fr_symOf {sc : Option ScopeId} (ctx : GenCtx) (id : Option SymId) : Fr sc (symOf ctx id) := by
  unfold symOf; repeat fr1

theorem fr_loadVariable {sc : Option ScopeId} (ctx : GenCtx) (sym : SymRef) :
    Fr sc (loadVariable ctx sym) := by
  unfold loadVariable; repeat fr1

theorem fr_localSlot {sc : Option ScopeId} (sym : SymRef) : Fr sc (localSlot sym) := by
  unfold localSlot
  fr1
  · fr1
  · split <;> fr1

theorem fr_setVariable {sc : Option ScopeId} (sym : SymRef) : Fr sc (setVariable sym) := by
  unfold setVariable
  repeat first | fr1 | exact fr_localSlot _

theorem fr_autoCast {sc : Option ScopeId} (ctx : GenCtx) (t : Ty) : Fr sc (autoCast ctx t) := by
  unfold autoCast
  repeat first | fr1 | exact fr_loadVariable _ _

theorem fr_variantTag {sc : Option ScopeId} (v : VariantRef) : Fr sc (variantTag v) := by
  unfold variantTag; repeat fr1

theorem fr_genPath {sc : Option ScopeId} (v : Option VariantRef) : Fr sc (genPath v) := by
  unfold genPath
  repeat first | fr1 | exact fr_variantTag _ | exact fr_loadConst _

theorem fr_genTest {sc : Option ScopeId} (ctx : GenCtx) (v : SymId) (c : ConsRef) :
    Fr sc (genTest ctx v c) := by
  unfold genTest
  cases c <;>
  repeat first | fr1 | exact fr_symOf _ _ | exact fr_loadVariable _ _ | exact fr_loadConst _ | exact fr_variantTag _

theorem fr_genMatchArgs {sc : Option ScopeId} (ctx : GenCtx) (as : List SymId) :
    Fr sc (genMatchArgs ctx as) := by
  induction as with
  | nil => exact fr_pure _
  | cons a rest ih =>
      unfold genMatchArgs
      repeat first | fr1 | exact fr_symOf _ _ | exact fr_loadConst _

theorem fr_genCaseBindings {sc : Option ScopeId} (ctx : GenCtx) (v : SymId) (c : ConsRef)
    (as : List SymId) : Fr sc (genCaseBindings ctx v c as) := by
  unfold genCaseBindings
  cases c <;>
  repeat first | fr1 | exact fr_symOf _ _ | exact fr_loadVariable _ _ | exact fr_genMatchArgs _ _

theorem fr_genArmBindings {sc : Option ScopeId} (ctx : GenCtx) (x : ScopeId)
    (bs : List (String × SymId)) : Fr sc (genArmBindings ctx x bs) := by
  induction bs with
  | nil => exact fr_pure _
  | cons b rest ih =>
      unfold genArmBindings
      repeat first | fr1 | exact fr_symOf _ _ | exact fr_loadVariable _ _ | exact fr_setVariable _

theorem fr_genCallOp {sc : Option ScopeId} (ctx : GenCtx) (sym : Sym) (k : Nat) (t : Ty) :
    Fr sc (genCallOp ctx sym k t) := by
  unfold genCallOp
  cases sym.kind <;> repeat first | fr1 | exact fr_autoCast _ _

theorem fr_genLoopCtl {sc : Option ScopeId} (b : Bool) : Fr sc (genLoopCtl b) := by
  unfold genLoopCtl; repeat fr1

theorem fr_genRegisto {sc : Option ScopeId} (ctx : GenCtx) (name : String) (fields : List String) :
    Fr sc (genRegisto ctx name fields) := by
  unfold genRegisto
  have h : ∀ f : Gen → List RegistoOut, Fr sc (G.modify fun s => { s with registos := f s }) := fun f =>
    fr_of fun s b s' h => by obtain ⟨-, rfl⟩ := Prod.mk.inj (Except.ok.inj h); simp
  repeat first | fr1 | exact h _ | exact fr_symOf _ _ | exact fr_setVariable _

theorem fr_genVariants {sc : Option ScopeId} (vs : List VariantRef) : Fr sc (genVariants vs) := by
  induction vs with
  | nil => exact fr_pure _
  | cons v rest ih => unfold genVariants; repeat fr1

/-- `fr1` with the lemmas about the functions of codegen.py. -/
macro "fr" : tactic => `(tactic| first
  | fr1
  | with_reducible exact fr_loadConst _
  | with_reducible exact fr_loadName _
  | with_reducible exact fr_autoCast _ _
  | with_reducible exact fr_symOf _ _
  | with_reducible exact fr_loadVariable _ _
  | with_reducible exact fr_setVariable _
  | with_reducible exact fr_genPath _
  | with_reducible exact fr_genTest _ _ _
  | with_reducible exact fr_genCaseBindings _ _ _ _
  | with_reducible exact fr_genArmBindings _ _ _
  | with_reducible exact fr_genCallOp _ _ _ _
  | with_reducible exact fr_genLoopCtl _
  | with_reducible exact fr_genRegisto _ _ _
  | with_reducible exact fr_genVariants _)

/-- A block: its scope is entered and left. -/
theorem fr_genScoped {sc : Option ScopeId} (ctx : GenCtx) (x : ScopeId) {a : G Unit}
    (hp : (ctx.env.scopes[x]?).bind (·.parent) = sc) (ha : Fr (some x) a) : Fr sc (genScoped ctx x a) := by
  intro s u s' hr hs
  obtain ⟨u1, s1, h1, hr⟩ := G.bind_ok.1 hr
  obtain ⟨-, rfl⟩ := Prod.mk.inj (Except.ok.inj h1)
  obtain ⟨u2, s2, h2, hr⟩ := G.bind_ok.1 hr
  obtain ⟨-, rfl⟩ := Prod.mk.inj (Except.ok.inj hr)
  have f := ha _ _ _ h2 rfl
  refine ⟨?_, f.start, f.exit, f.locals, f.finished⟩
  show (s2.scope.bind (ctx.env.scopes[·]?)).bind (·.parent) = s.scope
  rw [f.scope, hs]
  exact hp

theorem fr_genSuccess {sc : Option ScopeId} (ctx : GenCtx) (bs : List (String × SymId)) (l : Nat)
    (x : ScopeId) {a : G Unit} (ha : Fr sc (genScoped ctx x a)) : Fr sc (genSuccess ctx bs l x a) := by
  unfold genSuccess
  repeat fr

theorem fr_genChain {sc : Option ScopeId} (ctx : GenCtx) (c : Option SymId) : Fr sc (genChain ctx c) := by
  unfold genChain
  cases c <;> repeat fr

theorem fr_genAssign {sc : Option ScopeId} (ctx : GenCtx) {a : G Unit} (c : Option SymId) (sy : SymId)
    (ha : Fr sc a) : Fr sc (genAssign ctx a c sy) := by
  unfold genAssign
  repeat first | fr | exact fr_genChain _ _

theorem fr_genVariable {sc : Option ScopeId} (ctx : GenCtx) (nm : String) (sy : Option SymId) (p : Ty) :
    Fr sc (genVariable ctx nm sy p) := by
  unfold genVariable
  repeat fr

theorem fr_genBinop {sc : Option ScopeId} (ctx : GenCtx) (op : TT) {a b : G Unit} (lt rt p : Ty)
    (ha : Fr sc a) (hb : Fr sc b) : Fr sc (genBinop ctx op a b lt rt p) := by
  unfold genBinop genNullTest genOperator
  split <;> repeat fr

theorem fr_genUnwrap {sc : Option ScopeId} {a : G Unit} {d : Option (G Unit)} (ha : Fr sc a)
    (hd : ∀ m ∈ d, Fr sc m) : Fr sc (genUnwrap a d) := by
  cases d with
  | none => unfold genUnwrap; repeat fr
  | some m => have := hd m rfl; unfold genUnwrap; repeat fr

theorem fr_atLine {sc : Option ScopeId} (l : Nat) {a : G Unit} (ha : Fr sc a) : Fr sc (atLine l a) := by
  unfold atLine
  repeat fr

theorem fr_genCaseCode {sc : Option ScopeId} (ctx : GenCtx) (v : SymId) (c : ConsRef) (as : List SymId)
    {a : G Unit} (i l : Nat) (ha : Fr sc a) : Fr sc (genCaseCode ctx v c as a i l) := by
  unfold genCaseCode; repeat fr

theorem fr_genSwitch {sc : Option ScopeId} {f : Nat → Nat → G Unit} {g : Nat → G Unit}
    (hf : ∀ a b, Fr sc (f a b)) (hg : ∀ a, Fr sc (g a)) : Fr sc (genSwitch f g) := by
  unfold genSwitch
  repeat first | fr | exact hf _ _ | exact hg _

theorem fr_genBranch {sc : Option ScopeId} {a b : G Unit} (i l : Nat) (ha : Fr sc a) (hb : Fr sc b) :
    Fr sc (genBranch a b i l) := by
  unfold genBranch; repeat fr

theorem fr_genSe {sc : Option ScopeId} {a b c : G Unit} {f : Nat → G Unit} (ha : Fr sc a) (hb : Fr sc b)
    (hf : ∀ l, Fr sc (f l)) (hc : Fr sc c) : Fr sc (genSe a b f c) := by
  unfold genSe
  repeat first | fr | exact hf _ | exact fr_genBranch _ _ ha hb

/-- The body of a loop is a block. -/
theorem genLoopBody_eq (ctx : GenCtx) (x : ScopeId) (a b : G Unit) (l1 l2 : Nat) :
    genLoopBody ctx x a b l1 l2 = genScoped ctx x (do
      patchLabel l2
      a
      emit .jumpIfFalse [l1]
      b
      emit .jump [l2]
      patchLabel l1) := by
  funext s
  unfold genScoped genLoopBody
  simp only [bind, G.bind]
  repeat' split
  all_goals simp_all

/-- `para` is a block after two labels. -/
theorem genPara_eq (ctx : GenCtx) (nm : String) (x : ScopeId) (a b c d : G Unit) :
    genPara ctx nm x a b c d = (do
      let l1 ← newLabel
      let l2 ← newLabel
      genScoped ctx x (do
        a
        let control ← symOf ctx (ctx.env.resolve (some x) nm)
        setVariable control.toSymRef
        patchLabel l2
        genParaTest ctx control.toSymRef b l1
        d
        genParaStep ctx control.toSymRef c
        emit .jump [l2]
        patchLabel l1)) := by
  funext s
  unfold genScoped genPara
  simp only [bind, G.bind]
  repeat' split
  all_goals simp_all

/-- A loop puts the labels of the loop around it back. -/
theorem fr_genEnquanto {sc : Option ScopeId} (ctx : GenCtx) (x : ScopeId) {a b : G Unit}
    (hp : (ctx.env.scopes[x]?).bind (·.parent) = sc) (ha : Fr (some x) a) (hb : Fr (some x) b) :
    Fr sc (genEnquanto ctx x a b) := by
  intro s u s' hr hs
  unfold genEnquanto at hr
  obtain ⟨l1, s1, h1, hr⟩ := G.bind_ok.1 hr
  have f1 := fr_newLabel s l1 s1 h1 hs
  obtain ⟨g, s2, h2, hr⟩ := G.bind_ok.1 hr
  have eg : g = s1 ∧ s2 = s1 := by
    obtain ⟨h, h'⟩ := Prod.mk.inj (Except.ok.inj h2); exact ⟨h.symm, h'.symm⟩
  obtain ⟨l2, s3, h3, hr⟩ := G.bind_ok.1 hr
  have f3 := fr_newLabel (sc := sc) s2 l2 s3 h3 (by rw [eg.2, f1.scope, hs])
  obtain ⟨_, s4, h4, hr⟩ := G.bind_ok.1 hr
  obtain ⟨-, e4⟩ := Prod.mk.inj (Except.ok.inj h4)
  obtain ⟨_, s5, h5, hr⟩ := G.bind_ok.1 hr
  obtain ⟨-, e5⟩ := Prod.mk.inj (Except.ok.inj hr)
  have hbody : Fr sc (genLoopBody ctx x a b l1 l2) := by
    rw [genLoopBody_eq]
    refine fr_genScoped ctx x hp ?_
    repeat fr
  have f5 := hbody s4 _ s5 h5 (by rw [← e4]; show s3.scope = sc; rw [f3.scope, eg.2, f1.scope, hs])
  subst e4 e5
  obtain ⟨rfl, rfl⟩ := eg
  refine ⟨?_, f1.start, f1.exit, fun d => ?_, ?_⟩
  · exact f5.scope.trans (f3.scope.trans f1.scope)
  · exact (f1.trans f3).locals (d.prefix (f5.locals d)) |>.trans (f5.locals d)
  · exact (f1.trans f3).finished.trans f5.finished

/-- `para`: the block around it. -/
theorem fr_genPara {sc : Option ScopeId} (ctx : GenCtx) (nm : String) (x : ScopeId) {a b c d : G Unit}
    (hp : (ctx.env.scopes[x]?).bind (·.parent) = sc) (ha : Fr (some x) a) (hb : Fr (some x) b)
    (hc : Fr (some x) c) (hd : Fr (some x) d) : Fr sc (genPara ctx nm x a b c d) := by
  have hin : ∀ l1 l2, Fr sc (genScoped ctx x (do
      a
      let control ← symOf ctx (ctx.env.resolve (some x) nm)
      setVariable control.toSymRef
      patchLabel l2
      genParaTest ctx control.toSymRef b l1
      d
      genParaStep ctx control.toSymRef c
      emit .jump [l2]
      patchLabel l1)) := by
    intro l1 l2
    refine fr_genScoped ctx x hp ?_
    unfold genParaTest genParaStep
    repeat fr
  rw [genPara_eq]
  exact fr_bind fr_newLabel fun _ => fr_bind fr_newLabel fun _ => hin _ _

/-- A function puts the table of locals back. -/
theorem fr_genFunc {sc : Option ScopeId} (ctx : GenCtx) (sy : SymId) (x : ScopeId) {a : G Unit}
    (ha : ∀ f, ctx.env.syms[sy]? = some f → Fr sc (genFuncBody ctx f.builtin x a)) :
    Fr sc (genFunc ctx sy x a) := by
  intro s u s' hr hs
  unfold genFunc at hr
  obtain ⟨f, s0, h0, hr⟩ := G.bind_ok.1 hr
  have f0 := fr_symOf ctx _ s f s0 h0 hs
  have hf : ctx.env.syms[sy]? = some f := (symOf_ok h0).1
  obtain ⟨_, s1, h1, hr⟩ := G.bind_ok.1 hr
  have f1 := f0.trans (fr_nameIndex _ _ _ _ h1 (f0.scope.trans hs))
  obtain ⟨fe, s2, h2, hr⟩ := G.bind_ok.1 hr
  have f2 := f1.trans (fr_newLabel _ _ _ h2 (f1.scope.trans hs))
  obtain ⟨_, s3, h3, hr⟩ := G.bind_ok.1 hr
  have f3 := f2.trans (fr_emit _ _ _ _ _ h3 (f2.scope.trans hs))
  obtain ⟨fs, s4, h4, hr⟩ := G.bind_ok.1 hr
  have f4 := f3.trans (fr_newLabel _ _ _ h4 (f3.scope.trans hs))
  obtain ⟨g, s5, h5, hr⟩ := G.bind_ok.1 hr
  have eg : g = s4 ∧ s5 = s4 := by
    obtain ⟨h, h'⟩ := Prod.mk.inj (Except.ok.inj h5); exact ⟨h.symm, h'.symm⟩
  rw [eg.1, eg.2] at hr
  obtain ⟨_, s6, h6, hr⟩ := G.bind_ok.1 hr
  have e6 : ∃ l, s6 = { s4 with funcLocals := l } := by
    unfold startLocals at h6
    cases hp : paramLocals ctx f.params [] with
    | error e => simp [hp, Except.map] at h6
    | ok l =>
        simp only [hp, Except.map, Except.ok.injEq, Prod.mk.injEq] at h6
        exact ⟨l, h6.2.symm⟩
  obtain ⟨l6, e6⟩ := e6
  obtain ⟨_, s7, h7, hr⟩ := G.bind_ok.1 hr
  have f7 := ha f hf _ _ _ h7 (by rw [e6]; exact f4.scope.trans hs)
  -- the end
  unfold endFunc at hr
  obtain ⟨_, s8, h8, hr⟩ := G.bind_ok.1 hr
  have f8 := f7.trans (fr_loadConst (sc := s7.scope) _ _ _ _ h8 rfl)
  obtain ⟨_, s9, h9, hr⟩ := G.bind_ok.1 hr
  have f9 := f8.trans (fr_emit (sc := s8.scope) _ _ _ _ _ h9 rfl)
  obtain ⟨g', s10, h10, hr⟩ := G.bind_ok.1 hr
  have eg' : g' = s9 ∧ s10 = s9 := by
    obtain ⟨h, h'⟩ := Prod.mk.inj (Except.ok.inj h10); exact ⟨h.symm, h'.symm⟩
  rw [eg'.1, eg'.2] at hr
  obtain ⟨_, s11, h11, hr⟩ := G.bind_ok.1 hr
  have e11 := (Prod.mk.inj (Except.ok.inj h11)).2
  obtain ⟨_, s12, h12, hr⟩ := G.bind_ok.1 hr
  have f12 := fr_patch (sc := s11.scope) _ _ _ _ h12 rfl
  obtain ⟨_, s13, h13, hr⟩ := G.bind_ok.1 hr
  have e13 := (Prod.mk.inj (Except.ok.inj h13)).2
  obtain ⟨_, s14, h14, hr⟩ := G.bind_ok.1 hr
  have e14 := (need_ok h14).2
  have e15 := (Prod.mk.inj (Except.ok.inj hr)).2
  have hl : s'.funcLocals = s4.funcLocals := by
    rw [← e15, e14, ← e13]
    show s12.funcLocals = _
    unfold patchLabel at h12
    split at h12
    · exact absurd h12 (by simp)
    · rw [← (Prod.mk.inj (Except.ok.inj h12)).2, ← e11]
  refine ⟨?_, ?_, ?_, fun d => ?_, ?_⟩
  · rw [← e15, e14, ← e13]; show s12.scope = _
    rw [f12.scope, ← e11]; show s9.scope = _
    rw [f9.scope, e6]; exact f4.scope
  · rw [← e15, e14, ← e13]; show s12.loopStart = _
    rw [f12.start, ← e11]; show s9.loopStart = _
    rw [f9.start, e6]; exact f4.start
  · rw [← e15, e14, ← e13]; show s12.loopExit = _
    rw [f12.exit, ← e11]; show s9.loopExit = _
    rw [f9.exit, e6]; exact f4.exit
  · rw [hl] at d ⊢
    exact f4.locals d
  · rw [← e15, e14, ← e13]
    show _ <+: s12.finished
    refine f4.finished.trans ?_
    have : s4.finished <+: s9.finished := by have := f9.finished; rw [e6] at this; exact this
    refine this.trans ?_
    refine List.IsPrefix.trans ?_ f12.finished
    rw [← e11]
    exact List.prefix_append _ _

theorem inside_parent {W : Wf} {ctx : GenCtx} (he : ctx.env = W.L.env) {x : ScopeId}
    (h : W.inside x = true) : (ctx.env.scopes[x]?).bind (·.parent) = W.scope := by
  rw [he]; exact of_decide_eq_true h

theorem block_parent {W : Wf} {ctx : GenCtx} (he : ctx.env = W.L.env) {x : ScopeId}
    (h : W.block x = true) : (ctx.env.scopes[x]?).bind (·.parent) = W.scope := by
  simp only [Wf.block, Bool.and_eq_true] at h
  exact inside_parent he h.1.1

theorem fr_callee {sc : Option ScopeId} {W : Wf} (ctx : GenCtx) {e : TExpr} (h : W.callee e = true) :
    Fr sc (genExpr ctx e) := by
  cases e <;> first | (simp [Wf.callee] at h; done) | skip
  · unfold genExpr; exact fr_atLine _ (fr_genVariable _ _ _ _)
  · unfold genExpr; exact fr_atLine _ (fr_genPath _)

mutual
theorem fr_genExpr (ctx : GenCtx) (W : Wf) (he : ctx.env = W.L.env) (u : Use) :
    ∀ e : TExpr, okE W u e = true → Fr W.scope (genExpr ctx e)
  | .const _ _ _, _ => by unfold genExpr genConstant; exact fr_atLine _ (by repeat fr)
  | .fmtStr _ parts, h => by
      have := fr_genExprs ctx W he parts (by simpa [okE] using h)
      unfold genExpr genFmtStr; exact fr_atLine _ (by repeat fr)
  | .var _ _ _ _, _ => by unfold genExpr; exact fr_atLine _ (fr_genVariable _ _ _ _)
  | .converta _ t _ _, h => by
      have := fr_genExpr ctx W he .value t (by simpa [okE] using h)
      unfold genExpr genConverta; exact fr_atLine _ (by repeat fr)
  | .alvo _ _, _ => by unfold genExpr genAlvo; exact fr_atLine _ (by repeat fr)
  | .bin _ _ l r _ _ _, h => by
      simp only [okE, Bool.and_eq_true] at h
      unfold genExpr
      exact fr_atLine _ (fr_genBinop _ _ _ _ _ (fr_genExpr ctx W he .value l h.1.1.2)
        (fr_genExpr ctx W he .value r h.1.2))
  | .un _ _ e _, h => by
      have := fr_genExpr ctx W he .value e (by simpa [okE] using h)
      unfold genExpr genUnaryop; exact fr_atLine _ (by repeat fr)
  | .assign _ _ r, h => by
      simp only [okE, Bool.and_eq_true] at h
      unfold genExpr
      exact fr_atLine _ (fr_genAssign _ _ _ (fr_genExpr ctx W he .rhs r h.2))
  | .iguala _ d, h => by
      have := fr_genDecision ctx { W with yields := true } he d (by simpa [okE] using h)
      unfold genExpr; exact fr_atLine _ this
  | .call _ c args _ _, h => by
      simp only [okE, Bool.and_eq_true] at h
      have h1 := fr_callee (sc := W.scope) ctx h.1
      have h2 : Fr W.scope (genExprs ctx args) := by
        have h2 := h.2
        split at h2
        · exact fr_genFields ctx W he args h2
        · exact fr_genExprs ctx W he args (by simp only [Bool.and_eq_true] at h2; exact h2.2)
        · exact fr_genExprs ctx W he args h2
      unfold genExpr genCall; exact fr_atLine _ (by repeat fr)
  | .list _ es, h => by
      have := fr_genExprs ctx W he es (by simpa [okE] using h)
      unfold genExpr genList; exact fr_atLine _ (by repeat fr)
  | .named _ _ _, h => by simp [okE] at h
  | .get _ t _ _, h => by
      simp only [okE, Bool.and_eq_true] at h
      have := fr_genExpr ctx W he .value t h.2
      unfold genExpr genGet; exact fr_atLine _ (by repeat fr)
  | .index _ t i, h => by
      simp only [okE, Bool.and_eq_true] at h
      have h1 := fr_genExpr ctx W he .value t h.1.1
      have h2 := fr_genExpr ctx W he .value i h.1.2
      unfold genExpr genIndexGet; exact fr_atLine _ (by repeat fr)
  | .indexSet _ t i v, h => by
      simp only [okE, Bool.and_eq_true] at h
      have h1 := fr_genExpr ctx W he .value t h.1.1.1.1.2
      have h2 := fr_genExpr ctx W he .value i h.1.1.1.2
      have h3 := fr_genExpr ctx W he .value v h.1.2
      unfold genExpr genIndexSet; exact fr_atLine _ (by repeat fr)
  | .set _ (.get _ t _ _) v, h => by
      simp only [okE, Bool.and_eq_true] at h
      have h1 := fr_genExpr ctx W he .value t h.1.1.2
      have h3 := fr_genExpr ctx W he .value v h.1.2
      have h2 : ∀ l nm b, Fr W.scope (genExpr ctx (.get l t nm b)) := fun l nm b => by
        unfold genExpr genGet; exact fr_atLine _ (by repeat fr)
      unfold genExpr genSet
      exact fr_atLine _ (fr_bind (h2 _ _ _) fun _ => fr_bind h3 fun _ => fr_emit _ _)
  | .unwrap _ o none, h => by
      have := fr_genExpr ctx W he .value o (by simpa [okE] using h)
      unfold genExpr; exact fr_atLine _ (fr_genUnwrap this (by simp [genOpt]))
  | .unwrap _ o (some d), h => by
      simp only [okE, Bool.and_eq_true] at h
      have h1 := fr_genExpr ctx W he .value o h.1.1
      have h2 := fr_genExpr ctx W he .value d h.1.2
      unfold genExpr; exact fr_atLine _ (fr_genUnwrap h1 (by simp [genOpt, h2]))
  | .path _ _, _ => by unfold genExpr; exact fr_atLine _ (fr_genPath _)
theorem fr_genExprs (ctx : GenCtx) (W : Wf) (he : ctx.env = W.L.env) :
    ∀ es : List TExpr, okEs W es = true → Fr W.scope (genExprs ctx es)
  | [], _ => by unfold genExprs; exact fr_pure _
  | e :: es, h => by
      simp only [okEs, Bool.and_eq_true] at h
      have h1 := fr_genExpr ctx W he .value e h.1.1
      have h2 := fr_genExprs ctx W he es h.1.2
      unfold genExprs; repeat fr
theorem fr_genFields (ctx : GenCtx) (W : Wf) (he : ctx.env = W.L.env) :
    ∀ es : List TExpr, okFields W es = true → Fr W.scope (genExprs ctx es)
  | [], _ => by unfold genExprs; exact fr_pure _
  | .named _ _ e :: es, h => by
      simp only [okFields, Bool.and_eq_true] at h
      have h1 := fr_genExpr ctx W he .value e h.1.1
      have h2 := fr_genFields ctx W he es h.2
      unfold genExprs; unfold genExpr genNamed
      exact fr_bind (fr_atLine _ (by repeat fr)) fun _ => h2
theorem fr_genDecision (ctx : GenCtx) (W : Wf) (he : ctx.env = W.L.env) :
    ∀ d : Decision, okD W d = true → Fr W.scope (genDecision ctx d)
  | .success _ _ x body, h => by
      simp only [okD, Bool.and_eq_true] at h
      unfold genDecision
      exact fr_genSuccess _ _ _ _ (fr_genScoped _ _ (block_parent he h.1.1)
        (fr_genStmts ctx (W.enter x) he body h.2))
  | .switch v (c :: cs) _, h => by
      simp only [okD, Bool.and_eq_true] at h
      unfold genDecision
      cases c with
      | mk k as body =>
      simp only [okCases, Bool.and_eq_true] at h
      refine fr_genSwitch (fun a b => ?_) (fun a => fr_genCases ctx W he v a cs h.2.2)
      unfold genCase
      exact fr_genCaseCode _ _ _ _ _ _ (fr_genDecision ctx W he body h.2.1.2)
  | .switch _ [] _, _ => by unfold genDecision; exact fr_raise _
  | .fail, _ => by unfold genDecision; exact fr_raise _
theorem fr_genCases (ctx : GenCtx) (W : Wf) (he : ctx.env = W.L.env) (v : SymId) (a : Nat) :
    ∀ cs : List DCase, okCases W cs = true → Fr W.scope (genCases ctx v a cs)
  | [], _ => by unfold genCases; exact fr_pure _
  | .mk k as body :: cs, h => by
      simp only [okCases, Bool.and_eq_true] at h
      have h2 := fr_genCases ctx W he v a cs h.2
      unfold genCases
      refine fr_bind fr_newLabel fun l => fr_bind ?_ fun _ => h2
      unfold genCase
      exact fr_genCaseCode _ _ _ _ _ _ (fr_genDecision ctx W he body h.1.2)
theorem fr_genStmt (ctx : GenCtx) (W : Wf) (he : ctx.env = W.L.env) :
    ∀ st : TStmt, okS W st = true → Fr W.scope (genStmt ctx st)
  | .expr e, h => by
      unfold genStmt
      exact fr_genExpr ctx W he .stmt e (by simpa [okS] using h)
  | .varDecl _ _ _ (some (.mk _ r)), h => by
      simp only [okS, Bool.and_eq_true] at h
      unfold genStmt
      exact fr_atLine _ (fr_genAssign _ _ _ (fr_genExpr ctx W he .rhs r h.2))
  | .varDecl _ _ _ none, _ => by unfold genStmt genDeclare; exact fr_atLine _ (by repeat fr)
  | .loopCtl _ _, _ => by unfold genStmt; exact fr_atLine _ (fr_genLoopCtl _)
  | .retorna _ none, _ => by
      unfold genStmt; simp only [genOpt]; unfold genRetorna; exact fr_atLine _ (by repeat fr)
  | .retorna _ (some e), h => by
      have := fr_genExpr ctx W he .value e (by simpa [okS] using h)
      unfold genStmt; simp only [genOpt]; unfold genRetorna; exact fr_atLine _ (by repeat fr)
  | .produz _ e, h => by
      simp only [okS, Bool.and_eq_true] at h
      unfold genStmt
      exact fr_atLine _ (fr_genExpr ctx W he .value e h.2)
  | .mostra _ e, h => by
      have := fr_genExpr ctx W he .value e (by simpa [okS] using h)
      unfold genStmt genMostra; exact fr_atLine _ (by repeat fr)
  | .se _ c t es b, h => by
      simp only [okS, Bool.and_eq_true] at h
      unfold genStmt
      exact fr_atLine _ (fr_genSe (fr_genExpr ctx W he .value c h.1.1.1) (fr_genBlock ctx W he t h.1.1.2)
        (fun l => fr_genElses ctx W he l es h.1.2) (fr_genOptBlock ctx W he b h.2))
  | .enquanto _ c (.mk x body), h => by
      simp only [okS, Bool.and_eq_true] at h
      unfold genStmt
      exact fr_atLine _ (fr_genEnquanto _ _ (block_parent he h.1.1)
        (fr_genExpr ctx (W.paraIn x) he .value c h.1.2) (fr_genStmts ctx (W.loopIn x) he body h.2))
  | .para _ _ a b none (.mk x body), h => by
      simp only [okS, Bool.and_eq_true] at h
      unfold genStmt
      exact fr_atLine _ (fr_genPara _ _ _ (block_parent he h.1.1.1.1.1.1)
        (fr_genExpr ctx (W.enter x) he .value a h.1.1.1.1.1.2)
        (fr_genExpr ctx (W.enter x) he .value b h.1.1.2)
        (by simp only [genOpt, genInc]; exact fr_loadConst _)
        (fr_genStmts ctx (W.paraIn x) he body h.2))
  | .para _ _ a b (some i) (.mk x body), h => by
      simp only [okS, Bool.and_eq_true] at h
      unfold genStmt
      exact fr_atLine _ (fr_genPara _ _ _ (block_parent he h.1.1.1.1.1.1.1)
        (fr_genExpr ctx (W.enter x) he .value a h.1.1.1.1.1.1.2)
        (fr_genExpr ctx (W.enter x) he .value b h.1.1.1.2)
        (by simp only [genOpt, genInc]; exact fr_genExpr ctx (W.enter x) he .value i h.1.2)
        (fr_genStmts ctx (W.paraIn x) he body h.2))
  | .func _ sy (.mk x body), h => by
      simp only [okS, Bool.or_eq_true, Bool.and_eq_true] at h
      unfold genStmt
      refine fr_atLine _ (fr_genFunc _ _ _ fun f hf => ?_)
      unfold genFuncBody
      split
      · exact fr_pure _
      · rename_i hb
        rcases h.2 with h | h
        · rw [← he, hf] at h
          exact absurd h hb
        · exact fr_genScoped _ _ (inside_parent he h.1) (fr_genStmts ctx (W.funcIn x) he body h.2)
  | .registo _ _ _, _ => by unfold genStmt; exact fr_atLine _ (fr_genRegisto _ _ _)
  | .uniao _ _ _, _ => by unfold genStmt genUniao; exact fr_atLine _ (by repeat fr)
  | .noop _, _ => by unfold genStmt; exact fr_setLine _
theorem fr_genStmts (ctx : GenCtx) (W : Wf) (he : ctx.env = W.L.env) :
    ∀ ss : List TStmt, okSs W ss = true → Fr W.scope (genStmts ctx ss)
  | [], _ => by unfold genStmts; exact fr_pure _
  | s :: ss, h => by
      simp only [okSs, Bool.and_eq_true] at h
      have h1 := fr_genStmt ctx { W with yields := W.yields && ss.isEmpty } he s h.1
      have h2 := fr_genStmts ctx W he ss h.2
      unfold genStmts; exact fr_bind h1 fun _ => h2
theorem fr_genBlock (ctx : GenCtx) (W : Wf) (he : ctx.env = W.L.env) :
    ∀ b : TBlock, okB W b = true → Fr W.scope (genBlock ctx b)
  | .mk x body, h => by
      simp only [okB, Bool.and_eq_true] at h
      unfold genBlock
      exact fr_genScoped _ _ (block_parent he h.1) (fr_genStmts ctx (W.enter x) he body h.2)
theorem fr_genOptBlock (ctx : GenCtx) (W : Wf) (he : ctx.env = W.L.env) :
    ∀ b : Option TBlock, okOptB W b = true → Fr W.scope (genOptBlock ctx b)
  | none, _ => by unfold genOptBlock; exact fr_pure _
  | some b, h => by
      unfold genOptBlock
      exact fr_genBlock ctx W he b (by simpa [okOptB] using h)
theorem fr_genElses (ctx : GenCtx) (W : Wf) (he : ctx.env = W.L.env) (a : Nat) :
    ∀ es : List TElse, okElses W es = true → Fr W.scope (genElses ctx a es)
  | [], _ => by unfold genElses; exact fr_pure _
  | .mk c b :: es, h => by
      simp only [okElses, Bool.and_eq_true] at h
      have h1 := fr_genExpr ctx W he .value c h.1.1
      have h2 := fr_genBlock ctx W he b h.1.2
      have h3 := fr_genElses ctx W he a es h.2
      unfold genElses genElsif
      exact fr_bind fr_newLabel fun l => fr_bind (fr_genBranch _ _ h1 h2) fun _ => h3
end

end Codegen

end Amanda

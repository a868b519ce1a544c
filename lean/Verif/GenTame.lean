import Verif.GenFrame

/-!
# Tables after code generation

Constants can be loaded, 16-bit operands fit into 16 bits when the tables they refer to are small, and
functions and unions are declared only by statements of the module itself.
-/

namespace Amanda

namespace Codegen

open Source

/-- A constant the virtual machine can load. -/
def Loads : ConstKey → Prop
  | .str s => textOk s = true
  | .int _ => True

/-- A table of locals without double entries whose slots fit into 16 bits. -/
def Small (t : List (String × Nat)) : Prop := Dense t ∧ t.length ≤ 65536

instance (t : List (String × Nat)) : Decidable (Small t) := inferInstanceAs (Decidable (_ ∧ _))

theorem Small.prefix {a b : List (String × Nat)} (h : Small b) (p : a <+: b) : Small a :=
  ⟨h.1.prefix p, Nat.le_trans p.length_le h.2⟩

/-- All tables of locals, those of finished functions and the present one, and the table of records are
small. -/
structure Tables (s : Gen) : Prop where
  finished : ∀ t ∈ s.finished, Small t
  locals : Small s.funcLocals
  registos : s.registos.length ≤ 65536

/-- What happens to the tables; functions and unions may be declared only if `d`. -/
structure Tame (d : Bool) (s s' : Gen) : Prop where
  frame : Frame s s'
  registos : s.registos <+: s'.registos
  consts : (∀ c ∈ s.consts, Loads c) → ∀ c ∈ s'.consts, Loads c
  fit : Tables s' → (∀ i ∈ s.ops, Operands16Fit i) → ∀ i ∈ s'.ops, Operands16Fit i
  decls : d = false → s'.funcs = s.funcs ∧ s'.variants = s.variants

theorem Tables.back {s s' : Gen} (h : Tables s') (k : Frame s s') (r : s.registos <+: s'.registos) : Tables s :=
  ⟨fun t ht => h.finished t (k.finished.subset ht), h.locals.prefix (k.locals h.locals.1),
    Nat.le_trans r.length_le h.registos⟩

theorem Tame.trans {d : Bool} {a b c : Gen} (h : Tame d a b) (k : Tame d b c) : Tame d a c :=
  ⟨h.frame.trans k.frame, h.registos.trans k.registos, fun l => k.consts (h.consts l),
    fun t l => k.fit t (h.fit (t.back k.frame k.registos) l),
    fun e => ⟨((k.decls e).1.trans (h.decls e).1), ((k.decls e).2.trans (h.decls e).2)⟩⟩

/-- Code generation in scope `sc`. -/
def Tm (sc : Option ScopeId) (d : Bool) (m : G α) : Prop :=
  ∀ s a s', m s = .ok (a, s') → s.scope = sc → Tame d s s'

theorem tm_up {sc : Option ScopeId} {d : Bool} {m : G α} (h : Tm sc false m) : Tm sc d m :=
  fun s a s' hr hs => { h s a s' hr hs with decls := fun _ => (h s a s' hr hs).decls rfl }

theorem Tm.fr {sc : Option ScopeId} {d : Bool} {m : G α} (h : Tm sc d m) : Fr sc m :=
  fun s a s' hr hs => (h s a s' hr hs).frame

theorem tm_bind {sc : Option ScopeId} {d : Bool} {m : G α} {f : α → G β} (h : Tm sc d m) (k : ∀ a, Tm sc d (f a)) :
    Tm sc d (m >>= f) := by
  intro s b s'' hr hs
  obtain ⟨a, s', h1, h2⟩ := G.bind_ok.1 hr
  have e := h s a s' h1 hs
  exact e.trans (k a s' b s'' h2 (e.frame.scope.trans hs))

/-- Steps that change nothing `Tame` speaks about. -/
theorem tm_of {sc : Option ScopeId} {d : Bool} {m : G α} (hf : Fr sc m)
    (h : ∀ s a s', m s = .ok (a, s') → s'.registos = s.registos ∧ s'.consts = s.consts ∧
      s'.ops = s.ops ∧ s'.funcs = s.funcs ∧ s'.variants = s.variants) : Tm sc d m := by
  intro s a s' hr hs
  obtain ⟨h1, h2, h3, h4, h5⟩ := h s a s' hr
  exact ⟨hf s a s' hr hs, h1 ▸ List.prefix_rfl, h2 ▸ id, fun _ => h3 ▸ id, fun _ => ⟨h4, h5⟩⟩

theorem tm_pure {sc : Option ScopeId} {d : Bool} (a : α) : Tm sc d (G.pure a) :=
  tm_of (fr_pure _) fun s b s' h => by obtain ⟨-, rfl⟩ := Prod.mk.inj (Except.ok.inj h); simp

theorem tm_raise {sc : Option ScopeId} {d : Bool} (e : PyErr) : Tm sc d (G.raise e : G α) :=
  tm_of (fr_raise _) fun s b s' h => absurd h (by simp [G.raise])

theorem tm_get {sc : Option ScopeId} {d : Bool} : Tm sc d G.get :=
  tm_of fr_get fun s b s' h => by obtain ⟨-, rfl⟩ := Prod.mk.inj (Except.ok.inj h); simp

theorem tm_need {sc : Option ScopeId} {d : Bool} (o : Option α) (e : String) : Tm sc d (G.need o e) := by
  cases o
  · exact tm_raise _
  · exact tm_pure _

/-- One more instruction, whose operands fit. -/
theorem tame_emit {d : Bool} {op : Op} {args : List Nat} {s s' : Gen} {u : Unit}
    (h : emit op args s = .ok (u, s')) (hf : Tables s → Operands16Fit ⟨op, args⟩) : Tame d s s' := by
  have hfr := fr_emit (sc := s.scope) op args s u s' h rfl
  obtain ⟨-, rfl⟩ := Prod.mk.inj (Except.ok.inj h)
  refine ⟨hfr, List.prefix_rfl, id, fun t k i hi => ?_, fun _ => ⟨rfl, rfl⟩⟩
  rcases List.mem_append.1 hi with hi | hi
  · exact k i hi
  · rw [List.mem_singleton.1 hi]
    exact hf ⟨t.finished, t.locals, t.registos⟩

theorem tm_emit {sc : Option ScopeId} {d : Bool} (op : Op) (args : List Nat) (h : op.size ≠ 3) :
    Tm sc d (emit op args) :=
  fun _ _ _ hr _ => tame_emit hr fun _ => fun e => absurd e h

theorem tm_newLabel {sc : Option ScopeId} {d : Bool} : Tm sc d newLabel :=
  tm_of fr_newLabel fun s b s' h => by obtain ⟨-, rfl⟩ := Prod.mk.inj (Except.ok.inj h); simp

theorem tm_patch {sc : Option ScopeId} {d : Bool} (l : Nat) : Tm sc d (patchLabel l) :=
  tm_of (fr_patch _) fun s b s' h => by
    unfold patchLabel at h
    split at h
    · exact absurd h (by simp)
    · obtain ⟨-, rfl⟩ := Prod.mk.inj (Except.ok.inj h); simp

theorem tableIndex_mem [DecidableEq α] {x y : α} {tab : List α} (h : y ∈ (tableIndex x tab).2) : y = x ∨ y ∈ tab := by
  unfold tableIndex at h
  split at h
  · exact Or.inr h
  · simp only [List.mem_append, List.mem_singleton] at h
    exact h.symm

theorem tm_constIndex {sc : Option ScopeId} {d : Bool} (c : ConstKey) (hc : Loads c) : Tm sc d (constIndex c) := by
  intro s i s' h hs
  have hf := fr_constIndex c s i s' h hs
  obtain ⟨-, rfl, -⟩ := constIndex_ok h
  refine ⟨hf, List.prefix_rfl, fun k x hx => ?_, fun _ => id, fun _ => ⟨rfl, rfl⟩⟩
  rcases tableIndex_mem hx with rfl | hx
  · exact hc
  · exact k x hx

theorem tm_nameIndex {sc : Option ScopeId} {d : Bool} (c : String) : Tm sc d (nameIndex c) :=
  tm_of (fr_nameIndex c) fun s b s' h => by obtain ⟨-, rfl, -⟩ := nameIndex_ok h; simp

theorem tm_declareLocal {sc : Option ScopeId} {d : Bool} (sym : SymRef) : Tm sc d (declareLocal sym) :=
  tm_of (fr_declareLocal sym) fun s b s' h => by obtain ⟨-, rfl⟩ := Prod.mk.inj (Except.ok.inj h); simp

theorem tm_ite {sc : Option ScopeId} {d : Bool} {c : Prop} [Decidable c] {a b : G α} (ha : Tm sc d a) (hb : Tm sc d b) :
    Tm sc d (if c then a else b) := by
  split
  · exact ha
  · exact hb

theorem tm_setLine {sc : Option ScopeId} {d : Bool} (line : Nat) : Tm sc d (setLine line) :=
  tm_of (fr_setLine _) fun s b s' h => by obtain ⟨-, rfl⟩ := Prod.mk.inj (Except.ok.inj h); simp

/-- One step of a `Tm` proof. -/
macro "tm1" : tactic => `(tactic| first
  | with_reducible assumption
  | with_reducible exact tm_pure _
  | with_reducible exact tm_raise _
  | with_reducible exact tm_get
  | with_reducible exact tm_need _ _
  | with_reducible exact tm_emit _ _ (by decide)
  | with_reducible exact tm_nameIndex _
  | with_reducible exact tm_declareLocal _
  | with_reducible exact tm_patch _
  | with_reducible exact tm_newLabel
  | with_reducible exact tm_setLine _
  | (with_reducible refine tm_bind ?_ fun _ => ?_)
  | (with_reducible refine tm_ite ?_ ?_))

theorem fit_one {op : Op} {i : Nat} (h : i < 65536) : Operands16Fit ⟨op, [i]⟩ := fun _ a ha => by
  rw [List.mem_singleton.1 ha]; exact h

theorem tm_loadConst {sc : Option ScopeId} {d : Bool} (c : ConstKey) (hc : Loads c) : Tm sc d (loadConst c) := by
  intro s u s' h hs
  unfold loadConst at h
  gbind h with i t e
  have h1 := tm_constIndex (d := d) c hc s i t e hs
  obtain ⟨-, -, hi⟩ := constIndex_ok e
  exact h1.trans (tame_emit h fun _ => fit_one (by omega))

/-- An instruction with the index of a name. -/
theorem tm_named {sc : Option ScopeId} {d : Bool} (n : String) {f : Nat → G Unit}
    (hf : ∀ i, i < 65535 → Tm sc d (f i)) : Tm sc d (nameIndex n >>= f) := by
  intro s u s' h hs
  gbind h with i t e
  have h1 := tm_nameIndex (d := d) n s i t e hs
  obtain ⟨-, -, hi⟩ := nameIndex_ok e
  exact h1.trans (hf i hi t u s' h (h1.frame.scope.trans hs))

theorem tm_emit1 {sc : Option ScopeId} {d : Bool} (op : Op) {i : Nat} (h : i < 65535) :
    Tm sc d (emit op [i]) :=
  fun _ _ _ hr _ => tame_emit hr fun _ => fit_one (by omega)

theorem tm_loadName {sc : Option ScopeId} {d : Bool} (c : String) : Tm sc d (loadName c) := by
  unfold loadName
  exact tm_named _ fun i hi => tm_emit1 _ hi

theorem tm_symOf {sc : Option ScopeId} {d : Bool} (ctx : GenCtx) (id : Option SymId) : Tm sc d (symOf ctx id) := by
  unfold symOf; repeat tm1

theorem tm_loadVariable {sc : Option ScopeId} {d : Bool} (ctx : GenCtx) (sym : SymRef) :
    Tm sc d (loadVariable ctx sym) := by
  unfold loadVariable
  refine tm_named _ fun i hi => ?_
  refine tm_ite (by repeat tm1) (tm_ite (tm_emit1 _ hi) ?_)
  intro s u s' h hs
  gbind h with g t e
  obtain ⟨hg, ht⟩ := get_ok e
  gbind h with l t1 e1
  obtain ⟨hl, ht1⟩ := need_ok e1
  rw [ht1, ht] at h
  rw [hg] at hl
  refine tame_emit h fun tb => fit_one ?_
  have := lookup_lt tb.locals.1 hl
  have := tb.locals.2
  omega

theorem tm_localSlot {sc : Option ScopeId} {d : Bool} (sym : SymRef) : Tm sc d (localSlot sym) := by
  unfold localSlot
  tm1
  · tm1
  · split <;> tm1

theorem localSlot_lt {sym : SymRef} {s s' : Gen} {l : Nat} (h : localSlot sym s = .ok (l, s'))
    (hd : Dense s'.funcLocals) : l < s'.funcLocals.length := by
  unfold localSlot at h
  gbind h with g t e
  obtain ⟨hg, ht⟩ := get_ok e
  rw [hg, ht] at h
  cases hl : lookup s.funcLocals sym.outId with
  | some i =>
      rw [hl] at h
      obtain ⟨rfl, rfl⟩ := pure_ok h
      exact lookup_lt hd hl
  | none =>
      rw [hl] at h
      obtain ⟨rfl, rfl⟩ := Prod.mk.inj (Except.ok.inj h)
      show s.funcLocals.length < (store s.funcLocals sym.outId s.funcLocals.length).length
      unfold store
      rw [if_neg (by simp [hl])]
      simp

theorem tm_setVariable {sc : Option ScopeId} {d : Bool} (sym : SymRef) : Tm sc d (setVariable sym) := by
  unfold setVariable
  refine tm_ite (tm_named _ fun i hi => tm_emit1 _ hi) ?_
  intro s u s' h hs
  gbind h with l t e
  have h1 := tm_localSlot (d := d) sym s l t e hs
  refine h1.trans (tame_emit h fun tb => fit_one ?_)
  have := localSlot_lt e tb.locals.1
  have := tb.locals.2
  omega

theorem tm_autoCast {sc : Option ScopeId} {d : Bool} (ctx : GenCtx) (t : Ty) : Tm sc d (autoCast ctx t) := by
  unfold autoCast
  repeat first | tm1 | exact tm_loadVariable _ _

theorem tm_variantTag {sc : Option ScopeId} {d : Bool} (v : VariantRef) : Tm sc d (variantTag v) := by
  unfold variantTag; repeat tm1

theorem tm_genPath {sc : Option ScopeId} {d : Bool} (v : Option VariantRef) : Tm sc d (genPath v) := by
  unfold genPath
  repeat first | tm1 | exact tm_variantTag _ | exact tm_loadConst _ trivial

theorem tm_genTest {sc : Option ScopeId} {d : Bool} (ctx : GenCtx) (v : SymId) (c : ConsRef)
    (hc : consOk c = true) : Tm sc d (genTest ctx v c) := by
  unfold genTest
  cases c
  case str t =>
    have h1 : Tm sc d (loadConst (.str t)) := tm_loadConst _ hc
    repeat first | tm1 | exact tm_symOf _ _ | exact tm_loadVariable _ _
  all_goals
    repeat first | tm1 | exact tm_symOf _ _ | exact tm_loadVariable _ _ | exact tm_loadConst _ trivial | exact tm_variantTag _

theorem tm_genMatchArgs {sc : Option ScopeId} {d : Bool} (ctx : GenCtx) (as : List SymId) :
    Tm sc d (genMatchArgs ctx as) := by
  induction as with
  | nil => exact tm_pure _
  | cons a rest ih =>
      unfold genMatchArgs
      repeat first | tm1 | exact tm_symOf _ _ | exact tm_loadConst _ trivial

theorem tm_genCaseBindings {sc : Option ScopeId} {d : Bool} (ctx : GenCtx) (v : SymId) (c : ConsRef)
    (as : List SymId) : Tm sc d (genCaseBindings ctx v c as) := by
  unfold genCaseBindings
  cases c <;>
  repeat first | tm1 | exact tm_symOf _ _ | exact tm_loadVariable _ _ | exact tm_genMatchArgs _ _

theorem tm_genArmBindings {sc : Option ScopeId} {d : Bool} (ctx : GenCtx) (x : ScopeId)
    (bs : List (String × SymId)) : Tm sc d (genArmBindings ctx x bs) := by
  induction bs with
  | nil => exact tm_pure _
  | cons b rest ih =>
      unfold genArmBindings
      repeat first | tm1 | exact tm_symOf _ _ | exact tm_loadVariable _ _ | exact tm_setVariable _

theorem tm_genCallOp {sc : Option ScopeId} {d : Bool} (ctx : GenCtx) (sym : Sym) (k : Nat) (t : Ty) :
    Tm sc d (genCallOp ctx sym k t) := by
  unfold genCallOp
  cases sym.kind <;> repeat first | tm1 | exact tm_autoCast _ _

theorem tm_genLoopCtl {sc : Option ScopeId} {d : Bool} (b : Bool) : Tm sc d (genLoopCtl b) := by
  unfold genLoopCtl; repeat tm1

theorem tm_genRegisto {sc : Option ScopeId} {d : Bool} (ctx : GenCtx) (name : String) (fields : List String) :
    Tm sc d (genRegisto ctx name fields) := by
  intro s u s' h hs
  unfold genRegisto at h
  gbind h with i t e
  have h1 := tm_nameIndex (d := d) name s i t e hs
  gbind h with g t1 e1
  obtain ⟨hg, ht1⟩ := get_ok e1
  rw [hg, ht1] at h
  gbind h with u2 t2 e2
  have ht2 := modify_ok e2
  have h2 : Tame d t t2 := by
    rw [ht2]
    exact ⟨⟨rfl, rfl, rfl, fun _ => List.prefix_rfl, List.prefix_rfl⟩, List.prefix_append _ _, id, fun _ => id,
      fun _ => ⟨rfl, rfl⟩⟩
  gbind h with u3 t3 e3
  have h3 : Tame d t2 t3 := tame_emit e3 fun tb => fit_one (by
    have := tb.registos
    rw [ht2] at this
    simp only [List.length_append, List.length_singleton] at this
    omega)
  have h4 : Tm sc d (do
      let sym ← symOf ctx (ctx.env.resolve t.scope name)
      setVariable sym.toSymRef) := by
    repeat first | tm1 | exact tm_symOf _ _ | exact tm_setVariable _
  have h5 := (h1.trans h2).trans h3
  exact h5.trans (h4 t3 u s' h (h5.frame.scope.trans hs))

theorem tm_variantIndex {sc : Option ScopeId} (v : VariantRef) : Tm sc true (variantIndex v) := by
  intro s u s' h hs
  have hf := fr_variantIndex v s u s' h hs
  obtain ⟨-, rfl⟩ := Prod.mk.inj (Except.ok.inj h)
  exact ⟨hf, List.prefix_rfl, id, fun _ => id, fun e => absurd e (by decide)⟩

theorem tm_genVariants {sc : Option ScopeId} (vs : List VariantRef) : Tm sc true (genVariants vs) := by
  induction vs with
  | nil => exact tm_pure _
  | cons v rest ih => unfold genVariants; exact tm_bind (tm_variantIndex _) fun _ => ih

/-- `tm1` with the lemmas about the functions of codegen.py. -/
macro "tm" : tactic => `(tactic| first
  | tm1
  | with_reducible exact tm_loadConst _ trivial
  | with_reducible exact tm_loadName _
  | with_reducible exact tm_autoCast _ _
  | with_reducible exact tm_symOf _ _
  | with_reducible exact tm_loadVariable _ _
  | with_reducible exact tm_setVariable _
  | with_reducible exact tm_genPath _
  | with_reducible exact tm_genTest _ _ _ (by assumption)
  | with_reducible exact tm_genCaseBindings _ _ _ _
  | with_reducible exact tm_genArmBindings _ _ _
  | with_reducible exact tm_genCallOp _ _ _ _
  | with_reducible exact tm_genLoopCtl _
  | with_reducible exact tm_genRegisto _ _ _)

/-- A block: its scope is entered and left. -/
theorem tm_genScoped {sc : Option ScopeId} {d : Bool} (ctx : GenCtx) (x : ScopeId) {a : G Unit}
    (hp : (ctx.env.scopes[x]?).bind (·.parent) = sc) (ha : Tm (some x) d a) : Tm sc d (genScoped ctx x a) := by
  intro s u s' hr hs
  have hr0 := hr
  obtain ⟨u1, s1, h1, hr⟩ := G.bind_ok.1 hr
  obtain ⟨-, rfl⟩ := Prod.mk.inj (Except.ok.inj h1)
  obtain ⟨u2, s2, h2, hr⟩ := G.bind_ok.1 hr
  obtain ⟨-, rfl⟩ := Prod.mk.inj (Except.ok.inj hr)
  have f := ha _ _ _ h2 rfl
  exact ⟨fr_genScoped ctx x hp ha.fr s () _ hr0 hs, f.registos, f.consts,
    fun t => f.fit ⟨t.finished, t.locals, t.registos⟩, f.decls⟩

theorem tm_genSuccess {sc : Option ScopeId} {d : Bool} (ctx : GenCtx) (bs : List (String × SymId)) (l : Nat)
    (x : ScopeId) {a : G Unit} (ha : Tm sc d (genScoped ctx x a)) : Tm sc d (genSuccess ctx bs l x a) := by
  unfold genSuccess
  repeat tm

theorem tm_genChain {sc : Option ScopeId} {d : Bool} (ctx : GenCtx) (c : Option SymId) : Tm sc d (genChain ctx c) := by
  unfold genChain
  cases c <;> repeat tm

theorem tm_genAssign {sc : Option ScopeId} {d : Bool} (ctx : GenCtx) {a : G Unit} (c : Option SymId) (sy : SymId)
    (ha : Tm sc d a) : Tm sc d (genAssign ctx a c sy) := by
  unfold genAssign
  repeat first | tm | exact tm_genChain _ _

theorem tm_genVariable {sc : Option ScopeId} {d : Bool} (ctx : GenCtx) (nm : String) (sy : Option SymId) (p : Ty) :
    Tm sc d (genVariable ctx nm sy p) := by
  unfold genVariable
  repeat tm

theorem tm_genBinop {sc : Option ScopeId} {d : Bool} (ctx : GenCtx) (op : TT) {a b : G Unit} (lt rt p : Ty)
    (ha : Tm sc d a) (hb : Tm sc d b) : Tm sc d (genBinop ctx op a b lt rt p) := by
  unfold genBinop genNullTest genOperator
  split
  · repeat tm
  · repeat tm
  · refine tm_bind ha fun _ => tm_bind hb fun _ => ?_
    intro s u s' h hs
    gbind h with o t e
    obtain ⟨ho, ht⟩ := need_ok e
    rw [ht] at h
    have hsz : o.size ≠ 3 := by
      cases op <;> simp [binOpcode] at ho <;> subst ho <;> decide
    exact tm_bind (tm_emit o [] hsz) (fun _ => tm_autoCast _ _) s u s' h hs

theorem tm_genUnaryop {sc : Option ScopeId} {d : Bool} (ctx : GenCtx) (op : TT) {a : G Unit} (p : Ty)
    (ha : Tm sc d a) : Tm sc d (genUnaryop ctx op a p) := by
  unfold genUnaryop
  refine tm_bind ha fun _ => ?_
  intro s u s' h hs
  gbind h with o t e
  obtain ⟨ho, ht⟩ := need_ok e
  rw [ht] at h
  have hsz : o.size ≠ 3 := by
    cases op <;> simp [unOpcode] at ho <;> subst ho <;> decide
  exact tm_bind (tm_emit o [] hsz) (fun _ => tm_autoCast _ _) s u s' h hs

theorem tm_genUnwrap {sc : Option ScopeId} {d : Bool} {a : G Unit} {o : Option (G Unit)} (ha : Tm sc d a)
    (hd : ∀ m ∈ o, Tm sc d m) : Tm sc d (genUnwrap a o) := by
  cases o with
  | none => unfold genUnwrap; repeat tm
  | some m => have := hd m rfl; unfold genUnwrap; repeat tm

theorem tm_atLine {sc : Option ScopeId} {d : Bool} (l : Nat) {a : G Unit} (ha : Tm sc d a) : Tm sc d (atLine l a) := by
  unfold atLine
  repeat tm

theorem tm_genCaseCode {sc : Option ScopeId} {d : Bool} (ctx : GenCtx) (v : SymId) (c : ConsRef) (as : List SymId)
    {a : G Unit} (i l : Nat) (hc : consOk c = true) (ha : Tm sc d a) : Tm sc d (genCaseCode ctx v c as a i l) := by
  unfold genCaseCode; repeat tm

theorem tm_genSwitch {sc : Option ScopeId} {d : Bool} {f : Nat → Nat → G Unit} {g : Nat → G Unit}
    (hf : ∀ a b, Tm sc d (f a b)) (hg : ∀ a, Tm sc d (g a)) : Tm sc d (genSwitch f g) := by
  unfold genSwitch
  repeat first | tm | exact hf _ _ | exact hg _

theorem tm_genBranch {sc : Option ScopeId} {d : Bool} {a b : G Unit} (i l : Nat) (ha : Tm sc d a) (hb : Tm sc d b) :
    Tm sc d (genBranch a b i l) := by
  unfold genBranch; repeat tm

theorem tm_genSe {sc : Option ScopeId} {d : Bool} {a b c : G Unit} {f : Nat → G Unit} (ha : Tm sc d a) (hb : Tm sc d b)
    (hf : ∀ l, Tm sc d (f l)) (hc : Tm sc d c) : Tm sc d (genSe a b f c) := by
  unfold genSe
  repeat first | tm | exact hf _ | exact tm_genBranch _ _ ha hb

theorem tm_genEnquanto {sc : Option ScopeId} {d : Bool} (ctx : GenCtx) (x : ScopeId) {a b : G Unit}
    (hp : (ctx.env.scopes[x]?).bind (·.parent) = sc) (ha : Tm (some x) d a) (hb : Tm (some x) d b) :
    Tm sc d (genEnquanto ctx x a b) := by
  intro s u s' hr hs
  have hf := fr_genEnquanto ctx x hp ha.fr hb.fr s u s' hr hs
  unfold genEnquanto at hr
  gbind hr with l1 s1 h1
  have f1 := tm_newLabel (d := d) s l1 s1 h1 hs
  gbind hr with g s2 h2
  obtain ⟨-, hs2⟩ := get_ok h2
  gbind hr with l2 s3 h3
  have f3 := tm_newLabel (sc := sc) (d := d) s2 l2 s3 h3 (by rw [hs2, f1.frame.scope, hs])
  gbind hr with u4 s4 h4
  have e4 := modify_ok h4
  gbind hr with u5 s5 h5
  have e5 := modify_ok hr
  have hbody : Tm sc d (genLoopBody ctx x a b l1 l2) := by
    rw [genLoopBody_eq]
    refine tm_genScoped ctx x hp ?_
    repeat tm
  rw [hs2] at f3
  have f13 := f1.trans f3
  have f5 := hbody s4 _ s5 h5 (by rw [e4]; exact f13.frame.scope.trans hs)
  rw [e4] at f5
  rw [e5] at hf ⊢
  exact ⟨hf, f13.registos.trans f5.registos, fun k => f5.consts (f13.consts k),
    fun t k => f5.fit ⟨t.finished, t.locals, t.registos⟩ (f13.fit
      ⟨fun l hl => t.finished l (f5.frame.finished.subset hl), t.locals.prefix (f5.frame.locals t.locals.1),
        Nat.le_trans f5.registos.length_le t.registos⟩ k),
    fun e => ⟨(f5.decls e).1.trans (f13.decls e).1, (f5.decls e).2.trans (f13.decls e).2⟩⟩

/-- `para`: the block around it. -/
theorem tm_genPara {sc : Option ScopeId} {d : Bool} (ctx : GenCtx) (nm : String) (x : ScopeId) {a b c e : G Unit}
    (hp : (ctx.env.scopes[x]?).bind (·.parent) = sc) (ha : Tm (some x) d a) (hb : Tm (some x) d b)
    (hc : Tm (some x) d c) (hd : Tm (some x) d e) : Tm sc d (genPara ctx nm x a b c e) := by
  have hin : ∀ l1 l2, Tm sc d (genScoped ctx x (do
      a
      let control ← symOf ctx (ctx.env.resolve (some x) nm)
      setVariable control.toSymRef
      patchLabel l2
      genParaTest ctx control.toSymRef b l1
      e
      genParaStep ctx control.toSymRef c
      emit .jump [l2]
      patchLabel l1)) := by
    intro l1 l2
    refine tm_genScoped ctx x hp ?_
    unfold genParaTest genParaStep
    repeat tm
  rw [genPara_eq]
  exact tm_bind tm_newLabel fun _ => tm_bind tm_newLabel fun _ => hin _ _

theorem tm_genFunc {sc : Option ScopeId} (ctx : GenCtx) (sy : SymId) (x : ScopeId) {a : G Unit}
    (ha : ∀ f, ctx.env.syms[sy]? = some f → Tm sc false (genFuncBody ctx f.builtin x a)) :
    Tm sc true (genFunc ctx sy x a) := by
  intro s u s' hr hs
  have hfr := fr_genFunc ctx sy x (fun f hf => (ha f hf).fr) s u s' hr hs
  unfold genFunc at hr
  gbind hr with f s0 h0
  have f0 := tm_symOf (d := true) ctx _ s f s0 h0 hs
  have hf : ctx.env.syms[sy]? = some f := (symOf_ok h0).1
  gbind hr with i s1 h1
  have f1 := f0.trans (tm_nameIndex _ _ _ _ h1 (f0.frame.scope.trans hs))
  gbind hr with fe s2 h2
  have f2 := f1.trans (tm_newLabel _ _ _ h2 (f1.frame.scope.trans hs))
  gbind hr with u3 s3 h3
  have f3 := f2.trans (tm_emit _ _ (by decide) _ _ _ h3 (f2.frame.scope.trans hs))
  gbind hr with fs s4 h4
  have f4 := f3.trans (tm_newLabel _ _ _ h4 (f3.frame.scope.trans hs))
  gbind hr with g s5 h5
  obtain ⟨hg, hs5⟩ := get_ok h5
  rw [hg, hs5] at hr
  gbind hr with u6 s6 h6
  have e6 : ∃ l, s6 = { s4 with funcLocals := l } := by
    unfold startLocals at h6
    cases hp : paramLocals ctx f.params [] with
    | error e => simp [hp, Except.map] at h6
    | ok l =>
        simp only [hp, Except.map, Except.ok.injEq, Prod.mk.injEq] at h6
        exact ⟨l, h6.2.symm⟩
  obtain ⟨l6, e6⟩ := e6
  gbind hr with u7 s7 h7
  have f7 := ha f hf _ _ _ h7 (by rw [e6]; exact f4.frame.scope.trans hs)
  unfold endFunc at hr
  gbind hr with u8 s8 h8
  have f8 := f7.trans (tm_loadConst (sc := s7.scope) (.str "falso") (show textOk "falso" = true by decide) _ _ _ h8 rfl)
  gbind hr with u9 s9 h9
  have f9 := f8.trans (tm_emit (sc := s8.scope) _ _ (by decide) _ _ _ h9 rfl)
  gbind hr with g' s10 h10
  obtain ⟨hg', hs10⟩ := get_ok h10
  rw [hg', hs10] at hr
  gbind hr with u11 s11 h11
  have e11 := modify_ok h11
  gbind hr with u12 s12 h12
  have f12 := tm_patch (sc := s11.scope) (d := true) _ _ _ _ h12 rfl
  have e12 := patchLabel_ok h12
  gbind hr with g13 s13 h13
  obtain ⟨-, hs13⟩ := get_ok h13
  gbind hr with st s14 h14
  have e14 := (need_ok h14).2
  have e15 := modify_ok hr
  have hreg : s'.registos = s9.registos := by rw [e15, e14, hs13, e12, e11]
  have hcon : s'.consts = s9.consts := by rw [e15, e14, hs13, e12, e11]
  have hops : s'.ops = s9.ops := by rw [e15, e14, hs13, e12, e11]
  have hloc : s'.funcLocals = s4.funcLocals := by rw [e15, e14, hs13, e12, e11]
  have hfin : s'.finished = s9.finished ++ [s9.funcLocals] := by rw [e15, e14, hs13, e12, e11]
  have q1 : s4.registos <+: s9.registos := by have := f9.registos; rw [e6] at this; exact this
  refine ⟨hfr, ?_, fun k => ?_, fun t k => ?_, fun e => absurd e (by decide)⟩
  · rw [hreg]; exact f4.registos.trans q1
  · rw [hcon]
    refine f9.consts ?_
    rw [e6]; exact f4.consts k
  · rw [hops]
    have tf : ∀ l ∈ s9.finished, Small l := fun l hl => t.finished l (by rw [hfin]; exact List.mem_append_left _ hl)
    have tl : Small s9.funcLocals := t.finished _ (by rw [hfin]; simp)
    have tr : s9.registos.length ≤ 65536 := by rw [← hreg]; exact t.registos
    have q2 : s4.finished <+: s9.finished := by have := f9.frame.finished; rw [e6] at this; exact this
    refine f9.fit ⟨tf, tl, tr⟩ ?_
    rw [e6]
    exact f4.fit ⟨fun l hl => tf l (q2.subset hl), by rw [← hloc]; exact t.locals,
      Nat.le_trans q1.length_le tr⟩ k

theorem tm_callee {sc : Option ScopeId} {d : Bool} {W : Wf} (ctx : GenCtx) {e : TExpr} (h : W.callee e = true) :
    Tm sc d (genExpr ctx e) := by
  cases e <;> first | (simp [Wf.callee] at h; done) | skip
  · unfold genExpr; exact tm_atLine _ (tm_genVariable _ _ _ _)
  · unfold genExpr; exact tm_atLine _ (tm_genPath _)

/-- Declarations of functions and unions. -/
def isDecl : TStmt → Bool
  | .func _ _ _ => true
  | .uniao _ _ _ => true
  | _ => false

theorem decl_top {W : Wf} {y : Bool} {st : TStmt} (h : okS { W with yields := y } st = true) (hd : isDecl st = true) :
    W.top = true := by
  cases st <;> simp [isDecl] at hd
  · rename_i b
    cases b
    simp only [okS, Wf.header, Bool.and_eq_true] at h
    exact h.1.1
  · simpa [okS] using h

mutual
theorem tm_genExpr (ctx : GenCtx) (W : Wf) (he : ctx.env = W.L.env) (u : Use) :
    ∀ e : TExpr, okE W u e = true → Tm W.scope false (genExpr ctx e)
  | .const _ lexeme _, h => by
      have : Tm W.scope false (loadConst (.str lexeme)) := tm_loadConst _ (by simpa [okE, Loads] using h)
      unfold genExpr genConstant; exact tm_atLine _ (by repeat tm)
  | .fmtStr _ parts, h => by
      have := tm_genExprs ctx W he parts (by simpa [okE] using h)
      unfold genExpr genFmtStr; exact tm_atLine _ (by repeat tm)
  | .var _ _ _ _, _ => by unfold genExpr; exact tm_atLine _ (tm_genVariable _ _ _ _)
  | .converta _ t _ _, h => by
      have := tm_genExpr ctx W he .value t (by simpa [okE] using h)
      unfold genExpr genConverta; exact tm_atLine _ (by repeat tm)
  | .alvo _ _, _ => by unfold genExpr genAlvo; exact tm_atLine _ (by repeat tm)
  | .bin _ _ l r _ _ _, h => by
      simp only [okE, Bool.and_eq_true] at h
      unfold genExpr
      exact tm_atLine _ (tm_genBinop _ _ _ _ _ (tm_genExpr ctx W he .value l h.1.1.2)
        (tm_genExpr ctx W he .value r h.1.2))
  | .un _ _ e _, h => by
      have := tm_genExpr ctx W he .value e (by simpa [okE] using h)
      unfold genExpr; exact tm_atLine _ (tm_genUnaryop _ _ _ this)
  | .assign _ _ r, h => by
      simp only [okE, Bool.and_eq_true] at h
      unfold genExpr
      exact tm_atLine _ (tm_genAssign _ _ _ (tm_genExpr ctx W he .rhs r h.2))
  | .iguala _ d, h => by
      have := tm_genDecision ctx { W with yields := true } he d (by simpa [okE] using h)
      unfold genExpr; exact tm_atLine _ this
  | .call _ c args _ _, h => by
      simp only [okE, Bool.and_eq_true] at h
      have h1 := tm_callee (d := false) (sc := W.scope) ctx h.1
      have h2 : Tm W.scope false (genExprs ctx args) := by
        have h2 := h.2
        split at h2
        · exact tm_genFields ctx W he args h2
        · exact tm_genExprs ctx W he args (by simp only [Bool.and_eq_true] at h2; exact h2.2)
        · exact tm_genExprs ctx W he args h2
      unfold genExpr genCall; exact tm_atLine _ (by repeat tm)
  | .list _ es, h => by
      have := tm_genExprs ctx W he es (by simpa [okE] using h)
      unfold genExpr genList; exact tm_atLine _ (by repeat tm)
  | .named _ _ _, h => by simp [okE] at h
  | .get _ t _ _, h => by
      simp only [okE, Bool.and_eq_true] at h
      have := tm_genExpr ctx W he .value t h.2
      unfold genExpr genGet; exact tm_atLine _ (by repeat tm)
  | .index _ t i, h => by
      simp only [okE, Bool.and_eq_true] at h
      have h1 := tm_genExpr ctx W he .value t h.1.1
      have h2 := tm_genExpr ctx W he .value i h.1.2
      unfold genExpr genIndexGet; exact tm_atLine _ (by repeat tm)
  | .indexSet _ t i v, h => by
      simp only [okE, Bool.and_eq_true] at h
      have h1 := tm_genExpr ctx W he .value t h.1.1.1.1.2
      have h2 := tm_genExpr ctx W he .value i h.1.1.1.2
      have h3 := tm_genExpr ctx W he .value v h.1.2
      unfold genExpr genIndexSet; exact tm_atLine _ (by repeat tm)
  | .set _ (.get _ t _ _) v, h => by
      simp only [okE, Bool.and_eq_true] at h
      have h1 := tm_genExpr ctx W he .value t h.1.1.2
      have h3 := tm_genExpr ctx W he .value v h.1.2
      have h2 : ∀ l nm b, Tm W.scope false (genExpr ctx (.get l t nm b)) := fun l nm b => by
        unfold genExpr genGet; exact tm_atLine _ (by repeat tm)
      unfold genExpr genSet
      exact tm_atLine _ (tm_bind (h2 _ _ _) fun _ => tm_bind h3 fun _ => tm_emit _ _ (by decide))
  | .unwrap _ o none, h => by
      have := tm_genExpr ctx W he .value o (by simpa [okE] using h)
      unfold genExpr; exact tm_atLine _ (tm_genUnwrap this (by simp [genOpt]))
  | .unwrap _ o (some d), h => by
      simp only [okE, Bool.and_eq_true] at h
      have h1 := tm_genExpr ctx W he .value o h.1.1
      have h2 := tm_genExpr ctx W he .value d h.1.2
      unfold genExpr; exact tm_atLine _ (tm_genUnwrap h1 (by simp [genOpt, h2]))
  | .path _ _, _ => by unfold genExpr; exact tm_atLine _ (tm_genPath _)
theorem tm_genExprs (ctx : GenCtx) (W : Wf) (he : ctx.env = W.L.env) :
    ∀ es : List TExpr, okEs W es = true → Tm W.scope false (genExprs ctx es)
  | [], _ => by unfold genExprs; exact tm_pure _
  | e :: es, h => by
      simp only [okEs, Bool.and_eq_true] at h
      have h1 := tm_genExpr ctx W he .value e h.1.1
      have h2 := tm_genExprs ctx W he es h.1.2
      unfold genExprs; repeat tm
theorem tm_genFields (ctx : GenCtx) (W : Wf) (he : ctx.env = W.L.env) :
    ∀ es : List TExpr, okFields W es = true → Tm W.scope false (genExprs ctx es)
  | [], _ => by unfold genExprs; exact tm_pure _
  | .named _ _ e :: es, h => by
      simp only [okFields, Bool.and_eq_true] at h
      have h1 := tm_genExpr ctx W he .value e h.1.1
      have h2 := tm_genFields ctx W he es h.2
      unfold genExprs; unfold genExpr genNamed
      exact tm_bind (tm_atLine _ (by repeat tm)) fun _ => h2
theorem tm_genDecision (ctx : GenCtx) (W : Wf) (he : ctx.env = W.L.env) :
    ∀ d : Decision, okD W d = true → Tm W.scope false (genDecision ctx d)
  | .success _ _ x body, h => by
      simp only [okD, Bool.and_eq_true] at h
      unfold genDecision
      exact tm_genSuccess _ _ _ _ (tm_genScoped _ _ (block_parent he h.1.1)
        (tm_genStmts ctx (W.enter x) he body h.2))
  | .switch v (c :: cs) _, h => by
      simp only [okD, Bool.and_eq_true] at h
      unfold genDecision
      cases c with
      | mk k as body =>
      simp only [okCases, Bool.and_eq_true] at h
      refine tm_genSwitch (fun a b => ?_) (fun a => tm_genCases ctx W he v a cs h.2.2)
      unfold genCase
      exact tm_genCaseCode _ _ _ _ _ _ h.2.1.1.1 (tm_genDecision ctx W he body h.2.1.2)
  | .switch _ [] _, _ => by unfold genDecision; exact tm_raise _
  | .fail, _ => by unfold genDecision; exact tm_raise _
theorem tm_genCases (ctx : GenCtx) (W : Wf) (he : ctx.env = W.L.env) (v : SymId) (a : Nat) :
    ∀ cs : List DCase, okCases W cs = true → Tm W.scope false (genCases ctx v a cs)
  | [], _ => by unfold genCases; exact tm_pure _
  | .mk k as body :: cs, h => by
      simp only [okCases, Bool.and_eq_true] at h
      have h2 := tm_genCases ctx W he v a cs h.2
      unfold genCases
      refine tm_bind tm_newLabel fun l => tm_bind ?_ fun _ => h2
      unfold genCase
      exact tm_genCaseCode _ _ _ _ _ _ h.1.1.1 (tm_genDecision ctx W he body h.1.2)
theorem tm_genStmt (ctx : GenCtx) (W : Wf) (he : ctx.env = W.L.env) :
    ∀ st : TStmt, okS W st = true → Tm W.scope (isDecl st) (genStmt ctx st)
  | .expr e, h => by
      unfold genStmt
      exact tm_genExpr ctx W he .stmt e (by simpa [okS] using h)
  | .varDecl _ _ _ (some (.mk _ r)), h => by
      simp only [okS, Bool.and_eq_true] at h
      unfold genStmt
      exact tm_atLine _ (tm_genAssign _ _ _ (tm_genExpr ctx W he .rhs r h.2))
  | .varDecl _ _ ty none, _ => by
      have : Tm W.scope false (loadConst (initConst ty)) := tm_loadConst _ (by
        unfold initConst; repeat' split
        all_goals first | trivial | (show textOk _ = true; decide))
      unfold genStmt genDeclare; simp only [isDecl]; exact tm_atLine _ (by repeat tm)
  | .loopCtl _ _, _ => by unfold genStmt; exact tm_atLine _ (tm_genLoopCtl _)
  | .retorna _ none, _ => by
      have : Tm W.scope false (loadConst (.str "falso")) := tm_loadConst _ (show textOk "falso" = true by decide)
      unfold genStmt; simp only [genOpt]; unfold genRetorna; simp only [isDecl]; exact tm_atLine _ (by repeat tm)
  | .retorna _ (some e), h => by
      have := tm_genExpr ctx W he .value e (by simpa [okS] using h)
      unfold genStmt; simp only [genOpt]; unfold genRetorna; simp only [isDecl]; exact tm_atLine _ (by repeat tm)
  | .produz _ e, h => by
      simp only [okS, Bool.and_eq_true] at h
      unfold genStmt
      exact tm_atLine _ (tm_genExpr ctx W he .value e h.2)
  | .mostra _ e, h => by
      have := tm_genExpr ctx W he .value e (by simpa [okS] using h)
      unfold genStmt genMostra; simp only [isDecl]; exact tm_atLine _ (by repeat tm)
  | .se _ c t es b, h => by
      simp only [okS, Bool.and_eq_true] at h
      unfold genStmt
      exact tm_atLine _ (tm_genSe (tm_genExpr ctx W he .value c h.1.1.1) (tm_genBlock ctx W he t h.1.1.2)
        (fun l => tm_genElses ctx W he l es h.1.2) (tm_genOptBlock ctx W he b h.2))
  | .enquanto _ c (.mk x body), h => by
      simp only [okS, Bool.and_eq_true] at h
      unfold genStmt
      exact tm_atLine _ (tm_genEnquanto _ _ (block_parent he h.1.1)
        (tm_genExpr ctx (W.paraIn x) he .value c h.1.2) (tm_genStmts ctx (W.loopIn x) he body h.2))
  | .para _ _ a b none (.mk x body), h => by
      simp only [okS, Bool.and_eq_true] at h
      unfold genStmt
      exact tm_atLine _ (tm_genPara _ _ _ (block_parent he h.1.1.1.1.1.1)
        (tm_genExpr ctx (W.enter x) he .value a h.1.1.1.1.1.2)
        (tm_genExpr ctx (W.enter x) he .value b h.1.1.2)
        (by simp only [genOpt, genInc]; exact tm_loadConst _ trivial)
        (tm_genStmts ctx (W.paraIn x) he body h.2))
  | .para _ _ a b (some i) (.mk x body), h => by
      simp only [okS, Bool.and_eq_true] at h
      unfold genStmt
      exact tm_atLine _ (tm_genPara _ _ _ (block_parent he h.1.1.1.1.1.1.1)
        (tm_genExpr ctx (W.enter x) he .value a h.1.1.1.1.1.1.2)
        (tm_genExpr ctx (W.enter x) he .value b h.1.1.1.2)
        (by simp only [genOpt, genInc]; exact tm_genExpr ctx (W.enter x) he .value i h.1.2)
        (tm_genStmts ctx (W.paraIn x) he body h.2))
  | .func _ sy (.mk x body), h => by
      simp only [okS, Bool.or_eq_true, Bool.and_eq_true] at h
      unfold genStmt
      refine tm_atLine _ (tm_genFunc _ _ _ fun f hf => ?_)
      unfold genFuncBody
      split
      · exact tm_pure _
      · rename_i hb
        rcases h.2 with h | h
        · rw [← he, hf] at h
          exact absurd h hb
        · exact tm_genScoped _ _ (inside_parent he h.1) (tm_genStmts ctx (W.funcIn x) he body h.2)
  | .registo _ _ _, _ => by unfold genStmt; exact tm_atLine _ (tm_genRegisto _ _ _)
  | .uniao _ _ vs, h => by
      have h1 := tm_genVariants (sc := W.scope) vs
      unfold genStmt genUniao; simp only [isDecl]; exact tm_atLine _ (by repeat tm)
  | .noop _, _ => by unfold genStmt; exact tm_setLine _
theorem tm_genStmts (ctx : GenCtx) (W : Wf) (he : ctx.env = W.L.env) :
    ∀ ss : List TStmt, okSs W ss = true → Tm W.scope W.top (genStmts ctx ss)
  | [], _ => by unfold genStmts; exact tm_pure _
  | s :: ss, h => by
      simp only [okSs, Bool.and_eq_true] at h
      have h1 := tm_genStmt ctx { W with yields := W.yields && ss.isEmpty } he s h.1
      have h2 := tm_genStmts ctx W he ss h.2
      have h3 : Tm W.scope W.top (genStmt ctx s) := by
        cases hd : isDecl s with
        | false => rw [hd] at h1; exact tm_up h1
        | true => rw [decl_top h.1 hd] at h2 ⊢; rw [hd] at h1; exact h1
      unfold genStmts; exact tm_bind h3 fun _ => h2
theorem tm_genBlock (ctx : GenCtx) (W : Wf) (he : ctx.env = W.L.env) :
    ∀ b : TBlock, okB W b = true → Tm W.scope false (genBlock ctx b)
  | .mk x body, h => by
      simp only [okB, Bool.and_eq_true] at h
      unfold genBlock
      exact tm_genScoped _ _ (block_parent he h.1) (tm_genStmts ctx (W.enter x) he body h.2)
theorem tm_genOptBlock (ctx : GenCtx) (W : Wf) (he : ctx.env = W.L.env) :
    ∀ b : Option TBlock, okOptB W b = true → Tm W.scope false (genOptBlock ctx b)
  | none, _ => by unfold genOptBlock; exact tm_pure _
  | some b, h => by
      unfold genOptBlock
      exact tm_genBlock ctx W he b (by simpa [okOptB] using h)
theorem tm_genElses (ctx : GenCtx) (W : Wf) (he : ctx.env = W.L.env) (a : Nat) :
    ∀ es : List TElse, okElses W es = true → Tm W.scope false (genElses ctx a es)
  | [], _ => by unfold genElses; exact tm_pure _
  | .mk c b :: es, h => by
      simp only [okElses, Bool.and_eq_true] at h
      have h1 := tm_genExpr ctx W he .value c h.1.1
      have h2 := tm_genBlock ctx W he b h.1.2
      have h3 := tm_genElses ctx W he a es h.2
      unfold genElses genElsif
      exact tm_bind tm_newLabel fun l => tm_bind (tm_genBranch _ _ h1 h2) fun _ => h3
end

end Codegen

end Amanda

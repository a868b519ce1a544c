import Verif.Compile
import Verif.Props.Instructions
import Verif.ExceptLemmas

/-!
# What every step of code generation keeps

`Ext n s s'`: the generator went from `s` to `s'` by adding instructions and table entries, without
touching the first `n` labels.  `Keeps n m`: every successful run of `m` is such a step.
-/

namespace Amanda

namespace Codegen

/-- Bytes taken by instructions. -/
def codeSize (is : List Ins) : Nat := (is.map fun i => i.op.size).sum

@[simp] theorem codeSize_nil : codeSize [] = 0 := rfl

@[simp] theorem codeSize_cons (i : Ins) (is : List Ins) : codeSize (i :: is) = i.op.size + codeSize is := by
  simp [codeSize]

@[simp] theorem codeSize_append (a b : List Ins) : codeSize (a ++ b) = codeSize a + codeSize b := by
  simp [codeSize]

/-- `a` is the offset at which an instruction of `is` starts, or the end of `is`. -/
def Boundary (is : List Ins) (a : Nat) : Prop := ∃ k, k ≤ is.length ∧ a = codeSize (is.take k)

theorem Boundary.mono {is : List Ins} {a : Nat} (h : Boundary is a) (more : List Ins) :
    Boundary (is ++ more) a := by
  obtain ⟨k, hk, rfl⟩ := h
  refine ⟨k, by simp; omega, ?_⟩
  rw [List.take_append_of_le_length hk]

theorem Boundary.full (is : List Ins) : Boundary is (codeSize is) := ⟨is.length, Nat.le_refl _, by simp⟩

/-- The offsets the generator keeps are right: the instruction pointer is the number of bytes of
the instructions so far, and every label and function start is a boundary. -/
structure Aligned (s : Gen) : Prop where
  ip : s.ip = codeSize s.ops
  labels : ∀ a ∈ s.labels, Boundary s.ops a
  funcs : ∀ f ∈ s.funcs, Boundary s.ops f.startIp

/-- The generator went from `s` to `s'` without touching the first `n` labels. -/
structure Ext (n : Nat) (s s' : Gen) : Prop where
  ops : s.ops <+: s'.ops
  ip : s'.ip + codeSize s.ops = s.ip + codeSize s'.ops
  consts : s.consts <+: s'.consts
  names : s.names <+: s'.names
  variants : s.variants <+: s'.variants
  funcs : s.funcs <+: s'.funcs
  registos : s.registos <+: s'.registos
  labels : s.labels.take n = s'.labels.take n
  count : s.labels.length ≤ s'.labels.length
  aligned : Aligned s → Aligned s'
  formed : (∀ i ∈ s.ops, WellFormed i) → ∀ i ∈ s'.ops, WellFormed i
  nodup : s.consts.Nodup ∧ s.names.Nodup → s'.consts.Nodup ∧ s'.names.Nodup

theorem Ext.refl (n : Nat) (s : Gen) : Ext n s s where
  ops := List.prefix_rfl
  ip := rfl
  consts := List.prefix_rfl
  names := List.prefix_rfl
  variants := List.prefix_rfl
  funcs := List.prefix_rfl
  registos := List.prefix_rfl
  labels := rfl
  count := Nat.le_refl _
  aligned := id
  formed := id
  nodup := id

theorem Ext.trans {n : Nat} {a b c : Gen} (h : Ext n a b) (k : Ext n b c) : Ext n a c where
  ops := h.ops.trans k.ops
  ip := by have := h.ip; have := k.ip; omega
  consts := h.consts.trans k.consts
  names := h.names.trans k.names
  variants := h.variants.trans k.variants
  funcs := h.funcs.trans k.funcs
  registos := h.registos.trans k.registos
  labels := h.labels.trans k.labels
  count := Nat.le_trans h.count k.count
  aligned := fun x => k.aligned (h.aligned x)
  formed := fun x => k.formed (h.formed x)
  nodup := fun x => k.nodup (h.nodup x)

/-- Every successful run of `m`, started with at least `n` labels, is an `Ext n`. -/
def Keeps (n : Nat) (m : G α) : Prop :=
  ∀ s a s', n ≤ s.labels.length → m s = .ok (a, s') → Ext n s s'

theorem G.bind_ok {m : G α} {f : α → G β} {s : Gen} {b : β} {s'' : Gen} :
    (m >>= f) s = .ok (b, s'') ↔ ∃ a s', m s = .ok (a, s') ∧ f a s' = .ok (b, s'') := by
  show G.bind m f s = _ ↔ _
  unfold G.bind
  cases m s with
  | error e => simp
  | ok p =>
      obtain ⟨a, s'⟩ := p
      constructor
      · intro h; exact ⟨a, s', rfl, h⟩
      · rintro ⟨a', s1, h, h'⟩
        obtain ⟨rfl, rfl⟩ := Prod.mk.inj (Except.ok.inj h)
        exact h'

/-- Split a run of `m >>= f` in `h` into the run of `m`, with its result and state, and the rest. -/
macro "gbind " h:ident " with " a:ident s:ident e:ident : tactic =>
  `(tactic| (have hb := G.bind_ok.1 $h; clear $h; obtain ⟨$a:ident, $s:ident, $e:ident, $h:ident⟩ := hb))

theorem keeps_bind {n : Nat} {m : G α} {f : α → G β} (h : Keeps n m) (k : ∀ a, Keeps n (f a)) :
    Keeps n (m >>= f) := by
  intro s b s'' hn hr
  obtain ⟨a, s', h1, h2⟩ := G.bind_ok.1 hr
  have e := h s a s' hn h1
  exact e.trans (k a s' b s'' (Nat.le_trans hn e.count) h2)

theorem keeps_pure {n : Nat} (a : α) : Keeps n (G.pure a) := by
  intro s b s' _ h
  obtain ⟨rfl, rfl⟩ := Prod.mk.inj (Except.ok.inj h)
  exact Ext.refl n _

theorem keeps_raise {n : Nat} (e : PyErr) : Keeps n (G.raise e : G α) := by
  intro s b s' _ h
  exact absurd h (by simp [G.raise])

theorem keeps_get {n : Nat} : Keeps n G.get := by
  intro s b s' _ h
  obtain ⟨rfl, rfl⟩ := Prod.mk.inj (Except.ok.inj h)
  exact Ext.refl n _

theorem keeps_need {n : Nat} (o : Option α) (e : String) : Keeps n (G.need o e) := by
  cases o
  · exact keeps_raise _
  · exact keeps_pure _

/-- Changing only what `Ext` does not speak about. -/
theorem keeps_modify {n : Nat} {f : Gen → Gen}
    (h1 : ∀ s, (f s).ops = s.ops) (h2 : ∀ s, (f s).ip = s.ip) (h3 : ∀ s, (f s).consts = s.consts)
    (h4 : ∀ s, (f s).names = s.names) (h5 : ∀ s, s.variants <+: (f s).variants)
    (h6 : ∀ s, (f s).funcs = s.funcs) (h7 : ∀ s, s.registos <+: (f s).registos)
    (h8 : ∀ s, (f s).labels = s.labels) : Keeps n (G.modify f) := by
  intro s b s' _ h
  obtain ⟨-, rfl⟩ := Prod.mk.inj (Except.ok.inj h)
  exact { ops := by rw [h1]; exact List.prefix_rfl, ip := by rw [h1, h2]
          consts := by rw [h3]; exact List.prefix_rfl, names := by rw [h4]; exact List.prefix_rfl
          variants := h5 s, funcs := by rw [h6]; exact List.prefix_rfl, registos := h7 s, labels := by rw [h8]
          count := by rw [h8]; exact Nat.le_refl _
          aligned := fun x => ⟨by rw [h1, h2]; exact x.ip, by rw [h1, h8]; exact x.labels,
            by rw [h1, h6]; exact x.funcs⟩
          formed := by rw [h1]; exact id
          nodup := by rw [h3, h4]; exact id }

theorem keeps_emit {n : Nat} (op : Op) (args : List Nat) (hw : args.length = (vmOperands op).length) :
    Keeps n (emit op args) := by
  intro s b s' _ h
  obtain ⟨-, rfl⟩ := Prod.mk.inj (Except.ok.inj h)
  exact { ops := List.prefix_append _ _, ip := by simp; omega, consts := List.prefix_rfl
          names := List.prefix_rfl, variants := List.prefix_rfl, funcs := List.prefix_rfl
          registos := List.prefix_rfl, labels := rfl, count := Nat.le_refl _
          aligned := fun x => ⟨by simp [x.ip], fun a ha => (x.labels a ha).mono _,
            fun f hf => (x.funcs f hf).mono _⟩
          formed := fun x i hi => by
            rcases List.mem_append.1 hi with h | h
            · exact x i h
            · rw [List.mem_singleton.1 h]; exact hw
          nodup := id }

/-- A new label comes after the first `n`. -/
theorem keeps_newLabel {n : Nat} {f : Nat → G β} (k : ∀ l, n ≤ l → Keeps n (f l)) :
    Keeps n (newLabel >>= f) := by
  intro s b s'' hn hr
  obtain ⟨a, s', h1, h2⟩ := G.bind_ok.1 hr
  obtain ⟨rfl, rfl⟩ := Prod.mk.inj (Except.ok.inj h1)
  have e : Ext n s { s with labels := s.labels ++ [s.ip] } :=
    { ops := List.prefix_rfl, ip := rfl, consts := List.prefix_rfl
      names := List.prefix_rfl, variants := List.prefix_rfl, funcs := List.prefix_rfl
      registos := List.prefix_rfl, labels := (List.take_append_of_le_length hn).symm, count := by simp
      aligned := fun x => ⟨x.ip, fun a ha => by
        rcases List.mem_append.1 ha with h | h
        · exact x.labels a h
        · rw [List.mem_singleton.1 h, x.ip]; exact Boundary.full _, x.funcs⟩
      formed := id, nodup := id }
  exact e.trans (k _ hn _ b s'' (by simp; omega) h2)

theorem keeps_patch {n l : Nat} (hl : n ≤ l) : Keeps n (patchLabel l) := by
  intro s b s' hn h
  unfold patchLabel at h
  split at h
  · exact absurd h (by simp)
  · obtain ⟨-, rfl⟩ := Prod.mk.inj (Except.ok.inj h)
    exact { ops := List.prefix_rfl, ip := rfl, consts := List.prefix_rfl
            names := List.prefix_rfl, variants := List.prefix_rfl, funcs := List.prefix_rfl
            registos := List.prefix_rfl
            labels := by
              rw [List.take_set]
              refine (List.set_eq_of_length_le ?_).symm
              simp; omega
            count := by simp
            aligned := fun x => ⟨x.ip, fun a ha => by
              rcases List.mem_or_eq_of_mem_set ha with h | h
              · exact x.labels a h
              · rw [h]; show Boundary s.ops s.ip; rw [x.ip]; exact Boundary.full _, x.funcs⟩
            formed := id, nodup := id }

theorem tableIndex_prefix [DecidableEq α] (x : α) (tab : List α) : tab <+: (tableIndex x tab).2 := by
  unfold tableIndex
  split
  · exact List.prefix_rfl
  · exact List.prefix_append _ _

theorem indexIn_some [DecidableEq α] {x : α} {tab : List α} {i : Nat} (h : indexIn x tab = some i) :
    tab[i]? = some x := by
  induction tab generalizing i with
  | nil => cases h
  | cons y ys ih =>
      unfold indexIn at h
      split at h
      · cases h; simp [*]
      · cases hi : indexIn x ys with
        | none => rw [hi] at h; cases h
        | some j => rw [hi] at h; cases h; simpa using ih hi

theorem indexIn_none [DecidableEq α] {x : α} {tab : List α} (h : indexIn x tab = none) : x ∉ tab := by
  induction tab with
  | nil => simp
  | cons y ys ih =>
      unfold indexIn at h
      split at h
      · cases h
      · cases hi : indexIn x ys with
        | none => simp only [List.mem_cons, not_or]; exact ⟨fun e => ‹¬ y = x› e.symm, ih hi⟩
        | some j => rw [hi] at h; cases h

/-- The index given out selects the item in the table as it is then. -/
theorem tableIndex_get [DecidableEq α] (x : α) (tab : List α) :
    (tableIndex x tab).2[(tableIndex x tab).1]? = some x := by
  unfold tableIndex
  cases h : indexIn x tab with
  | none => simp
  | some i => exact indexIn_some h

/-- Tables never hold an item twice. -/
theorem tableIndex_nodup [DecidableEq α] (x : α) (tab : List α) (h : tab.Nodup) :
    (tableIndex x tab).2.Nodup := by
  unfold tableIndex
  cases hi : indexIn x tab with
  | none =>
      simp only [List.nodup_append, List.nodup_cons]
      refine ⟨h, ⟨by simp, by simp⟩, ?_⟩
      intro a ha b hb e
      rw [List.mem_singleton.1 hb] at e
      exact indexIn_none hi (e ▸ ha)
  | some i => exact h

theorem keeps_checkIndex {n : Nat} (i : Nat) : Keeps n (checkIndex i) := by
  unfold checkIndex
  split
  · exact keeps_pure _
  · exact keeps_raise _

theorem keeps_constIndex {n : Nat} (c : ConstKey) : Keeps n (constIndex c) := by
  refine keeps_bind ?_ fun i => keeps_checkIndex i
  intro s b s' _ h
  obtain ⟨-, rfl⟩ := Prod.mk.inj (Except.ok.inj h)
  exact { Ext.refl n s with
    consts := tableIndex_prefix _ _, nodup := fun x => ⟨tableIndex_nodup _ _ x.1, x.2⟩, aligned := fun x => ⟨x.ip, x.labels, x.funcs⟩ }

theorem keeps_nameIndex {n : Nat} (c : String) : Keeps n (nameIndex c) := by
  refine keeps_bind ?_ fun i => keeps_checkIndex i
  intro s b s' _ h
  obtain ⟨-, rfl⟩ := Prod.mk.inj (Except.ok.inj h)
  exact { Ext.refl n s with
    names := tableIndex_prefix _ _, nodup := fun x => ⟨x.1, tableIndex_nodup _ _ x.2⟩, aligned := fun x => ⟨x.ip, x.labels, x.funcs⟩ }

theorem keeps_declareLocal {n : Nat} (sym : SymRef) : Keeps n (declareLocal sym) := by
  intro s b s' _ h
  obtain ⟨-, rfl⟩ := Prod.mk.inj (Except.ok.inj h)
  exact { Ext.refl n s with aligned := fun x => ⟨x.ip, x.labels, x.funcs⟩ }

theorem keeps_ite {n : Nat} {c : Prop} [Decidable c] {a b : G α} (ha : Keeps n a) (hb : Keeps n b) :
    Keeps n (if c then a else b) := by
  split
  · exact ha
  · exact hb

theorem keeps_needBind {n : Nat} {o : Option α} {e : String} {f : α → G β}
    (k : ∀ a, o = some a → Keeps n (f a)) : Keeps n (G.need o e >>= f) := by
  cases o with
  | none => intro s b s' _ hr; cases hr
  | some a =>
      intro s b s' hn hr
      obtain ⟨a', s1, h1, h2⟩ := G.bind_ok.1 hr
      obtain ⟨rfl, rfl⟩ := Prod.mk.inj (Except.ok.inj h1)
      exact k _ rfl _ _ _ hn h2

theorem keeps_needBin {n : Nat} {op : TT} {e : String} {f : Op → G β}
    (k : ∀ o, ([] : List Nat).length = (vmOperands o).length → Keeps n (f o)) :
    Keeps n (G.need (binOpcode op) e >>= f) :=
  keeps_needBind fun o h => k o (by cases op <;> cases h <;> rfl)

theorem keeps_needUn {n : Nat} {op : TT} {e : String} {f : Op → G β}
    (k : ∀ o, ([] : List Nat).length = (vmOperands o).length → Keeps n (f o)) :
    Keeps n (G.need (unOpcode op) e >>= f) :=
  keeps_needBind fun o h => k o (by cases op <;> cases h <;> rfl)

/-- One step of a `Keeps` proof: decides by the shape of the program. -/
macro "keep1" : tactic => `(tactic| first
  | with_reducible assumption
  | with_reducible exact keeps_pure _
  | with_reducible exact keeps_raise _
  | with_reducible exact keeps_get
  | with_reducible exact keeps_need _ _
  | with_reducible exact keeps_emit _ _ rfl
  | (with_reducible refine keeps_emit _ _ ?_; assumption)
  | (with_reducible refine keeps_needBin fun o ho => ?_)
  | (with_reducible refine keeps_needUn fun o ho => ?_)
  | with_reducible exact keeps_constIndex _
  | with_reducible exact keeps_nameIndex _
  | with_reducible exact keeps_declareLocal _
  | (with_reducible refine keeps_patch ?_; first | assumption | omega)
  | (with_reducible refine keeps_newLabel fun l hl => ?_)
  | (with_reducible refine keeps_bind ?_ fun _ => ?_)
  | (with_reducible refine keeps_ite ?_ ?_))

theorem keeps_loadConst {n : Nat} (c : ConstKey) : Keeps n (loadConst c) := by
  unfold loadConst; repeat keep1

theorem keeps_loadName {n : Nat} (c : String) : Keeps n (loadName c) := by
  unfold loadName; repeat keep1

theorem keeps_symOf {n : Nat} (ctx : GenCtx) (id : Option SymId) : Keeps n (symOf ctx id) := by
  unfold symOf; repeat keep1

theorem keeps_loadVariable {n : Nat} (ctx : GenCtx) (sym : SymRef) : Keeps n (loadVariable ctx sym) := by
  unfold loadVariable; repeat keep1

theorem keeps_localSlot {n : Nat} (sym : SymRef) : Keeps n (localSlot sym) := by
  unfold localSlot
  keep1
  · keep1
  · split <;> keep1

theorem keeps_setVariable {n : Nat} (sym : SymRef) : Keeps n (setVariable sym) := by
  unfold setVariable
  repeat first | keep1 | exact keeps_localSlot _

theorem keeps_autoCast {n : Nat} (ctx : GenCtx) (t : Ty) : Keeps n (autoCast ctx t) := by
  unfold autoCast
  repeat first | keep1 | exact keeps_loadVariable _ _

theorem keeps_setLine {n : Nat} (line : Nat) : Keeps n (setLine line) :=
  keeps_modify (fun _ => rfl) (fun _ => rfl) (fun _ => rfl) (fun _ => rfl)
    (fun _ => List.prefix_rfl) (fun _ => rfl) (fun _ => List.prefix_rfl) (fun _ => rfl)

theorem keeps_enterBlock {n : Nat} (sc : ScopeId) : Keeps n (enterBlock sc) :=
  keeps_modify (fun _ => rfl) (fun _ => rfl) (fun _ => rfl) (fun _ => rfl)
    (fun _ => List.prefix_rfl) (fun _ => rfl) (fun _ => List.prefix_rfl) (fun _ => rfl)

theorem keeps_exitBlock {n : Nat} (ctx : GenCtx) : Keeps n (exitBlock ctx) :=
  keeps_modify (fun _ => rfl) (fun _ => rfl) (fun _ => rfl) (fun _ => rfl)
    (fun _ => List.prefix_rfl) (fun _ => rfl) (fun _ => List.prefix_rfl) (fun _ => rfl)

theorem keeps_setLoop {n : Nat} (a b : Option Nat) : Keeps n (setLoop a b) :=
  keeps_modify (fun _ => rfl) (fun _ => rfl) (fun _ => rfl) (fun _ => rfl)
    (fun _ => List.prefix_rfl) (fun _ => rfl) (fun _ => List.prefix_rfl) (fun _ => rfl)

theorem keeps_variantIndex {n : Nat} (v : VariantRef) : Keeps n (variantIndex v) :=
  keeps_modify (fun _ => rfl) (fun _ => rfl) (fun _ => rfl) (fun _ => rfl)
    (fun _ => tableIndex_prefix _ _) (fun _ => rfl) (fun _ => List.prefix_rfl) (fun _ => rfl)

theorem keeps_variantTag {n : Nat} (v : VariantRef) : Keeps n (variantTag v) := by
  unfold variantTag; repeat keep1

theorem keeps_genPath {n : Nat} (v : Option VariantRef) : Keeps n (genPath v) := by
  unfold genPath
  repeat first | keep1 | exact keeps_loadConst _ | exact keeps_variantTag _

theorem keeps_genTest {n : Nat} (ctx : GenCtx) (v : SymId) (c : ConsRef) : Keeps n (genTest ctx v c) := by
  unfold genTest
  cases c <;>
    repeat first | keep1 | exact keeps_loadConst _ | exact keeps_variantTag _ |
      exact keeps_symOf _ _ | exact keeps_loadVariable _ _

theorem keeps_genMatchArgs {n : Nat} (ctx : GenCtx) (as : List SymId) : Keeps n (genMatchArgs ctx as) := by
  induction as with
  | nil => exact keeps_pure _
  | cons a as ih =>
      unfold genMatchArgs
      repeat first | keep1 | exact keeps_loadConst _ | exact keeps_symOf _ _

theorem keeps_genCaseBindings {n : Nat} (ctx : GenCtx) (v : SymId) (c : ConsRef) (as : List SymId) :
    Keeps n (genCaseBindings ctx v c as) := by
  unfold genCaseBindings
  cases c <;>
    repeat first | keep1 | exact keeps_genMatchArgs _ _ |
      exact keeps_symOf _ _ | exact keeps_loadVariable _ _

theorem keeps_genArmBindings {n : Nat} (ctx : GenCtx) (sc : ScopeId) (bs : List (String × SymId)) :
    Keeps n (genArmBindings ctx sc bs) := by
  induction bs with
  | nil => exact keeps_pure _
  | cons b bs ih =>
      unfold genArmBindings
      repeat first | keep1 | exact keeps_loadVariable _ _ | exact keeps_setVariable _ |
        exact keeps_symOf _ _

theorem keeps_genCallOp {n : Nat} (ctx : GenCtx) (sym : Sym) (k : Nat) (t : Ty) :
    Keeps n (genCallOp ctx sym k t) := by
  unfold genCallOp
  split <;> repeat first | keep1 | exact keeps_autoCast _ _

theorem keeps_genLoopCtl {n : Nat} (b : Bool) : Keeps n (genLoopCtl b) := by
  unfold genLoopCtl; repeat keep1

/-- Recording a function whose start is a label. -/
theorem keeps_endFunc {n : Nat} (ctx : GenCtx) (sym : Sym) (e st : Nat) (prev : List (String × Nat))
    (he : n ≤ e) : Keeps n (endFunc ctx sym e st prev) := by
  unfold endFunc
  refine keeps_bind (keeps_loadConst _) fun _ => ?_
  refine keeps_bind (keeps_emit _ _ rfl) fun _ => ?_
  refine keeps_bind keeps_get fun _ => ?_
  refine keeps_bind (keeps_modify (fun _ => rfl) (fun _ => rfl) (fun _ => rfl) (fun _ => rfl)
    (fun _ => List.prefix_rfl) (fun _ => rfl) (fun _ => List.prefix_rfl) (fun _ => rfl)) fun _ => ?_
  refine keeps_bind (keeps_patch he) fun _ => ?_
  intro s b s' hn h
  obtain ⟨s1, s2, h1, h⟩ := G.bind_ok.1 h
  obtain ⟨rfl, rfl⟩ := Prod.mk.inj (Except.ok.inj h1)
  obtain ⟨start, s3, h1, h⟩ := G.bind_ok.1 h
  cases hl : s.labels[st]? with
  | none => rw [hl] at h1; exact absurd h1 (by simp [G.need, G.raise])
  | some a =>
      rw [hl] at h1
      obtain ⟨rfl, rfl⟩ := Prod.mk.inj (Except.ok.inj h1)
      obtain ⟨-, rfl⟩ := Prod.mk.inj (Except.ok.inj h)
      exact { Ext.refl n s with
        funcs := List.prefix_append _ _
        aligned := fun x => ⟨x.ip, x.labels, fun f hf => by
          rcases List.mem_append.1 hf with h | h
          · exact x.funcs f h
          · rw [List.mem_singleton.1 h]
            exact x.labels _ (List.mem_of_getElem? hl)⟩ }

theorem keeps_genRegisto {n : Nat} (ctx : GenCtx) (name : String) (fields : List String) :
    Keeps n (genRegisto ctx name fields) := by
  unfold genRegisto
  refine keeps_bind (keeps_nameIndex _) fun _ => ?_
  refine keeps_bind keeps_get fun _ => ?_
  refine keeps_bind (keeps_modify (fun _ => rfl) (fun _ => rfl) (fun _ => rfl) (fun _ => rfl)
    (fun _ => List.prefix_rfl) (fun _ => rfl) (fun _ => List.prefix_append _ _) (fun _ => rfl)) fun _ => ?_
  repeat first | keep1 | exact keeps_setVariable _ | exact keeps_symOf _ _

theorem keeps_genVariants {n : Nat} (vs : List VariantRef) : Keeps n (genVariants vs) := by
  induction vs with
  | nil => exact keeps_pure _
  | cons v vs ih =>
      unfold genVariants
      exact keeps_bind (keeps_variantIndex _) fun _ => ih

theorem keeps_startLocals {n : Nat} (ctx : GenCtx) (ps : List SymId) : Keeps n (startLocals ctx ps) := by
  intro s b s' _ h
  unfold startLocals at h
  cases hp : paramLocals ctx ps [] with
  | error e => simp [hp, Except.map] at h
  | ok l =>
      simp only [hp, Except.map, Except.ok.injEq, Prod.mk.injEq] at h
      rw [← h.2]
      exact { Ext.refl n s with aligned := fun x => ⟨x.ip, x.labels, x.funcs⟩ }

/-- `keep1` with the lemmas about the functions of codegen.py. -/
macro "keep" : tactic => `(tactic| first
  | keep1
  | with_reducible exact keeps_setLine _
  | with_reducible exact keeps_loadConst _
  | with_reducible exact keeps_loadName _
  | with_reducible exact keeps_autoCast _ _
  | with_reducible exact keeps_symOf _ _
  | with_reducible exact keeps_loadVariable _ _
  | with_reducible exact keeps_setVariable _
  | with_reducible exact keeps_enterBlock _
  | with_reducible exact keeps_exitBlock _
  | with_reducible exact keeps_setLoop _ _
  | with_reducible exact keeps_genPath _
  | with_reducible exact keeps_genTest _ _ _
  | with_reducible exact keeps_genCaseBindings _ _ _ _
  | with_reducible exact keeps_genArmBindings _ _ _
  | with_reducible exact keeps_genCallOp _ _ _ _
  | with_reducible exact keeps_genLoopCtl _
  | with_reducible exact keeps_genRegisto _ _ _
  | with_reducible exact keeps_genVariants _
  | with_reducible exact keeps_startLocals _ _
  | (with_reducible refine keeps_endFunc _ _ _ _ _ ?_; assumption))

theorem keeps_genConstant {n : Nat} (ctx : GenCtx) (l : String) (p : Ty)  :
    Keeps n (genConstant ctx l p) := by
  unfold genConstant
  repeat keep

theorem keeps_genFmtStr {n : Nat} {a : G Unit} (k : Nat) (ha : Keeps n a) :
    Keeps n (genFmtStr a k) := by
  unfold genFmtStr
  repeat keep

theorem keeps_genVariable {n : Nat} (ctx : GenCtx) (nm : String) (sy : Option SymId) (p : Ty)  :
    Keeps n (genVariable ctx nm sy p) := by
  unfold genVariable
  repeat keep

theorem keeps_genConverta {n : Nat} (ctx : GenCtx) {a : G Unit} (f t : Ty) (ha : Keeps n a) :
    Keeps n (genConverta ctx a f t) := by
  unfold genConverta
  repeat keep

theorem keeps_genAlvo {n : Nat} (ctx : GenCtx) (sy : SymId)  :
    Keeps n (genAlvo ctx sy) := by
  unfold genAlvo
  repeat keep

theorem keeps_genNullTest {n : Nat} {a : G Unit} (b : Bool) (ha : Keeps n a) :
    Keeps n (genNullTest a b) := by
  unfold genNullTest
  repeat keep

theorem keeps_genOperator {n : Nat} (ctx : GenCtx) (op : TT) {a b : G Unit} (p : Ty) (ha : Keeps n a) (hb : Keeps n b) :
    Keeps n (genOperator ctx op a b p) := by
  unfold genOperator
  repeat keep

theorem keeps_genBinop {n : Nat} (ctx : GenCtx) (op : TT) {a b : G Unit} (lt rt p : Ty) (ha : Keeps n a) (hb : Keeps n b) :
    Keeps n (genBinop ctx op a b lt rt p) := by
  unfold genBinop
  split
  · exact keeps_genNullTest _ ha
  · exact keeps_genNullTest _ hb
  · exact keeps_genOperator _ _ _ ha hb

theorem keeps_genUnaryop {n : Nat} (ctx : GenCtx) (op : TT) {a : G Unit} (p : Ty) (ha : Keeps n a) :
    Keeps n (genUnaryop ctx op a p) := by
  unfold genUnaryop
  repeat keep

theorem keeps_genChain {n : Nat} (ctx : GenCtx) (c : Option SymId)  :
    Keeps n (genChain ctx c) := by
  unfold genChain
  cases c <;> repeat keep

theorem keeps_genAssign {n : Nat} (ctx : GenCtx) {a : G Unit} (c : Option SymId) (sy : SymId) (ha : Keeps n a) :
    Keeps n (genAssign ctx a c sy) := by
  unfold genAssign
  repeat first | keep | exact keeps_genChain _ _

theorem keeps_genCall {n : Nat} (ctx : GenCtx) {a b : G Unit} (k : Nat) (sy : SymId) (p : Ty) (ha : Keeps n a) (hb : Keeps n b) :
    Keeps n (genCall ctx a b k sy p) := by
  unfold genCall
  repeat keep

theorem keeps_genList {n : Nat} {a : G Unit} (k : Nat) (ha : Keeps n a) :
    Keeps n (genList a k) := by
  unfold genList
  repeat keep

theorem keeps_genNamed {n : Nat} (nm : String) {a : G Unit} (ha : Keeps n a) :
    Keeps n (genNamed nm a) := by
  unfold genNamed
  repeat keep

theorem keeps_genGet {n : Nat} {a : G Unit} (nm : String) (b : Bool) (ha : Keeps n a) :
    Keeps n (genGet a nm b) := by
  unfold genGet
  repeat keep

theorem keeps_genIndexGet {n : Nat} {a b : G Unit} (ha : Keeps n a) (hb : Keeps n b) :
    Keeps n (genIndexGet a b) := by
  unfold genIndexGet
  repeat keep

theorem keeps_genIndexSet {n : Nat} {a b c : G Unit} (ha : Keeps n a) (hb : Keeps n b) (hc : Keeps n c) :
    Keeps n (genIndexSet a b c) := by
  unfold genIndexSet
  repeat keep

theorem keeps_genSet {n : Nat} {a b : G Unit} (ha : Keeps n a) (hb : Keeps n b) :
    Keeps n (genSet a b) := by
  unfold genSet
  repeat keep

theorem keeps_genScoped {n : Nat} (ctx : GenCtx) (sc : ScopeId) {a : G Unit} (ha : Keeps n a) :
    Keeps n (genScoped ctx sc a) := by
  unfold genScoped
  repeat keep

theorem keeps_genSuccess {n : Nat} (ctx : GenCtx) (bs : List (String × SymId)) (l : Nat) (sc : ScopeId) {a : G Unit} (ha : Keeps n a) :
    Keeps n (genSuccess ctx bs l sc a) := by
  unfold genSuccess
  repeat first | keep | exact keeps_genScoped _ _ ha

theorem keeps_genDeclare {n : Nat} (ctx : GenCtx) (nm : String) (t : Ty)  :
    Keeps n (genDeclare ctx nm t) := by
  unfold genDeclare
  repeat keep

theorem keeps_genMostra {n : Nat} {a : G Unit} (ha : Keeps n a) :
    Keeps n (genMostra a) := by
  unfold genMostra
  repeat keep

theorem keeps_genParaStep {n : Nat} (ctx : GenCtx) (sy : SymRef) {a : G Unit} (ha : Keeps n a) :
    Keeps n (genParaStep ctx sy a) := by
  unfold genParaStep
  repeat keep

theorem keeps_genParaTest {n : Nat} (ctx : GenCtx) (sy : SymRef) {a : G Unit} (l : Nat) (ha : Keeps n a) :
    Keeps n (genParaTest ctx sy a l) := by
  unfold genParaTest
  repeat keep

theorem keeps_genFuncBody {n : Nat} (ctx : GenCtx) (b : Bool) (sc : ScopeId) {a : G Unit} (ha : Keeps n a) :
    Keeps n (genFuncBody ctx b sc a) := by
  unfold genFuncBody
  repeat first | keep | exact keeps_genScoped _ _ ha

theorem keeps_genUniao {n : Nat} (nm : String) (vs : List VariantRef)  :
    Keeps n (genUniao nm vs) := by
  unfold genUniao
  repeat keep

theorem keeps_atLine {n : Nat} (l : Nat) {a : G Unit} (ha : Keeps n a) :
    Keeps n (atLine l a) := by
  unfold atLine
  repeat keep

theorem keeps_genUnwrap {n : Nat} {a : G Unit} {d : Option (G Unit)} (ha : Keeps n a)
    (hd : ∀ m ∈ d, Keeps n m) : Keeps n (genUnwrap a d) := by
  cases d with
  | none => unfold genUnwrap; repeat keep
  | some m => have := hd m rfl; unfold genUnwrap; repeat keep

theorem keeps_genRetorna {n : Nat} {d : Option (G Unit)} (hd : ∀ m ∈ d, Keeps n m) :
    Keeps n (genRetorna d) := by
  cases d with
  | none => unfold genRetorna; repeat keep
  | some m => have := hd m rfl; unfold genRetorna; repeat keep

theorem keeps_genInc {n : Nat} {d : Option (G Unit)} (hd : ∀ m ∈ d, Keeps n m) :
    Keeps n (genInc d) := by
  cases d with
  | none => unfold genInc; repeat keep
  | some m => exact hd m rfl

theorem keeps_genCaseCode {n : Nat} (ctx : GenCtx) (v : SymId) (c : ConsRef) (as : List SymId)
    {a : G Unit} (i l : Nat) (ha : Keeps n a) (hl : n ≤ l) : Keeps n (genCaseCode ctx v c as a i l) := by
  unfold genCaseCode; repeat keep

theorem keeps_genSwitch {n : Nat} {f : Nat → Nat → G Unit} {g : Nat → G Unit}
    (hf : ∀ a b, n ≤ b → Keeps n (f a b)) (hg : ∀ a, Keeps n (g a)) : Keeps n (genSwitch f g) := by
  unfold genSwitch
  refine keeps_newLabel fun l1 h1 => keeps_newLabel fun l2 h2 => ?_
  exact keeps_bind (hf _ _ h2) fun _ => keeps_bind (hg _) fun _ => keeps_patch h1

theorem keeps_genBranch {n : Nat} {a b : G Unit} (i l : Nat) (ha : Keeps n a) (hb : Keeps n b)
    (hl : n ≤ l) : Keeps n (genBranch a b i l) := by
  unfold genBranch; repeat keep

theorem keeps_genElsif {n : Nat} {a b c : G Unit} (i : Nat) (ha : Keeps n a) (hb : Keeps n b)
    (hc : Keeps n c) : Keeps n (genElsif a b i c) := by
  unfold genElsif
  refine keeps_newLabel fun l hl => keeps_bind (keeps_genBranch _ _ ha hb hl) fun _ => hc

theorem keeps_genSe {n : Nat} {a b c : G Unit} {f : Nat → G Unit} (ha : Keeps n a) (hb : Keeps n b)
    (hf : ∀ l, Keeps n (f l)) (hc : Keeps n c) : Keeps n (genSe a b f c) := by
  unfold genSe
  refine keeps_newLabel fun l1 h1 => keeps_newLabel fun l2 h2 => ?_
  exact keeps_bind (keeps_genBranch _ _ ha hb h2) fun _ => keeps_bind (hf _) fun _ =>
    keeps_bind hc fun _ => keeps_patch h1

theorem keeps_genLoopBody {n : Nat} (ctx : GenCtx) (sc : ScopeId) {a b : G Unit} (x l : Nat)
    (ha : Keeps n a) (hb : Keeps n b) (hx : n ≤ x) (hl : n ≤ l) :
    Keeps n (genLoopBody ctx sc a b x l) := by
  unfold genLoopBody; repeat keep

theorem keeps_genEnquanto {n : Nat} (ctx : GenCtx) (sc : ScopeId) {a b : G Unit}
    (ha : Keeps n a) (hb : Keeps n b) : Keeps n (genEnquanto ctx sc a b) := by
  unfold genEnquanto
  refine keeps_newLabel fun l1 h1 => keeps_bind keeps_get fun _ => keeps_newLabel fun l2 h2 => ?_
  exact keeps_bind (keeps_setLoop _ _) fun _ =>
    keeps_bind (keeps_genLoopBody _ _ _ _ ha hb h1 h2) fun _ => keeps_setLoop _ _

theorem keeps_genPara {n : Nat} (ctx : GenCtx) (nm : String) (sc : ScopeId) {a b c d : G Unit}
    (ha : Keeps n a) (hb : Keeps n b) (hc : Keeps n c) (hd : Keeps n d) :
    Keeps n (genPara ctx nm sc a b c d) := by
  unfold genPara
  have h1 := fun sy l => keeps_genParaTest (n := n) ctx sy l hb
  have h2 := fun sy => keeps_genParaStep (n := n) ctx sy hc
  repeat first | keep | with_reducible exact h1 _ _ | with_reducible exact h2 _

theorem keeps_genFunc {n : Nat} (ctx : GenCtx) (sy : SymId) (sc : ScopeId) {a : G Unit}
    (ha : Keeps n a) : Keeps n (genFunc ctx sy sc a) := by
  unfold genFunc
  have h1 := fun b => keeps_genFuncBody (n := n) ctx b sc ha
  repeat first | keep | with_reducible exact h1 _

mutual
theorem keeps_genExpr (ctx : GenCtx) (n : Nat) : ∀ e : TExpr, Keeps n (genExpr ctx e)
  | .const _ _ _ => keeps_atLine _ (keeps_genConstant _ _ _)
  | .fmtStr _ parts => keeps_atLine _ (keeps_genFmtStr _ (keeps_genExprs ctx n parts))
  | .var _ _ _ _ => keeps_atLine _ (keeps_genVariable _ _ _ _)
  | .converta _ t _ _ => keeps_atLine _ (keeps_genConverta _ _ _ (keeps_genExpr ctx n t))
  | .alvo _ _ => keeps_atLine _ (keeps_genAlvo _ _)
  | .bin _ _ l r _ _ _ =>
      keeps_atLine _ (keeps_genBinop _ _ _ _ _ (keeps_genExpr ctx n l) (keeps_genExpr ctx n r))
  | .un _ _ e _ => keeps_atLine _ (keeps_genUnaryop _ _ _ (keeps_genExpr ctx n e))
  | .assign _ _ r => keeps_atLine _ (keeps_genAssign _ _ _ (keeps_genExpr ctx n r))
  | .iguala _ d => keeps_atLine _ (keeps_genDecision ctx n d)
  | .call _ c args _ _ =>
      keeps_atLine _ (keeps_genCall _ _ _ _ (keeps_genExpr ctx n c) (keeps_genExprs ctx n args))
  | .list _ es => keeps_atLine _ (keeps_genList _ (keeps_genExprs ctx n es))
  | .named _ _ e => keeps_atLine _ (keeps_genNamed _ (keeps_genExpr ctx n e))
  | .get _ t _ _ => keeps_atLine _ (keeps_genGet _ _ (keeps_genExpr ctx n t))
  | .index _ t i => keeps_atLine _ (keeps_genIndexGet (keeps_genExpr ctx n t) (keeps_genExpr ctx n i))
  | .indexSet _ t i v =>
      keeps_atLine _ (keeps_genIndexSet (keeps_genExpr ctx n t) (keeps_genExpr ctx n i)
        (keeps_genExpr ctx n v))
  | .set _ t e => keeps_atLine _ (keeps_genSet (keeps_genExpr ctx n t) (keeps_genExpr ctx n e))
  | .unwrap _ o d => keeps_atLine _ (keeps_genUnwrap (keeps_genExpr ctx n o) (keeps_genOpt ctx n d))
  | .path _ _ => keeps_atLine _ (keeps_genPath _)
theorem keeps_genOpt (ctx : GenCtx) (n : Nat) : ∀ (e : Option TExpr), ∀ m ∈ genOpt ctx e, Keeps n m
  | none, _, h => nomatch h
  | some e, _, h => Option.some.inj h ▸ keeps_genExpr ctx n e
theorem keeps_genExprs (ctx : GenCtx) (n : Nat) : ∀ es : List TExpr, Keeps n (genExprs ctx es)
  | [] => keeps_pure _
  | e :: es => keeps_bind (keeps_genExpr ctx n e) fun _ => keeps_genExprs ctx n es
theorem keeps_genDecision (ctx : GenCtx) (n : Nat) : ∀ d : Decision, Keeps n (genDecision ctx d)
  | .success _ _ _ body => keeps_genSuccess _ _ _ _ (keeps_genStmts ctx n body)
  | .switch v (c :: cs) _ =>
      keeps_genSwitch (fun a b h => keeps_genCase ctx n v c a b h) (fun a => keeps_genCases ctx n v a cs)
  | .switch _ [] _ => keeps_raise _
  | .fail => keeps_raise _
theorem keeps_genCase (ctx : GenCtx) (n : Nat) (v : SymId) : ∀ (c : DCase) (a b : Nat), n ≤ b →
    Keeps n (genCase ctx v c a b)
  | .mk _ _ body, _, _, hb => keeps_genCaseCode _ _ _ _ _ _ (keeps_genDecision ctx n body) hb
theorem keeps_genCases (ctx : GenCtx) (n : Nat) (v : SymId) (a : Nat) : ∀ cs : List DCase,
    Keeps n (genCases ctx v a cs)
  | [] => keeps_pure _
  | c :: cs => keeps_newLabel fun l hl =>
      keeps_bind (keeps_genCase ctx n v c a l hl) fun _ => keeps_genCases ctx n v a cs
theorem keeps_genStmt (ctx : GenCtx) (n : Nat) : ∀ st : TStmt, Keeps n (genStmt ctx st)
  | .expr e => keeps_genExpr ctx n e
  | .varDecl _ _ _ (some (.mk _ r)) => keeps_atLine _ (keeps_genAssign _ _ _ (keeps_genExpr ctx n r))
  | .varDecl _ _ _ none => keeps_atLine _ (keeps_genDeclare _ _ _)
  | .loopCtl _ _ => keeps_atLine _ (keeps_genLoopCtl _)
  | .retorna _ e => keeps_atLine _ (keeps_genRetorna (keeps_genOpt ctx n e))
  | .produz _ e => keeps_atLine _ (keeps_genExpr ctx n e)
  | .mostra _ e => keeps_atLine _ (keeps_genMostra (keeps_genExpr ctx n e))
  | .se _ c t es b =>
      keeps_atLine _ (keeps_genSe (keeps_genExpr ctx n c) (keeps_genBlock ctx n t)
        (fun l => keeps_genElses ctx n l es) (keeps_genOptBlock ctx n b))
  | .enquanto _ c (.mk _ body) =>
      keeps_atLine _ (keeps_genEnquanto _ _ (keeps_genExpr ctx n c) (keeps_genStmts ctx n body))
  | .para _ _ a b c (.mk _ body) =>
      keeps_atLine _ (keeps_genPara _ _ _ (keeps_genExpr ctx n a) (keeps_genExpr ctx n b)
        (keeps_genInc (keeps_genOpt ctx n c)) (keeps_genStmts ctx n body))
  | .func _ _ (.mk _ body) => keeps_atLine _ (keeps_genFunc _ _ _ (keeps_genStmts ctx n body))
  | .registo _ _ _ => keeps_atLine _ (keeps_genRegisto _ _ _)
  | .uniao _ _ _ => keeps_atLine _ (keeps_genUniao _ _)
  | .noop _ => keeps_setLine _
theorem keeps_genStmts (ctx : GenCtx) (n : Nat) : ∀ ss : List TStmt, Keeps n (genStmts ctx ss)
  | [] => keeps_pure _
  | s :: ss => keeps_bind (keeps_genStmt ctx n s) fun _ => keeps_genStmts ctx n ss
theorem keeps_genBlock (ctx : GenCtx) (n : Nat) : ∀ b : TBlock, Keeps n (genBlock ctx b)
  | .mk _ body => keeps_genScoped _ _ (keeps_genStmts ctx n body)
theorem keeps_genOptBlock (ctx : GenCtx) (n : Nat) : ∀ b : Option TBlock, Keeps n (genOptBlock ctx b)
  | none => keeps_pure _
  | some b => keeps_genBlock ctx n b
theorem keeps_genElses (ctx : GenCtx) (n a : Nat) : ∀ es : List TElse, Keeps n (genElses ctx a es)
  | [] => keeps_pure _
  | .mk c b :: es =>
      keeps_genElsif _ (keeps_genExpr ctx n c) (keeps_genBlock ctx n b) (keeps_genElses ctx n a es)
end

/-! ## What single steps do -/

theorem pure_ok {a b : α} {s s' : Gen} (h : G.pure a s = .ok (b, s')) : b = a ∧ s' = s := by
  obtain ⟨h1, h2⟩ := Prod.mk.inj (Except.ok.inj h)
  exact ⟨h1.symm, h2.symm⟩

theorem get_ok {a s s' : Gen} (h : G.get s = .ok (a, s')) : a = s ∧ s' = s := by
  obtain ⟨h1, h2⟩ := Prod.mk.inj (Except.ok.inj h)
  exact ⟨h1.symm, h2.symm⟩

theorem modify_ok {f : Gen → Gen} {u : Unit} {s s' : Gen} (h : G.modify f s = .ok (u, s')) :
    s' = f s := by
  obtain ⟨-, h2⟩ := Prod.mk.inj (Except.ok.inj h)
  exact h2.symm

theorem need_ok {o : Option α} {e : String} {a : α} {s s' : Gen} (h : G.need o e s = .ok (a, s')) :
    o = some a ∧ s' = s := by
  cases o with
  | none => cases h
  | some b =>
      obtain ⟨h1, h2⟩ := Prod.mk.inj (Except.ok.inj h)
      exact ⟨by rw [h1], h2.symm⟩

theorem symOf_ok {ctx : GenCtx} {id : Option SymId} {v : Sym} {s s' : Gen}
    (h : symOf ctx id s = .ok (v, s')) : (id.bind fun i => ctx.env.syms[i]?) = some v ∧ s' = s :=
  need_ok h

theorem emit_ok {op : Op} {args : List Nat} {u : Unit} {s s' : Gen} (h : emit op args s = .ok (u, s')) :
    s' = { s with
      srcMap := noteLine s.line s.ip s.srcMap
      ip := s.ip + op.size
      ops := s.ops ++ [⟨op, args⟩]
      emitted := s.emitted ++ [(s.line, s.ip)] } := by
  obtain ⟨-, h2⟩ := Prod.mk.inj (Except.ok.inj h)
  exact h2.symm

theorem newLabel_ok {l : Nat} {s s' : Gen} (h : newLabel s = .ok (l, s')) :
    l = s.labels.length ∧ s' = { s with labels := s.labels ++ [s.ip] } := by
  obtain ⟨h1, h2⟩ := Prod.mk.inj (Except.ok.inj h)
  exact ⟨h1.symm, h2.symm⟩

theorem patchLabel_ok {l : Nat} {u : Unit} {s s' : Gen} (h : patchLabel l s = .ok (u, s')) :
    s' = { s with labels := s.labels.set l s.ip } := by
  unfold patchLabel at h
  split at h
  · cases h
  · obtain ⟨-, h2⟩ := Prod.mk.inj (Except.ok.inj h)
    exact h2.symm

theorem checkIndex_ok {i j : Nat} {s s' : Gen} (h : checkIndex i s = .ok (j, s')) :
    j = i ∧ s' = s ∧ i < 65535 := by
  unfold checkIndex at h
  split at h
  · obtain ⟨h1, h2⟩ := pure_ok h
    exact ⟨h1, h2, by omega⟩
  · cases h

theorem constIndex_ok {c : ConstKey} {i : Nat} {s s' : Gen} (h : constIndex c s = .ok (i, s')) :
    i = (tableIndex c s.consts).1 ∧ s' = { s with consts := (tableIndex c s.consts).2 } ∧ i < 65535 := by
  obtain ⟨j, s1, h1, h2⟩ := G.bind_ok.1 h
  obtain ⟨rfl, rfl⟩ := Prod.mk.inj (Except.ok.inj h1)
  obtain ⟨rfl, rfl, h3⟩ := checkIndex_ok h2
  exact ⟨rfl, rfl, h3⟩

theorem nameIndex_ok {c : String} {i : Nat} {s s' : Gen} (h : nameIndex c s = .ok (i, s')) :
    i = (tableIndex c s.names).1 ∧ s' = { s with names := (tableIndex c s.names).2 } ∧ i < 65535 := by
  obtain ⟨j, s1, h1, h2⟩ := G.bind_ok.1 h
  obtain ⟨rfl, rfl⟩ := Prod.mk.inj (Except.ok.inj h1)
  obtain ⟨rfl, rfl, h3⟩ := checkIndex_ok h2
  exact ⟨rfl, rfl, h3⟩

/-- An item keeps its place when a table grows. -/
theorem prefix_get {tab tab' : List α} (h : tab <+: tab') {i : Nat} {x : α} (hx : tab[i]? = some x) :
    tab'[i]? = some x := by
  obtain ⟨t, rfl⟩ := h
  rw [List.getElem?_append_left]
  · exact hx
  · exact (List.getElem?_eq_some_iff.1 hx).1

end Codegen

end Amanda

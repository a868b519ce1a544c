import Verif.ExecOps

/-!
# What small pieces of generated code do

Pieces without parts of their own: conversions, variants, tests and bindings of patterns.
-/

namespace Amanda

namespace Compiled

open Source Codegen

variable {F : Type} [FloatOps F]

/-- Pieces of the generator that only touch their own labels and leave the scope as it was. -/
structure Nice (sc : Option ScopeId) (g : G α) : Prop where
  keeps : ∀ n, Keeps n g
  fr : Fr sc g

theorem Nice.good {b : Nat} {sc : Option ScopeId} {g : G α} (h : Nice sc g) : Good b sc g :=
  good_of h.keeps h.fr

theorem good_emit {b : Nat} {sc : Option ScopeId} (op : Op) (args : List Nat) : Good b sc (emit op args) := by
  intro s u s' _ hs hr
  have f := fr_emit op args s u s' hr hs
  have e := emit_ok hr
  refine ⟨⟨?_, ?_, ?_, ?_, ?_, ?_, ?_, ?_, f.locals⟩, f.scope, f.start, f.exit⟩
  all_goals subst e
  · exact List.prefix_append _ _
  · simp [codeSize, Nat.add_assoc, Nat.add_comm]
  · exact List.prefix_rfl
  · exact List.prefix_rfl
  · exact List.prefix_rfl
  · exact List.prefix_rfl
  · exact Nat.le_refl _
  · intro _ _ _; rfl

theorem good_newLabel {b : Nat} {sc : Option ScopeId} : Good b sc newLabel := by
  intro s u s' _ hs hr
  have f := fr_newLabel s u s' hr hs
  have e := (newLabel_ok hr).2
  refine ⟨⟨?_, ?_, ?_, ?_, ?_, ?_, ?_, ?_, f.locals⟩, f.scope, f.start, f.exit⟩
  all_goals subst e
  · exact List.prefix_rfl
  · rfl
  · exact List.prefix_rfl
  · exact List.prefix_rfl
  · exact List.prefix_rfl
  · exact List.prefix_rfl
  · simp
  · intro l _ hl
    exact List.getElem?_append_left hl

theorem good_ite {b : Nat} {sc : Option ScopeId} {c : Prop} [Decidable c] {x y : G α} (hx : Good b sc x)
    (hy : Good b sc y) : Good b sc (if c then x else y) := by
  split
  · exact hx
  · exact hy

macro "good1" : tactic => `(tactic| first
  | with_reducible exact Nice.good (by assumption)
  | with_reducible assumption
  | with_reducible exact good_emit _ _
  | with_reducible exact good_newLabel
  | (with_reducible refine good_patch ?_; omega)
  | (with_reducible refine good_bind ?_ (fun _ => ?_))
  | (with_reducible refine good_ite ?_ ?_)
  | exact good_of (fun _ => by keep) (by fr))

/-- Proves that a piece of the generator only touches its own labels. -/
macro "good" : tactic => `(tactic| repeat good1)

section
variable {K : Link F} {a : Act F} {W : Wf} {lp : Loop} {s s' : Gen} {m : Mode} {vm vm' : VM F}
  {st : St F} {k : List (Val F)} {ip : Nat}

/-- `Code.split` with no labels to patch. -/
theorem Code.cut {g : G α} {f : α → G β} {r : β} (C : Code K a W lp s s')
    (h : (g >>= f) s = .ok (r, s')) (hm : Good 0 W.scope g) (hf : ∀ x, Good 0 W.scope (f x)) :
    ∃ x t, g s = .ok (x, t) ∧ f x t = .ok (r, s') ∧ Code K a W lp s t ∧ Code K a W lp t s' := by
  obtain ⟨x, t, h1, h2, c1, c2, -, -⟩ := C.split (Nat.zero_le _) hm hf h
  exact ⟨x, t, h1, h2, c1, c2⟩

/-- The type objects. -/
theorem sim_loadType {t : VTy} {sym : SymRef} {u : Unit} (ht : t ≠ .vector) (C : Code K a W lp s s')
    (h : loadVariable a.cm.ctx sym s = .ok (u, s')) (hg : sym.isGlobal = true)
    (hn : sym.name = t.name) (hp : sym.modPath = K.L.builtinPath) (H : Here K a st vm s.ip k) :
    ∃ vm', Runs K vm vm' ∧ Here K a st vm' s'.ip (k ++ [.type t]) := by
  obtain ⟨r, hr, hv⟩ := H.globals.types t ht
  exact sim_loadGlobal C h hg (by rw [hp]; exact hr) (by rw [hn]; exact hv) H

/-- `gen_auto_cast` and `promote`. -/
theorem sim_autoCast {prom : Ty} {u : Unit} {v : Val F} (C : Code K a W lp s s')
    (h : autoCast a.cm.ctx prom s = .ok (u, s')) (H : Here K a st vm s.ip (k ++ [v])) :
    Sim K a m lp vm k (Pushed K a s'.ip) (promote prom v st) := by
  unfold autoCast at h
  unfold promote
  by_cases hp : prom = .real
  · rw [if_pos hp] at h ⊢
    obtain ⟨x, t, h1, h2, c1, c2⟩ := C.cut h (by good) (fun _ => by good)
    obtain ⟨vm1, r1, H1⟩ := sim_loadType (t := .real) (by decide) c1 h1 rfl (by rw [hp]; rfl)
      (by rw [hp]; exact C.act.mod.bpath) H
    obtain ⟨hi, hip⟩ := c2.ins h2
    rw [hip]
    exact Sim.runs r1 (sim_cast0 C.act.mod hi H1)
  · rw [if_neg hp] at h ⊢
    obtain ⟨-, rfl⟩ := pure_ok h
    exact Sim.done (.refl _) H

theorem indexIn_prefix [DecidableEq α] {x : α} {l l' : List α} (hp : l <+: l') {i : Nat}
    (h : indexIn x l = some i) : indexIn x l' = some i := by
  induction l generalizing l' i with
  | nil => cases h
  | cons y ys ih =>
      obtain ⟨r, rfl⟩ := hp
      simp only [List.cons_append, indexIn] at h ⊢
      split at h
      · rename_i hy
        rw [if_pos hy]
        exact h
      · rename_i hy
        rw [if_neg hy]
        cases hi : indexIn x ys with
        | none => rw [hi] at h; cases h
        | some j =>
            rw [hi] at h
            rw [ih ⟨r, rfl⟩ hi]
            exact h

/-- The number of a variant. -/
theorem variantTag_ok {w : VariantRef} {tag : Nat} {t : Gen} (C : Code K a W lp s s')
    (h : variantTag w s = .ok (tag, t)) (hv : s.variants <+: s'.variants) :
    t = s ∧ K.L.tag a.cm.path w.id = some tag := by
  unfold variantTag at h
  gbind h with g t1 e1
  obtain ⟨hg1, hg2⟩ := get_ok e1
  obtain ⟨h2, h3⟩ := need_ok h
  rw [hg1] at h2
  refine ⟨h3.trans hg2, ?_⟩
  rw [C.act.mod.tag]
  exact indexIn_prefix (hv.trans C.fits.variants) h2

/-- A constant that is a number. -/
theorem sim_loadInt {n : Int} {u : Unit} (C : Code K a W lp s s') (h : loadConst (.int n) s = .ok (u, s'))
    (H : Here K a st vm s.ip k) :
    InI64 n ∧ ∃ vm', Runs K vm vm' ∧ Here K a st vm' s'.ip (k ++ [.int n]) := by
  obtain ⟨v, vm1, hv, r, H1⟩ := sim_loadConst C h H
  cases hv
  refine ⟨C.act.mod.ints n ?_, vm1, r, H1⟩
  unfold loadConst at h
  gbind h with i t e
  obtain ⟨hi, ht, -⟩ := constIndex_ok e
  refine C.fits.consts.subset ?_
  rw [emit_ok h]
  show _ ∈ t.consts
  rw [ht]
  exact List.mem_of_getElem? (tableIndex_get _ _)

/-- The position of a piece of program. -/
theorem pos_mod (C : Code K a W lp s s') : (pos a W).mod = a.cm.path := C.wf.mod

/-- `gen_path` of a variant without parts. -/
theorem sim_genPath {w : VariantRef} {u : Unit} (C : Code K a W lp s s')
    (h : genPath (some w) s = .ok (u, s')) (H : Here K a st vm s.ip k) (hw : w.arity = 0) :
    Sim K a m lp vm k (Pushed K a s'.ip)
      ((do let tag ← M.need (K.L.tag (pos a W).mod w.id); pure (.variant tag none) : M F (Val F)) st) := by
  unfold genPath at h
  gbind h with v t0 e0
  obtain ⟨hv, rfl⟩ := need_ok e0
  cases hv
  have hf : ∀ x, Good 0 W.scope (do
      loadConst (ConstKey.int (x : Nat)); if w.arity = 0 then emit .buildVariant [0] else G.pure ()) := fun x => by good
  obtain ⟨tag, t, h1, h2, c1, c2, g1, -⟩ := C.split (Nat.zero_le _) (good_of (fun _ => keeps_variantTag _) (fr_variantTag _)) hf h
  have g2 := hf tag t u s' (Nat.zero_le _) c2.scope h2
  obtain ⟨ht, htag⟩ := variantTag_ok C h1 (g1.step.trans g2.step).variants
  obtain ⟨x, t2, h3, h4, c3, c4⟩ := c2.cut h2 (by good) (fun _ => by good)
  rw [if_pos hw] at h4
  rw [show (pos a W).mod = a.cm.path from C.wf.mod, htag]
  rw [← ht] at H
  obtain ⟨hI, vm1, r1, H1⟩ := sim_loadInt c3 h3 H
  obtain ⟨hi, hip⟩ := c4.ins h4
  rw [hip]
  have := sim_buildVariant (m := m) (lp := lp) C.act (vs := []) (k := k) hI hi (by simpa using H1)
  exact Sim.runs r1 this

/-- `gen_path` of a variant with parts pushes its number. -/
theorem sim_genPathTag {w : VariantRef} {u : Unit} (C : Code K a W lp s s')
    (h : genPath (some w) s = .ok (u, s')) (H : Here K a st vm s.ip k) (hw : w.arity ≠ 0) :
    ∃ tag : Nat, K.L.tag (pos a W).mod w.id = some tag ∧ InI64 (tag : Int) ∧
      ∃ vm', Runs K vm vm' ∧ Here K a st vm' s'.ip (k ++ [.int tag]) := by
  unfold genPath at h
  gbind h with v t0 e0
  obtain ⟨hv, rfl⟩ := need_ok e0
  cases hv
  have hf : ∀ x, Good 0 W.scope (do
      loadConst (ConstKey.int (x : Nat)); if w.arity = 0 then emit .buildVariant [0] else G.pure ()) := fun x => by good
  obtain ⟨tag, t, h1, h2, c1, c2, g1, -⟩ := C.split (Nat.zero_le _) (good_of (fun _ => keeps_variantTag _) (fr_variantTag _)) hf h
  have g2 := hf tag t u s' (Nat.zero_le _) c2.scope h2
  obtain ⟨ht, htag⟩ := variantTag_ok C h1 (g1.step.trans g2.step).variants
  obtain ⟨x, t2, h3, h4, c3, c4⟩ := c2.cut h2 (by good) (fun _ => by good)
  rw [if_neg hw] at h4
  obtain ⟨-, he⟩ := pure_ok h4
  rw [← ht] at H
  obtain ⟨hI, vm1, r1, H1⟩ := sim_loadInt c3 h3 H
  refine ⟨tag, ?_, hI, vm1, r1, by rw [he]; exact H1⟩
  rw [show (pos a W).mod = a.cm.path from C.wf.mod, htag]

/-- A variable of the program read by the generator. -/
theorem sim_readSym {id : SymId} {u : Unit} (C : Code K a W lp s s')
    (h : (do let v ← symOf a.cm.ctx (some id); loadVariable a.cm.ctx v.toSymRef) s = .ok (u, s'))
    (hc : W.canRead id = true) (H : Here K a st vm s.ip k) :
    Sim K a .strict lp vm k (Pushed K a s'.ip) (readVar K.L id st) := by
  gbind h with v t e
  obtain ⟨hv, rfl⟩ := symOf_ok e
  rw [C.act.mod.env] at hv
  exact sim_loadVariable C hv hc h H

/-- `symOf` does nothing but find the symbol. -/
theorem symOf_same {ctx : GenCtx} {id : SymId} {v : Sym} {t : Gen} (h : symOf ctx (some id) s = .ok (v, t)) :
    ctx.env.syms[id]? = some v ∧ t = s := symOf_ok h

omit [FloatOps F] in
/-- Reading a variable has no effect. -/
theorem readVar_cases (L : Lang) (id : SymId) (st : St F) :
    readVar L id st = .stuck ∨ ∃ v, readVar L id st = .done v st := by
  unfold readVar
  cases L.env.syms[id]? with
  | none => exact Or.inl rfl
  | some sy =>
      dsimp only
      generalize (if sy.isGlobal = true then st.globals sy.modPath sy.name else st.locals id) = o
      cases o with
      | none => exact Or.inl rfl
      | some v => exact Or.inr ⟨v, rfl⟩

/-- A variable with a known value. -/
theorem sim_load {id : SymId} {sy : Sym} {u : Unit} {v : Val F} (C : Code K a W lp s s')
    (hid : K.L.env.syms[id]? = some sy) (hc : W.canRead id = true)
    (h : loadVariable a.cm.ctx sy.toSymRef s = .ok (u, s')) (hv : readVar K.L id st = .done v st)
    (H : Here K a st vm s.ip k) :
    ∃ vm', Runs K vm vm' ∧ Here K a st vm' s'.ip (k ++ [v]) := by
  have := sim_loadVariable C hid hc h H
  rw [hv] at this
  obtain ⟨vm1, j, hj, r, h1⟩ := this
  rcases hj with hj | hj
  · cases hj
  · subst hj
    rw [List.append_nil] at h1
    exact ⟨vm1, r, h1⟩

/-- A test of a pattern has no effect. -/
theorem fits_state {L : Lang} {p : Pos} {c : ConsRef} {v : Val F} {b : Bool} {st st' : St F}
    (h : fits L p c v st = .done b st') : st' = st := by
  have need : ∀ {α : Type} {o : Option α} {x : α}, (M.need o : M F α) st = .done x st' → st' = st := by
    intro α o x h
    cases o with
    | none => cases h
    | some y => cases h; rfl
  have key : ∀ (x y : Val F), ((do
      let r ← M.res (binop x .opEq y)
      M.need (boolOf r) : M F Bool) st) = .done b st' → st' = st := by
    intro x y h
    generalize binop x .opEq y = r at h
    cases r with
    | error er => cases er <;> cases h
    | ok r => exact need h
  cases c with
  | int n => exact key v _ h
  | str x =>
      have h : (do let w ← M.need (literal x); let r ← M.res (binop v .opEq w); M.need (boolOf r) : M F Bool) st = .done b st' := h
      generalize (literal x : Option (Val F)) = o at h
      cases o with
      | none => cases h
      | some w => exact key v w h
  | variant w =>
      have h : (do let tag ← M.need (L.tag p.mod w.id); let t ← M.need (variantNum v); pure (decide (tag = t)) : M F Bool) st = .done b st' := h
      generalize L.tag p.mod w.id = o at h
      generalize variantNum v = o2 at h
      cases o with
      | none => cases h
      | some w =>
          cases o2 with
          | none => cases h
          | some y => cases h; rfl
  | other => cases h

/-- `gen_iguala_test`: whether the subject fits the shape. -/
theorem sim_genTest {id : SymId} {c : ConsRef} {u : Unit} {v : Val F} (C : Code K a W lp s s')
    (h : genTest a.cm.ctx id c s = .ok (u, s')) (hc : W.canRead id = true)
    (hv : readVar K.L id st = .done v st) (H : Here K a st vm s.ip k) :
    Sim K a m lp vm k (fun b st vm k => Here K a st vm s'.ip (k ++ [.bool b]))
      (fits K.L (pos a W) c v st) := by
  unfold genTest at h
  gbind h with sy t0 e0
  obtain ⟨hsy, ht0⟩ := symOf_same e0
  rw [ht0] at h
  rw [C.act.mod.env] at hsy
  have hf : ∀ x : Unit, Good 0 W.scope (match c with
      | .int n => do
          loadConst (.int n)
          emit .opEq
      | .str s => do
          loadConst (.str s)
          emit .opEq
      | .variant w => do
          let tag ← variantTag w
          emit .matchVariant [tag]
      | .other => G.raise (.exc "NotImplementedError")) := by
    intro x
    cases c with
    | variant w => exact good_bind (good_of (fun _ => keeps_variantTag _) (fr_variantTag _)) fun _ => good_emit _ _
    | _ => good
  obtain ⟨u1, t, h1, h2, c1, c2⟩ := C.cut h (by good) hf
  have g2 := hf u1 t u s' (Nat.zero_le _) c2.scope h2
  obtain ⟨vm1, r1, H1⟩ := sim_load c1 hsy hc h1 hv H
  refine Sim.runs r1 ?_
  have eq : ∀ {t2 : Gen} {x : Val F} {vm2 : VM F} (c4 : Code K a W lp t2 s') (h4 : emit .opEq [] t2 = .ok (u, s'))
      (H2 : Here K a st vm2 t2.ip (k ++ [v] ++ [x])),
      Sim K a m lp vm2 k (fun b st vm k => Here K a st vm s'.ip (k ++ [.bool b])) ((do
        let r ← M.res (binop v .opEq x)
        M.need (boolOf r) : M F Bool) st) := by
    intro t2 x vm2 c4 h4 H2
    obtain ⟨hi, hip⟩ := c4.ins h4
    rw [hip]
    refine Sim.seq1 (sim_bin C.act.mod (m := .strict) (lp := lp) hi (fun _ => rfl) H2) ?_
    intro r st1 vm3 H3
    cases r with
    | bool b => exact Sim.done (.refl _) H3
    | _ => trivial
  cases c with
  | int n =>
      obtain ⟨x, t2, h3, h4, c3, c4⟩ := c2.cut h2 (by good) (fun _ => by good)
      obtain ⟨-, vm2, r2, H2⟩ := sim_loadInt c3 h3 H1
      exact Sim.runs r2 (eq c4 h4 H2)
  | str x =>
      obtain ⟨x, t2, h3, h4, c3, c4⟩ := c2.cut h2 (by good) (fun _ => by good)
      obtain ⟨w, vm2, hw, r2, H2⟩ := sim_loadConst c3 h3 H1
      refine Sim.lookup (f := fun w => do let r ← M.res (binop v .opEq w); M.need (boolOf r)) fun w' hw' => ?_
      have : w' = w := Option.some.inj (hw'.symm.trans hw)
      subst this
      exact Sim.runs r2 (eq c4 h4 H2)
  | variant w =>
      obtain ⟨tag, t2, h3, h4, c3, c4, g3, -⟩ := c2.split (Nat.zero_le _)
        (good_of (fun _ => keeps_variantTag _) (fr_variantTag _)) (fun _ => good_emit _ _) h2
      obtain ⟨ht2, htag⟩ := variantTag_ok c2 h3 g2.step.variants
      obtain ⟨hi, hip⟩ := c4.ins h4
      rw [ht2] at hi hip
      rw [hip]
      have := sim_matchVariant (m := m) (lp := lp) C.act.mod hi H1
      show Sim _ _ _ _ _ _ _ ((do let tag ← M.need (K.L.tag (pos a W).mod w.id); let t ← M.need (variantNum v); pure (decide (tag = t)) : M F Bool) st)
      rw [pos_mod C, htag]
      exact this
  | other => cases h2

/-! ## Bindings of patterns -/

/-- `id` is a local variable of the running function, in slot `i`. -/
def SlotOf (K : Link F) (a : Act F) (id : SymId) (i : Nat) : Prop :=
  ∃ sy, K.L.env.syms[id]? = some sy ∧ sy.isGlobal = false ∧ sy.modPath = a.cm.path ∧
    Inner K a id ∧ lookup a.L sy.outId = some i

theorem declareLocal_ok {sym : SymRef} {l : Nat} {t : Gen} (h : declareLocal sym s = .ok (l, t)) :
    lookup t.funcLocals sym.outId = some l ∧ t.ip = s.ip := by
  unfold declareLocal at h
  obtain ⟨rfl, rfl⟩ := Prod.mk.inj (Except.ok.inj h)
  exact ⟨lookup_store _ _ _, rfl⟩

/-- The slots of the parts of a variant (codegen.py:791-794), which `genMatchArgs` pushes. -/
theorem sim_matchArgs {args : List SymId} {u : Unit} (C : Code K a W lp s s')
    (h : genMatchArgs a.cm.ctx args s = .ok (u, s')) (hl : args.all W.local = true)
    (H : Here K a st vm s.ip k) :
    ∃ (ps : List (SymId × Nat)) (vm' : VM F), Runs K vm vm' ∧
      Here K a st vm' s'.ip (k ++ ps.map fun p => .int p.2) ∧ ps.map (·.1) = args ∧
      ∀ p ∈ ps, SlotOf K a p.1 p.2 := by
  induction args generalizing s vm k with
  | nil =>
      obtain ⟨-, rfl⟩ := pure_ok h
      exact ⟨[], vm, .refl _, by simpa using H, rfl, by simp⟩
  | cons id args ih =>
      unfold genMatchArgs at h
      gbind h with sy t0 e0
      obtain ⟨hsy, ht0⟩ := symOf_same e0
      rw [ht0] at h
      rw [C.act.mod.env] at hsy
      simp only [List.all_cons, Bool.and_eq_true] at hl
      have ng : Nice W.scope (genMatchArgs a.cm.ctx args) := ⟨fun _ => keeps_genMatchArgs _ _, fr_genMatchArgs _ _⟩
      obtain ⟨l, t, h1, h2, c1, c2⟩ := C.cut h (by good) (fun _ => by good)
      obtain ⟨u1, t2, h3, h4, c3, c4⟩ := c2.cut h2 (by good) (fun _ => by good)
      obtain ⟨hlk, hip⟩ := declareLocal_ok h1
      rw [← hip] at H
      obtain ⟨-, vm1, r1, H1⟩ := sim_loadInt c3 h3 H
      obtain ⟨ps, vm2, r2, H2, h5, h6⟩ := ih c4 h4 hl.2 H1
      refine ⟨(id, l) :: ps, vm2, r1.trans r2, by simpa using H2, by simp [h5], ?_⟩
      intro p hp
      rcases List.mem_cons.1 hp with rfl | hp
      · have hloc := hl.1
        unfold Wf.local at hloc
        rw [C.wf.lang, hsy] at hloc
        simp only [Wf.isLocal, Bool.and_eq_true, Bool.not_eq_true', decide_eq_true_eq] at hloc
        refine ⟨sy, hsy, hloc.1.1, hloc.1.2.trans C.wf.mod, C.wf.inner hloc.2, lookup_prefix c1.fits.locals hlk⟩
      · exact h6 p hp

/-- The parts of a variant go into their slots. -/
theorem bindArgs_slots (hK : LinkOk K) (ha : ActOk K a) (ps : List (SymId × Nat))
    (hp : ∀ p ∈ ps, SlotOf K a p.1 p.2) (items : List (Val F)) {bp : Int} (hbp : ps ≠ [] → bp = a.base.length)
    (H : Here K a st vm ip k) :
    ∃ values st', bindArgs K.cfg bp ((ps.map fun p => (p.2 : Int)).zip items) vm.values = some values ∧
      Source.writeAll K.L ((ps.map (·.1)).zip items) st = .done () st' ∧
      Here K a st' { vm with values := values } ip k := by
  induction ps generalizing items st vm with
  | nil => exact ⟨vm.values, st, rfl, rfl, H⟩
  | cons p ps ih =>
      obtain ⟨id, i⟩ := p
      cases items with
      | nil => exact ⟨vm.values, st, rfl, rfl, H⟩
      | cons v items =>
          obtain ⟨sy, hid, hg, hmod, hown, hl⟩ := hp _ (List.mem_cons_self ..)
          obtain ⟨hlt, H1⟩ := H.setSlot hK ha hid hg hmod hown hl (v := v) (o := some v) (Or.inr rfl)
          have hb := hbp (by simp)
          obtain ⟨values, st', h1, h2, H2⟩ := ih (fun p hm => hp p (List.mem_cons_of_mem _ hm)) items (fun _ => hb) H1
          refine ⟨values, st', ?_, ?_, H2⟩
          · have hli : localIndex K.cfg bp (i : Int) = some (a.base.length + i) := by
              unfold localIndex
              rw [hb, if_neg (by omega), if_neg (by omega)]
              congr 1
            simp only [List.map_cons, List.zip_cons_cons, bindArgs, hli, Option.bind_eq_bind, Option.bind_some, hlt, if_true]
            exact h1
          · simp only [List.map_cons, List.zip_cons_cons, Source.writeAll]
            have : writeVar K.L id (some v) st = .done () { st with locals := fun j => if j = id then some v else st.locals j } := by
              unfold writeVar
              rw [hid]
              simp [hg]
            show ((writeVar K.L id (some v) st).next _) = _
            rw [this]
            exact h2

/-- `gen_iguala_case_bindings`: the names of the parts.  For other patterns the subject stays on the
stack. -/
theorem sim_caseBindings (hK : LinkOk K) {id : SymId} {c : ConsRef} {args : List SymId} {u : Unit} {v : Val F}
    (C : Code K a W lp s s') (h : genCaseBindings a.cm.ctx id c args s = .ok (u, s'))
    (hc : W.canRead id = true) (hl : args.all W.local = true)
    (hm : m ≠ .any → args ≠ [] ∧ ∃ w, c = .variant w)
    (hv : readVar K.L id st = .done v st) (H : Here K a st vm s.ip k) :
    Sim K a m lp vm k (Arrived K a s'.ip) (bindParts K.L c args v st) := by
  unfold genCaseBindings at h
  gbind h with sy t0 e0
  obtain ⟨hsy, ht0⟩ := symOf_same e0
  rw [ht0] at h
  rw [C.act.mod.env] at hsy
  have ng : Nice W.scope (genMatchArgs a.cm.ctx args) := ⟨fun _ => keeps_genMatchArgs _ _, fr_genMatchArgs _ _⟩
  have hf : ∀ x : Unit, Good 0 W.scope (match c with
      | .variant _ =>
          if args.isEmpty then G.pure ()
          else do
            genMatchArgs a.cm.ctx args
            emit .bindMatchArgs [args.length]
      | _ => G.pure ()) := by
    intro x
    cases c <;> good
  obtain ⟨u1, t, h1, h2, c1, c2⟩ := C.cut h (by good) hf
  obtain ⟨vm1, r1, H1⟩ := sim_load c1 hsy hc h1 hv H
  -- the subject stays on the stack
  have stay : s' = t → (m ≠ .any → False) → Sim K a m lp vm k (Arrived K a s'.ip) ((pure () : M F Unit) st) := by
    intro e hm
    have : m = .any := by
      cases m with
      | any => rfl
      | _ => exact absurd (by simp) hm
    subst this
    exact ⟨vm1, [v], Or.inl rfl, r1, by rw [e]; exact H1⟩
  cases c with
  | variant w =>
      unfold bindParts
      dsimp only at h2 ⊢
      by_cases he : args.isEmpty = true
      · rw [if_pos he] at h2 ⊢
        obtain ⟨-, e⟩ := pure_ok h2
        refine stay e fun hne => ?_
        have := (hm hne).1
        exact this (List.isEmpty_iff.1 he)
      · rw [if_neg he] at h2 ⊢
        refine Sim.runs r1 ?_
        obtain ⟨u2, t2, h3, h4, c3, c4⟩ := c2.cut h2 (by good) (fun _ => by good)
        obtain ⟨ps, vm2, r2, H2, hps, hsl⟩ := sim_matchArgs c3 h3 hl H1
        refine Sim.runs r2 ?_
        obtain ⟨hi, hip⟩ := c4.ins h4
        rw [hip, ← size_end _ t2.ip]
        cases v with
        | variant tag o =>
            cases o with
            | none => trivial
            | some cell =>
                show Sim _ _ _ _ _ _ _ ((match st.world.heap[cell]? with
                  | some (.payload items) =>
                      if args.length ≤ items.length then Source.writeAll K.L (args.zip items) else M.stuck
                  | _ => M.stuck : M F Unit) st)
                cases hcell : st.world.heap[cell]? with
                | none => trivial
                | some cl =>
                    cases cl with
                    | payload items =>
                        dsimp only
                        by_cases hle : args.length ≤ items.length
                        · rw [if_pos hle]
                          obtain ⟨vm3, e3, H3⟩ := H2.next C.act.mod hi
                          have hlen : (ps.map fun p => (Val.int (p.2 : Int) : Val F)).length = args.length := by
                            rw [← hps]; simp
                          have hsli := H3.slice
                          have hst := H3.start C.act
                          have H4 := H3.drain
                          rw [hlen] at hsli hst H4
                          obtain ⟨vm5, e5, H5⟩ := H4.pop
                          have hne : args.length ≠ 0 := by
                            intro e; exact he (by rw [List.length_eq_zero_iff.1 e]; rfl)
                          have hmap : (ps.map fun p => (Val.int (p.2 : Int) : Val F)).mapM Val.takeInt =
                              (.ok (ps.map fun p => (p.2 : Int)) : Res (List Int)) := by
                            clear hps hsl hlen hsli hst H4 e5 H3 e3 H2
                            induction ps with
                            | nil => rfl
                            | cons p ps ih =>
                                simp only [List.map_cons, List.mapM_cons, ih, Val.takeInt]
                                rfl
                          have hf' : ∃ f fs, vm5.frames = f :: fs ∧ (ps ≠ [] → f.bp = a.base.length) := by
                            obtain ⟨⟨last, slots, hat, -, -⟩, -⟩ := H5
                            refine ⟨_, _, hat.frames, fun hp => C.act.bp ?_⟩
                            cases ps with
                            | nil => exact absurd rfl hp
                            | cons p ps =>
                                obtain ⟨sy', -, -, -, -, hlk⟩ := hsl p (List.mem_cons_self ..)
                                rintro e
                                rw [e] at hlk
                                cases hlk
                          obtain ⟨f, fs, hfr, hbp⟩ := hf'
                          obtain ⟨values, st', h6, h7, H6⟩ := bindArgs_slots hK C.act ps hsl items hbp H5
                          rw [hps] at h7
                          rw [h7]
                          obtain ⟨vm7, e7, H7⟩ := H6.advance
                          refine Sim.runs (Runs.one ?_) (Sim.pure H7)
                          rw [e3]
                          simp only [exec, operand_cons, except_bind_ok]
                          unfold execBindMatchArgs
                          rw [if_neg (by simp [hne])]
                          simp only [hsli, orPanic, except_bind_ok, hmap, Res.lift]
                          rw [if_neg (by simp [hst])]
                          simp only [e5, except_bind_ok, H5.heap, hcell, VM.top, hfr, orPanic, List.head?_cons]
                          rw [if_pos (by rw [← hps] at hle; simpa using hle)]
                          rw [h6]
                          rw [hfr] at e7
                          exact e7
                        · rw [if_neg hle]; trivial
                    | _ => trivial
        | _ => trivial
  | _ =>
      obtain ⟨-, e⟩ := pure_ok h2
      refine stay e fun hne => ?_
      obtain ⟨w, hw⟩ := (hm hne).2
      cases hw

/-- The bindings of an arm. -/
theorem sim_armBindings (hK : LinkOk K) {x : ScopeId} {bs : List (String × SymId)} {u : Unit}
    (C : Code K a W lp s s') (h : genArmBindings a.cm.ctx x bs s = .ok (u, s'))
    (hok : okNames W x bs = true) (H : Here K a st vm s.ip k) :
    Sim K a .strict lp vm k (Arrived K a s'.ip) (bindNames K.L x bs st) := by
  induction bs generalizing s vm st with
  | nil =>
      obtain ⟨-, rfl⟩ := pure_ok h
      exact Sim.done (.refl _) H
  | cons b bs ih =>
      obtain ⟨name, id⟩ := b
      unfold genArmBindings at h
      simp only [okNames, Bool.and_eq_true] at hok
      gbind h with sy t0 e0
      obtain ⟨hsy, ht0⟩ := symOf_same e0
      rw [ht0] at h
      rw [C.act.mod.env] at hsy
      have ng : Nice W.scope (genArmBindings a.cm.ctx x bs) := ⟨fun _ => keeps_genArmBindings _ _ _, fr_genArmBindings _ _ _⟩
      obtain ⟨u1, t, h1, h2, c1, c2⟩ := C.cut h (by good) (fun _ => by good)
      gbind h2 with sb t1 e1
      obtain ⟨hsb, ht1⟩ := need_ok e1
      rw [ht1] at h2
      obtain ⟨u2, t2, h3, h4, c3, c4⟩ := c2.cut h2 (by good) (fun _ => by good)
      unfold bindNames
      refine Sim.seq1 (sim_loadVariable c1 hsy hok.1.1 h1 H) ?_
      intro v st1 vm1 H1
      refine Sim.lookup fun b hb => ?_
      rw [C.act.mod.env, hb] at hsb
      have hb' := hok.1.2
      rw [C.wf.lang, hb] at hb'
      refine Sim.seq1 (sim_setVariable hK c3 hsb hb' h3 H1 (Or.inr rfl)) ?_
      intro _ st2 vm2 H2
      exact ih c4 h4 hok.2 H2

end

end Compiled

end Amanda

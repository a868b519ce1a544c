import Verif.Exec

/-!
# What each generated instruction does

One lemma for each kind of instruction the code generator emits: the machine at that instruction, in
a state that represents a source state, does what the source-level operation says.
-/

namespace Amanda

namespace Compiled

open Source Codegen

variable {F : Type} [FloatOps F]

/-! ## Instructions in the finished code -/

theorem writeAll_mem {labels : List Nat} {is : List Ins} {code : Bytes} (h : writeAll labels is = .ok code)
    {ins : Ins} (hi : ins ∈ is) : ∃ b, writeOpBytes labels ins = .ok b := by
  induction is generalizing code with
  | nil => cases hi
  | cons i is ih =>
      simp only [writeAll, except_bind_eq_ok] at h
      obtain ⟨b, hb, r, hr, -⟩ := h
      rcases List.mem_cons.1 hi with rfl | hi
      · exact ⟨b, hb⟩
      · exact ih hr hi

theorem emit_get {fin : Gen} {L : List (String × Nat)} {s s' : Gen} {op : Op} {args : List Nat} {u : Unit}
    (X : Codegen.Fits fin L s s') (h : emit op args s = .ok (u, s')) :
    fin.ops[s.ops.length]? = some ⟨op, args⟩ ∧ offsetOf fin.ops s.ops.length = s.ip := by
  have e := emit_ok h
  obtain ⟨r, hr⟩ := X.ops
  have hops : s'.ops = s.ops ++ [⟨op, args⟩] := by rw [e]
  rw [hops] at hr
  rw [← hr]
  refine ⟨by simp, ?_⟩
  rw [X.ip]
  simp [offsetOf, codeSize]

theorem emit_at {K : Link F} {cm : CMod F} (hm : CModOk K cm) {L : List (String × Nat)} {s s' : Gen} {op : Op}
    {args : List Nat} {u : Unit} (X : Codegen.Fits cm.fin L s s') (h : emit op args s = .ok (u, s')) :
    InsAt cm s.ip op (resolvedArgs cm.fin.labels ⟨op, args⟩) ∧ s'.ip = s.ip + op.size := by
  obtain ⟨hk, hoff⟩ := emit_get X h
  have hmem := List.mem_of_getElem? hk
  have := writeAll_fetch cm.fin.labels cm.fin.ops cm.image.code hm.code hm.formed _ _ hk
    (hm.fit _ hmem) []
  simp only [List.nil_append, List.length_nil, Nat.zero_add, hoff] at this
  exact ⟨this, by rw [emit_ok h]⟩

theorem emit_ins {K : Link F} {cm : CMod F} (hm : CModOk K cm) {L : List (String × Nat)} {s s' : Gen} {op : Op}
    {args : List Nat} {u : Unit} (X : Codegen.Fits cm.fin L s s') (h : emit op args s = .ok (u, s'))
    (hop : ¬ (op = .jumpIfFalse ∨ op = .jump)) : InsAt cm s.ip op args ∧ s'.ip = s.ip + op.size := by
  have := emit_at hm X h
  unfold resolvedArgs at this
  rw [if_neg hop] at this
  exact this

theorem emit_jump {K : Link F} {cm : CMod F} (hm : CModOk K cm) {L : List (String × Nat)} {s s' : Gen} {op : Op}
    {l : Nat} {u : Unit} (X : Codegen.Fits cm.fin L s s') (h : emit op [l] s = .ok (u, s'))
    (hop : op = .jumpIfFalse ∨ op = .jump) :
    ∃ x, cm.fin.labels[l]? = some x ∧ InsAt cm s.ip op [x] ∧ s'.ip = s.ip + op.size := by
  obtain ⟨hi, hip⟩ := emit_at hm X h
  obtain ⟨hk, -⟩ := emit_get X h
  obtain ⟨b, hb⟩ := writeAll_mem hm.code (List.mem_of_getElem? hk)
  unfold writeOpBytes at hb
  obtain ⟨as, ha, -⟩ := except_bind_eq_ok.1 hb
  unfold resolveLabels at ha
  rw [if_pos hop] at ha
  have hl : argAt [l] 0 = .ok l := rfl
  simp only [hl, except_bind_ok] at ha
  cases hx : cm.fin.labels[l]? with
  | none => rw [hx] at ha; cases ha
  | some x =>
      refine ⟨x, rfl, ?_, hip⟩
      unfold resolvedArgs at hi
      rw [if_pos hop] at hi
      simpa [List.getD_eq_getElem?_getD, hx] using hi

/-! ## Pieces of code in a running function -/

/-- The rules of the program and the running function belong together. -/
structure WfOk (K : Link F) (a : Act F) (W : Wf) : Prop where
  lang : W.L = K.L
  home : W.home = K.home
  chain : W.chain = a.chain
  above : W.chain.head? = W.scope → ∀ k ∈ a.chain, ∃ sc, W.scope = some sc ∧ Above K.L.env k sc
  mod : W.mod = a.cm.path
  calls : W.calls = true → (∀ p, K.loaded p = true) ∧ a.fn.module.ref = a.cm.ref

omit [FloatOps F] in
theorem WfOk.inner {K : Link F} {a : Act F} {W : Wf} (h : WfOk K a W) {id : SymId}
    (hi : (W.home id).any W.chain.contains = true) : Inner K a id := by
  rw [h.home, h.chain] at hi
  cases hk : K.home id with
  | none => rw [hk] at hi; cases hi
  | some k => rw [hk] at hi; exact ⟨k, hk, by simpa using hi⟩

/-- The addresses of `continua` and `quebra` at a point of the generated code. -/
def loopOf (a : Act F) (W : Wf) (s : Gen) : Loop :=
  if W.inLoop then (s.loopStart.bind (a.cm.fin.labels[·]?), s.loopExit.bind (a.cm.fin.labels[·]?))
  else (none, none)

/-- The code generated from `s` to `s'` is part of function `a`. -/
structure Code (K : Link F) (a : Act F) (W : Wf) (lp : Loop) (s s' : Gen) : Prop where
  act : ActOk K a
  wf : WfOk K a W
  scope : s.scope = W.scope
  fits : Codegen.Fits a.cm.fin a.L s s'
  loop : loopOf a W s = lp

/-- Where this code stands in the source program. -/
def pos (a : Act F) (W : Wf) : Pos := ⟨W.mod, W.scope, a.rest.length + 1⟩

section
variable {K : Link F} {a : Act F} {W : Wf} {lp : Loop} {s s' : Gen} {m : Mode} {vm vm' : VM F}
  {st : St F} {k : List (Val F)} {ip : Nat}

theorem Code.env (C : Code K a W lp s s') : a.cm.ctx.env = W.L.env := by
  rw [C.act.mod.env, C.wf.lang]

/-- Cutting a piece of code in two. -/
theorem Code.split {b : Nat} {g : G α} {f : α → G β} {r : β} (C : Code K a W lp s s')
    (hb : b ≤ s.labels.length) (hm : Good b W.scope g) (hf : ∀ x, Good b W.scope (f x))
    (h : (g >>= f) s = .ok (r, s')) :
    ∃ x t, g s = .ok (x, t) ∧ f x t = .ok (r, s') ∧ Code K a W lp s t ∧ Code K a W lp t s' ∧
      Good1 b s t ∧ b ≤ t.labels.length := by
  obtain ⟨x, t, h1, h2, f1, f2, g1, hs, hb'⟩ := C.fits.split hb C.scope hm hf h
  refine ⟨x, t, h1, h2, ⟨C.act, C.wf, C.scope, f1, C.loop⟩, ⟨C.act, C.wf, hs, f2, ?_⟩, g1, hb'⟩
  rw [← C.loop]
  unfold loopOf
  rw [g1.start, g1.exit]

/-- The next instruction. -/
theorem Code.ins {op : Op} {args : List Nat} {u : Unit} (C : Code K a W lp s s')
    (h : emit op args s = .ok (u, s')) (hop : ¬ (op = .jumpIfFalse ∨ op = .jump) := by decide) :
    InsAt a.cm s.ip op args ∧ s'.ip = s.ip + op.size :=
  emit_ins C.act.mod C.fits h hop

end

/-! ## Leaving the stack alone -/

section
variable {K : Link F} {a : Act F} {lp : Loop} {m : Mode} {vm vm' : VM F}
  {st : St F} {k : List (Val F)} {ip : Nat} {α β : Type}
  {P : α → St F → VM F → List (Val F) → Prop} {Q : β → St F → VM F → List (Val F) → Prop}

/-- `Sim.bind` for sequences of the source language. -/
theorem Sim.seq {o : M F α} {f : α → M F β} (h : Sim K a m lp vm k P (o st))
    (n : ∀ x st vm' j, m.junk j → P x st vm' (k ++ j) → Sim K a m lp vm' (k ++ j) Q (f x st)) :
    Sim K a m lp vm k Q ((o >>= f) st) := Sim.bind h n

theorem Sim.seq1 {o : M F α} {f : α → M F β} {lp' : Loop} {k' : List (Val F)}
    (h : Sim K a .strict lp' vm k' P (o st))
    (n : ∀ x st vm', P x st vm' k' → Sim K a m lp vm' k Q (f x st)) :
    Sim K a m lp vm k Q ((o >>= f) st) := Sim.bind1 h n

theorem Sim.res {r : Res α} (h1 : ∀ x, r = .ok x → ∃ vm', Runs K vm vm' ∧ P x st vm' k)
    (h2 : ∀ msg, r = .error (.err msg) → RunsErr K vm msg st.world) :
    Sim K a m lp vm k P (M.res r st) := by
  cases r with
  | ok x =>
      obtain ⟨v, hr, hp⟩ := h1 x rfl
      exact ⟨v, [], m.junk_nil, hr, by simpa using hp⟩
  | error e =>
      cases e with
      | err msg => exact h2 msg rfl
      | panic => trivial

theorem Sim.need {o : Option α} (h1 : ∀ x, o = some x → ∃ vm', Runs K vm vm' ∧ P x st vm' k) :
    Sim K a m lp vm k P (M.need o st) := by
  cases o with
  | some x =>
      obtain ⟨v, hr, hp⟩ := h1 x rfl
      exact ⟨v, [], m.junk_nil, hr, by simpa using hp⟩
  | none => trivial

/-- A lookup whose result the machine does not need. -/
theorem Sim.lookup {o : Option α} {f : α → M F β} (n : ∀ x, o = some x → Sim K a m lp vm k Q (f x st)) :
    Sim K a m lp vm k Q ((M.need o >>= f) st) := by
  cases o with
  | some x => exact n x rfl
  | none => trivial

theorem Sim.done {x : α} (hr : Runs K vm vm') (h : P x st vm' k) : Sim K a m lp vm k P ((Pure.pure x : M F α) st) :=
  ⟨vm', [], m.junk_nil, hr, by simpa using h⟩

/-- Something pushed and moved on: how most instructions end. -/
theorem Here.pushNext (h : Here K a st vm ip k) (v : Val F) :
    ∃ vm1 vm2, vm.push v = .ok vm1 ∧ vm1.advance = .ok vm2 ∧ Here K a st vm2 (ip + 1) (k ++ [v]) := by
  obtain ⟨vm1, e1, h1⟩ := h.push v
  obtain ⟨vm2, e2, h2⟩ := h1.advance
  exact ⟨vm1, vm2, e1, e2, h2⟩

end

/-! ## Constants and names -/

section
variable {K : Link F} {a : Act F} {W : Wf} {lp : Loop} {s s' : Gen} {m : Mode} {vm vm' : VM F}
  {st : St F} {k : List (Val F)} {ip : Nat}

/-- The end of an instruction. -/
theorem size_end (op : Op) (ip : Nat) : ip + op.size - 1 + 1 = ip + op.size := by
  have := op_size_pos op; omega

/-- `loadConst`. -/
theorem sim_loadConst {c : ConstKey} {u : Unit} (C : Code K a W lp s s') (h : loadConst c s = .ok (u, s'))
    (H : Here K a st vm s.ip k) :
    ∃ v vm', constVal c = some v ∧ Runs K vm vm' ∧ Here K a st vm' s'.ip (k ++ [v]) := by
  unfold loadConst at h
  gbind h with i t e
  obtain ⟨hi, ht, -⟩ := constIndex_ok e
  have X : Codegen.Fits a.cm.fin a.L t s' := by
    refine C.fits.right (b := 0) ?_
    subst ht
    exact { Step.refl 0 s with consts := tableIndex_prefix _ _ }
  obtain ⟨hins, hip⟩ := emit_ins C.act.mod X h (by decide)
  have hget : a.cm.fin.consts[i]? = some c := by
    refine prefix_get X.consts ?_
    rw [emit_ok h]
    show t.consts[i]? = some c
    rw [ht, hi]
    exact tableIndex_get _ _
  obtain ⟨v, hv, hc⟩ := C.act.mod.consts i c hget
  have hip0 : t.ip = s.ip := by rw [ht]
  rw [hip0] at hins hip
  obtain ⟨vm1, e1, h1⟩ := H.next C.act.mod hins
  obtain ⟨vm2, vm3, e2, e3, h3⟩ := h1.pushNext v
  refine ⟨v, vm3, hv, Runs.one ?_, h3.move (by rw [hip, size_end])⟩
  rw [e1]
  simp [exec, operand_cons, hc, orPanic, e2, e3]

/-- `loadName`. -/
theorem sim_loadName {c : String} {u : Unit} (C : Code K a W lp s s') (h : loadName c s = .ok (u, s'))
    (H : Here K a st vm s.ip k) :
    ∃ vm', Runs K vm vm' ∧ Here K a st vm' s'.ip (k ++ [.str c]) := by
  unfold loadName at h
  gbind h with i t e
  obtain ⟨hi, ht, -⟩ := nameIndex_ok e
  have X : Codegen.Fits a.cm.fin a.L t s' := by
    refine C.fits.right (b := 0) ?_
    subst ht
    exact { Step.refl 0 s with names := tableIndex_prefix _ _ }
  obtain ⟨hins, hip⟩ := emit_ins C.act.mod X h (by decide)
  have hget : a.cm.fin.names[i]? = some c := by
    refine prefix_get X.names ?_
    rw [emit_ok h]
    show t.names[i]? = some c
    rw [ht, hi]
    exact tableIndex_get _ _
  have hip0 : t.ip = s.ip := by rw [ht]
  rw [hip0] at hins hip
  obtain ⟨vm1, e1, h1⟩ := H.next C.act.mod hins
  obtain ⟨vm2, vm3, e2, e3, h3⟩ := h1.pushNext (.str c)
  refine ⟨vm3, Runs.one ?_, h3.move (by rw [hip, size_end])⟩
  rw [e1]
  simp [exec, operand_cons, C.act.mod.names, hget, orPanic, e2, e3]

/-! ## Variables -/

omit [FloatOps F] in
theorem assocGet_set {A B : Type} [DecidableEq A] (d : List (A × B)) (x y : A) (v : B) :
    assocGet (assocSet d x v) y = if x = y then some v else assocGet d y := by
  induction d with
  | nil => simp [assocSet, assocGet]
  | cons p d ih =>
      obtain ⟨z, w⟩ := p
      by_cases hz : z = x
      · subst hz
        by_cases hy : z = y
        · simp [assocSet, assocGet, hy]
        · simp [assocSet, assocGet, hy]
      · by_cases hy : z = y
        · subst hy
          have : ¬ x = z := fun e => hz e.symm
          simp [assocSet, assocGet, hz, this]
        · simp [assocSet, assocGet, hz, hy, ih]

theorem lookup_store (d : List (String × Nat)) (x : String) (v : Nat) :
    lookup (store d x v) x = some v := by
  have hmap : ∀ d : List (String × Nat), (d.find? (·.1 == x)).isSome →
      (d.map fun p => if p.1 == x then (x, v) else p).find? (·.1 == x) = some (x, v) := by
    intro d
    induction d with
    | nil => intro h; cases h
    | cons p d ih =>
        intro h
        by_cases hp : p.1 = x
        · simp [hp]
        · simp only [List.map_cons, List.find?_cons, beq_iff_eq, hp, if_false]
          rw [show (p.1 == x) = false by simpa using hp]
          rw [List.find?_cons, show (p.1 == x) = false by simpa using hp] at h
          simpa using ih h
  unfold store
  by_cases h : (lookup d x).isSome = true
  · rw [if_pos h]
    unfold lookup at *
    rw [hmap d (by simpa using h)]
    rfl
  · rw [if_neg h]
    unfold lookup at *
    have hf : d.find? (·.1 == x) = none := by
      cases hf : d.find? (·.1 == x) with
      | none => rfl
      | some p => rw [hf] at h; exact absurd rfl h
    simp [List.find?_append, hf]

/-- Reading an instruction does not change the globals. -/
theorem Here.nextG (hm : CModOk K a.cm) {op : Op} {args : List Nat} (h : Here K a st vm ip k)
    (hi : InsAt a.cm ip op args) :
    ∃ vm1, step K.cfg K.prog vm = exec K.cfg K.prog a.cm.image vm1 op args ∧
      Here K a st vm1 (ip + op.size - 1) k ∧ vm1.globals = vm.globals := by
  obtain ⟨⟨last, slots, hat, h1, h2⟩, hg⟩ := h
  refine ⟨vm.reading { a.fn with ip := ip, lastI := last } a.rest (ip + op.size - 1), step_eq ⟨?_, hat.frames, hi⟩, ?_, rfl⟩
  · rw [hat.ctx]; exact hm.get
  · exact ⟨⟨ip, slots, hat.setFrames _, h1, h2⟩, hg⟩

/-- Giving a global variable a value, or an unknown one. -/
theorem GlobalsOk.set (hK : LinkOk K) {gs : String → String → Option (Val F)}
    {g : List ((ModRef × String) × Val F)} (G : GlobalsOk K gs g) {p n : String} {r : ModRef}
    (hr : K.ref p = some r) (hf : K.L.funs p n = none) (hp : p ≠ K.L.builtinPath) {v : Val F}
    {o : Option (Val F)} (ho : o = none ∨ o = some v) :
    GlobalsOk K (fun q x => if q = p ∧ x = n then o else gs q x) (assocSet g (r, n) v) := by
  refine ⟨fun q x w r' hw hq => ?_, fun q x d hl hd => ?_, fun t ht => ?_⟩
  · rw [assocGet_set]
    by_cases hc : q = p ∧ x = n
    · rw [if_pos hc] at hw
      obtain ⟨rfl, rfl⟩ := hc
      have : r = r' := Option.some.inj (hr.symm.trans hq)
      subst this
      rw [if_pos rfl]
      rcases ho with ho | ho
      · rw [ho] at hw; cases hw
      · rw [← ho]; exact hw
    · rw [if_neg hc] at hw
      have : ¬ ((r, n) = (r', x)) := by
        intro e
        obtain ⟨rfl, rfl⟩ := Prod.mk.inj e
        exact hc ⟨hK.refInj _ _ _ hq hr, rfl⟩
      rw [if_neg this]
      exact G.vars q x w r' hw hq
  · obtain ⟨r', gf, h1, h2, h3⟩ := G.funs q x d hl hd
    refine ⟨r', gf, h1, ?_, h3⟩
    rw [assocGet_set, if_neg]
    · exact h2
    · intro e
      obtain ⟨rfl, rfl⟩ := Prod.mk.inj e
      rw [hK.refInj _ _ _ h1 hr, hf] at hd
      cases hd
  · obtain ⟨r', h1, h2⟩ := G.types t ht
    refine ⟨r', h1, ?_⟩
    rw [assocGet_set, if_neg]
    · exact h2
    · intro e
      obtain ⟨rfl, -⟩ := Prod.mk.inj e
      exact hp (hK.refInj _ _ _ hr h1)

/-- `load_variable` of something global. -/
theorem sim_loadGlobal {sym : SymRef} {u : Unit} {r : ModRef} {v : Val F} (C : Code K a W lp s s')
    (h : loadVariable a.cm.ctx sym s = .ok (u, s')) (hg : sym.isGlobal = true)
    (hr : K.ref sym.modPath = some r) (hv : assocGet vm.globals (r, sym.name) = some v)
    (H : Here K a st vm s.ip k) :
    ∃ vm', Runs K vm vm' ∧ Here K a st vm' s'.ip (k ++ [v]) := by
  unfold loadVariable at h
  gbind h with i t e
  obtain ⟨hi, ht, -⟩ := nameIndex_ok e
  have X : Codegen.Fits a.cm.fin a.L t s' := by
    refine C.fits.right (b := 0) ?_
    subst ht
    exact { Step.refl 0 s with names := tableIndex_prefix _ _ }
  have hip0 : t.ip = s.ip := by rw [ht]
  have hget : s'.names = t.names → a.cm.fin.names[i]? = some sym.name := by
    intro hn
    refine prefix_get X.names ?_
    rw [hn, ht, hi]
    exact tableIndex_get _ _
  split at h
  · gbind h with mi t2 e2
    obtain ⟨hmi, rfl⟩ := need_ok e2
    obtain ⟨hins, hip⟩ := emit_ins C.act.mod X h (by decide)
    rw [hip0] at hins hip
    have hn := hget (by rw [emit_ok h])
    obtain ⟨hr2, hlt⟩ := C.act.mod.imports _ _ hmi
    rw [hr] at hr2
    cases hr2
    obtain ⟨vm1, e1, h1, hgl⟩ := H.nextG C.act.mod hins
    obtain ⟨vm2, vm3, e2, e3, h3⟩ := h1.pushNext v
    refine ⟨vm3, Runs.one ?_, h3.move (by rw [hip, size_end])⟩
    rw [e1]
    simp [exec, operand, C.act.mod.names, hn, hgl, hv, hlt, orPanic, e2, e3]
  · rename_i hmp
    have hins' := h
    obtain ⟨hins, hip⟩ := emit_ins C.act.mod X hins' (by decide)
    rw [hip0] at hins hip
    have hn := hget (by rw [emit_ok hins'])
    have hmp' : sym.modPath = a.cm.path := by
      rw [← C.act.mod.path]; exact Decidable.of_not_not hmp
    rw [hmp', C.act.mod.ref] at hr
    cases hr
    obtain ⟨vm1, e1, h1, hgl⟩ := H.nextG C.act.mod hins
    obtain ⟨vm2, vm3, e2, e3, h3⟩ := h1.pushNext v
    refine ⟨vm3, Runs.one ?_, h3.move (by rw [hip, size_end])⟩
    rw [e1]
    simp [exec, operand, C.act.mod.names, hn, hgl, h1.ctx, hv, orPanic, e2, e3]

/-- Where the slot of a local is. -/
theorem Here.slot (ha : ActOk K a) (H : Here K a st vm ip k) {x : String} {l : Nat}
    (hl : lookup a.L x = some l) :
    ∃ f fs, vm.frames = f :: fs ∧ localIndex K.cfg f.bp l = some (a.base.length + l) ∧ f.bp = a.base.length := by
  obtain ⟨⟨last, slots, hat, h1, h2⟩, hg⟩ := H
  have hne : a.L ≠ [] := by rintro e; rw [e] at hl; cases hl
  refine ⟨_, _, hat.frames, ?_, ha.bp hne⟩
  show localIndex K.cfg a.fn.bp l = _
  rw [ha.bp hne]
  unfold localIndex
  rw [if_neg (by omega), if_neg (by omega)]
  congr 1

/-- `load_variable` and `readVar`. -/
theorem sim_loadVariable {id : SymId} {sy : Sym} {u : Unit} (C : Code K a W lp s s')
    (hid : K.L.env.syms[id]? = some sy) (hc : W.canRead id = true)
    (h : loadVariable a.cm.ctx sy.toSymRef s = .ok (u, s')) (H : Here K a st vm s.ip k) :
    Sim K a .strict lp vm k (Pushed K a s'.ip) (readVar K.L id st) := by
  unfold readVar
  rw [hid]
  dsimp only
  by_cases hg : sy.isGlobal = true
  · rw [hg]
    refine Sim.need fun v hv => ?_
    have hr : ∃ r, K.ref sy.modPath = some r := by
      have h' := h
      unfold loadVariable at h'
      gbind h' with i t e
      split at h'
      · gbind h' with mi t2 e2
        obtain ⟨hmi, -⟩ := need_ok e2
        exact ⟨_, (C.act.mod.imports _ _ hmi).1⟩
      · rename_i hmp
        refine ⟨a.cm.ref, ?_⟩
        rw [show sy.modPath = a.cm.path by rw [← C.act.mod.path]; exact Decidable.of_not_not hmp]
        exact C.act.mod.ref
    obtain ⟨r, hr⟩ := hr
    exact sim_loadGlobal C h hg hr (H.globals.vars _ _ _ _ hv hr) H
  · have hg' : sy.isGlobal = false := by simpa using hg
    rw [hg']
    refine Sim.need fun v hv => ?_
    unfold Wf.canRead at hc
    rw [C.wf.lang, hid] at hc
    simp only [hg', Bool.false_or, Wf.isLocal, Bool.not_false, Bool.true_and, Bool.and_eq_true,
      decide_eq_true_eq] at hc
    obtain ⟨hmod, hown⟩ := hc
    rw [C.wf.mod] at hmod
    replace hown := C.wf.inner hown
    unfold loadVariable at h
    gbind h with i t e
    obtain ⟨hi, ht, -⟩ := nameIndex_ok e
    have X : Codegen.Fits a.cm.fin a.L t s' := by
      refine C.fits.right (b := 0) ?_
      subst ht
      exact { Step.refl 0 s with names := tableIndex_prefix _ _ }
    have hip0 : t.ip = s.ip := by rw [ht]
    rw [if_neg (by rw [hmod, C.act.mod.path]; exact fun h => h rfl), hg'] at h
    simp only [Bool.false_eq_true, if_false] at h
    gbind h with g t2 e2
    obtain ⟨rfl, rfl⟩ := get_ok e2
    gbind h with l t3 e3
    obtain ⟨hl, rfl⟩ := need_ok e3
    obtain ⟨hins, hip⟩ := emit_ins C.act.mod X h (by decide)
    have hL : lookup a.L sy.outId = some l := by
      refine lookup_prefix X.locals ?_
      rw [emit_ok h]
      exact hl
    rw [hip0] at hins hip
    obtain ⟨vm1, e1, h1⟩ := H.next C.act.mod hins
    obtain ⟨f, fs, hf, hloc, -⟩ := h1.slot C.act hL
    obtain ⟨vm2, vm3, e2, e3, h3⟩ := h1.pushNext v
    have hval : vm1.values[a.base.length + l]? = some v := by
      obtain ⟨⟨last, slots, hat, hs1, hs2⟩, -⟩ := h1
      obtain ⟨j, hj, hsl⟩ := hs2 id sy v hid hg' hmod hown hv
      rw [hL] at hj
      cases hj
      obtain ⟨hlt, hge⟩ := List.getElem?_eq_some_iff.1 hsl
      have := hat.live.get (i := a.base.length + l) (by simp; omega)
      rw [this]
      simp only [List.append_assoc]
      rw [List.getElem_append_right (by omega)]
      simp only [Nat.add_sub_cancel_left]
      rw [List.getElem_append_left hlt, hge]
    refine ⟨vm3, Runs.one ?_, h3.move (by rw [hip, size_end])⟩
    rw [e1]
    simp [exec, operand, VM.top, hf, hloc, hval, orPanic, e2, e3]

/-- Writing the slot of a local. -/
theorem Here.setSlot (hK : LinkOk K) (ha : ActOk K a) (H : Here K a st vm ip k) {id : SymId} {sy : Sym}
    {l : Nat} (hid : K.L.env.syms[id]? = some sy) (hg : sy.isGlobal = false)
    (hmod : sy.modPath = a.cm.path) (hown : Inner K a id) (hl : lookup a.L sy.outId = some l)
    {v : Val F} {o : Option (Val F)} (ho : o = none ∨ o = some v) :
    a.base.length + l < vm.values.length ∧
    Here K a { st with locals := fun i => if i = id then o else st.locals i }
      { vm with values := vm.values.set (a.base.length + l) v } ip k := by
  obtain ⟨⟨last, slots, hat, hs1, hs2⟩, hgl⟩ := H
  have hlt : l < slots.length := by
    rw [hs1]
    exact Nat.lt_of_lt_of_le (lookup_lt ha.dense hl) ha.fits
  have hlive : a.base.length + l < (a.base ++ slots ++ k).length := by simp; omega
  refine ⟨Nat.lt_of_lt_of_le hlive hat.live.le, ⟨last, slots.set l v, ?_, ?_, ?_⟩, hgl⟩
  · refine ⟨hat.frames, ?_, hat.ctx, rfl, hat.world⟩
    have := hat.live.set hlive v
    rw [List.append_assoc, List.set_append_right _ _ (by omega)] at this
    simp only [Nat.add_sub_cancel_left] at this
    rw [List.set_append_left _ _ hlt] at this
    rw [List.append_assoc]
    exact this
  · simpa using hs1
  · intro id' sy' v' hid' hg' hmod' hown' hv'
    dsimp only at hv'
    by_cases he : id' = id
    · rw [if_pos he] at hv'
      rw [he, hid] at hid'
      cases hid'
      refine ⟨l, hl, ?_⟩
      rcases ho with ho | ho
      · rw [ho] at hv'; cases hv'
      · rw [ho] at hv'
        cases hv'
        simp [hlt]
    · rw [if_neg he] at hv'
      obtain ⟨j, hj, hsl⟩ := hs2 id' sy' v' hid' hg' hmod' hown' hv'
      refine ⟨j, hj, ?_⟩
      rw [List.getElem?_set_ne]
      · exact hsl
      · intro e
        subst e
        have := lookup_inj ha.dense hj hl
        obtain ⟨k1, e1, m1⟩ := hown'
        obtain ⟨k2, e2, m2⟩ := hown
        rcases ha.nested _ m1 _ m2 with h12 | h21
        · exact he (hK.outInj _ _ _ _ _ _ hid' hid hg' hg (hmod'.trans hmod.symm) (by rw [hmod']; exact ha.mod.user) e1 e2 h12 this)
        · exact he (hK.outInj _ _ _ _ _ _ hid hid' hg hg' (hmod.trans hmod'.symm) (by rw [hmod]; exact ha.mod.user) e2 e1 h21 this.symm).symm

/-- The slot `set_variable` uses. -/
theorem localSlot_ok {sym : SymRef} {l : Nat} {t : Gen} (h : localSlot sym s = .ok (l, t)) :
    lookup t.funcLocals sym.outId = some l ∧ t.ip = s.ip ∧
      t = { s with funcLocals := t.funcLocals } ∧ (Dense t.funcLocals → s.funcLocals <+: t.funcLocals) := by
  have hfr := fr_localSlot (sc := s.scope) sym s l t h rfl
  unfold localSlot at h
  gbind h with g t1 e1
  obtain ⟨hg1, hg2⟩ := get_ok e1
  rw [hg1, hg2] at h
  cases hl : lookup s.funcLocals sym.outId with
  | some l' =>
    rw [hl] at h
    obtain ⟨rfl, rfl⟩ := pure_ok h
    exact ⟨hl, rfl, rfl, hfr.locals⟩
  | none =>
    rw [hl] at h
    obtain ⟨rfl, rfl⟩ := Prod.mk.inj (Except.ok.inj h)
    exact ⟨lookup_store _ _ _, rfl, rfl, hfr.locals⟩

/-- `set_variable` and `writeVar`. -/
theorem sim_setVariable (hK : LinkOk K) {id : SymId} {sy : Sym} {u : Unit} {v : Val F} {o : Option (Val F)}
    (C : Code K a W lp s s')
    (hid : K.L.env.syms[id]? = some sy) (hc : W.canWrite id = true)
    (h : setVariable sy.toSymRef s = .ok (u, s')) (H : Here K a st vm s.ip (k ++ [v]))
    (ho : o = none ∨ o = some v) :
    Sim K a .strict lp vm k (Arrived K a s'.ip) (writeVar K.L id o st) := by
  unfold writeVar
  rw [hid]
  dsimp only
  unfold Wf.canWrite at hc
  rw [C.wf.lang, hid] at hc
  dsimp only at hc
  unfold setVariable at h
  by_cases hg : sy.isGlobal = true
  · rw [hg] at h hc ⊢
    simp only [if_true, Bool.and_eq_true, decide_eq_true_eq, Option.isNone_iff_eq_none] at h hc ⊢
    gbind h with i t e
    obtain ⟨hi, ht, -⟩ := nameIndex_ok e
    have X : Codegen.Fits a.cm.fin a.L t s' := by
      refine C.fits.right (b := 0) ?_
      subst ht
      exact { Step.refl 0 s with names := tableIndex_prefix _ _ }
    have hip0 : t.ip = s.ip := by rw [ht]
    obtain ⟨hins, hip⟩ := emit_ins C.act.mod X h (by decide)
    have hget : a.cm.fin.names[i]? = some sy.name := by
      refine prefix_get X.names ?_
      rw [emit_ok h]
      show t.names[i]? = _
      rw [ht, hi]
      exact tableIndex_get _ _
    rw [hip0] at hins hip
    obtain ⟨vm1, e1, h1⟩ := H.next C.act.mod hins
    obtain ⟨vm2, e2, h2⟩ := h1.pop
    have hctx := h2.ctx
    have hmod : sy.modPath = a.cm.path := by rw [hc.1, C.wf.mod]
    have h3 : Here K a { st with globals := fun q x => if q = sy.modPath ∧ x = sy.name then o else st.globals q x }
        { vm2 with globals := assocSet vm2.globals (vm2.ctx, sy.name) v } (s.ip + Op.setGlobal.size - 1) k := by
      obtain ⟨⟨last, slots, hat, hs1, hs2⟩, hgl⟩ := h2
      refine ⟨⟨last, slots, hat.setGlobals _, hs1, hs2⟩, ?_⟩
      rw [hctx]
      exact hgl.set hK (by rw [hmod]; exact C.act.mod.ref) hc.2 (by rw [hmod]; exact C.act.mod.user) ho
    obtain ⟨vm4, e4, h4⟩ := h3.advance
    refine ⟨vm4, [], Mode.junk_nil _, Runs.one ?_, ?_⟩
    · rw [e1]
      simp [exec, operand, C.act.mod.names, hget, orPanic, e2]
      exact e4
    · rw [List.append_nil]
      exact h4.move (by rw [hip, size_end])
  · have hg' : sy.isGlobal = false := by simpa using hg
    rw [hg'] at h hc ⊢
    simp only [Bool.false_eq_true, if_false, Wf.isLocal, hg', Bool.not_false, Bool.true_and,
      Bool.and_eq_true, decide_eq_true_eq] at h hc ⊢
    obtain ⟨hmod, hown⟩ := hc
    rw [C.wf.mod] at hmod
    replace hown := C.wf.inner hown
    gbind h with l t e
    obtain ⟨hl, hip0, ht, hpre⟩ := localSlot_ok e
    have X : Codegen.Fits a.cm.fin a.L t s' := by
      refine C.fits.right (b := 0) ?_
      rw [ht]
      exact { Step.refl 0 s with locals := hpre }
    obtain ⟨hins, hip⟩ := emit_ins C.act.mod X h (by decide)
    have hL : lookup a.L sy.outId = some l := by
      refine lookup_prefix X.locals ?_
      rw [emit_ok h]
      exact hl
    rw [hip0] at hins hip
    obtain ⟨vm1, e1, h1⟩ := H.next C.act.mod hins
    obtain ⟨f, fs, hf, hloc, -⟩ := h1.slot C.act hL
    obtain ⟨vm2, e2, h2⟩ := h1.pop
    obtain ⟨hlt, h3⟩ := h2.setSlot hK C.act hid hg' hmod hown hL ho
    obtain ⟨vm4, e4, h4⟩ := h3.advance
    refine ⟨vm4, [], Mode.junk_nil _, Runs.one ?_, ?_⟩
    · rw [e1]
      simp [exec, operand, VM.top, hf, hloc, orPanic, e2, hlt]
      exact e4
    · rw [List.append_nil]
      exact h4.move (by rw [hip, size_end])

end

/-! ## Blocks -/

/-- The running function inside one more block. -/
abbrev Act.inner (a : Act F) (x : ScopeId) : Act F := { a with chain := x :: a.chain }

section
variable {K : Link F} {a : Act F} {W : Wf} {st : St F} {vm : VM F} {k : List (Val F)} {ip : Nat} {x : ScopeId}

omit [FloatOps F] in
/-- What a block is checked for. -/
theorem WfOk.block (h : WfOk K a W) (hb : W.block x = true) :
    (K.L.env.scopes[x]?).bind (·.parent) = W.scope ∧ W.chain.head? = W.scope ∧
      (∀ i s, K.L.env.syms[i]? = some s → K.home i = some x → i ∈ K.L.env.ids x) ∧
      ∀ k ∈ a.chain, Above K.L.env k x := by
  simp only [Wf.block, Wf.inside, Bool.and_eq_true, decide_eq_true_eq, List.all_eq_true, List.mem_range,
    Bool.or_eq_true, ne_eq, decide_not, Bool.not_eq_true', decide_eq_false_iff_not] at hb
  obtain ⟨⟨hp, hh⟩, hi⟩ := hb
  rw [h.lang] at hp hi
  rw [h.home] at hi
  refine ⟨hp, hh, ?_, ?_⟩
  · intro i s hs hx
    rcases hi i (List.getElem?_eq_some_iff.1 hs).1 with e | e
    · exact absurd hx e
    · simpa using e
  · intro k hk
    obtain ⟨sc, e, ha⟩ := h.above hh k hk
    exact .up (hp.trans e) ha

theorem ActOk.inner (ha : ActOk K a) (hx : ∀ k ∈ a.chain, Above K.L.env k x) : ActOk K (a.inner x) where
  mod := ha.mod
  dense := ha.dense
  fits := ha.fits
  room := ha.room
  bp := ha.bp
  nested := by
    intro k hk l hl
    rcases List.mem_cons.1 hk with rfl | hk'
    · rcases List.mem_cons.1 hl with rfl | hl'
      · exact .inl .refl
      · exact .inr (hx l hl')
    · rcases List.mem_cons.1 hl with rfl | hl'
      · exact .inl (hx k hk')
      · exact ha.nested k hk' l hl'

omit [FloatOps F] in
theorem WfOk.into (h : WfOk K a W) (hb : W.block x = true) {W' : Wf} (h1 : W'.L = W.L) (h2 : W'.home = W.home)
    (h3 : W'.chain = x :: W.chain) (h4 : W'.mod = W.mod) (h5 : W'.calls = W.calls)
    (h6 : W'.scope = some x ∨ W'.scope = W.scope) : WfOk K (a.inner x) W' where
  lang := h1.trans h.lang
  home := h2.trans h.home
  chain := by rw [h3, h.chain]
  above := by
    obtain ⟨-, hh, -, hx⟩ := h.block hb
    intro e k hk
    have hs : W'.scope = some x := by rw [← e, h3]; rfl
    refine ⟨x, hs, ?_⟩
    rcases List.mem_cons.1 hk with rfl | hk
    · exact .refl
    · exact hx k hk
  mod := h4.trans h.mod
  calls := by rw [h5]; exact h.calls

omit [FloatOps F] in
theorem Inner.mono {i : SymId} (h : Inner K a i) : Inner K (a.inner x) i := by
  obtain ⟨k, e, hk⟩ := h
  exact ⟨k, e, List.mem_cons_of_mem _ hk⟩

/-- On entering a block nothing is known about its variables. -/
theorem Here.enter (h : Here K a st vm ip k) (hw : WfOk K a W) (hb : W.block x = true) :
    Here K (a.inner x) (st.entered K.L x) vm ip k := by
  obtain ⟨⟨last, slots, hat, h1, h2⟩, hg⟩ := h
  refine ⟨⟨last, slots, hat, h1, ?_⟩, hg⟩
  intro id s v hs hgl hm ⟨y, hy, hc⟩ hv
  unfold St.entered at hv
  dsimp only at hv
  split at hv
  · cases hv
  · rename_i hni
    rcases List.mem_cons.1 hc with rfl | hc
    · exact absurd ((hw.block hb).2.2.1 _ _ hs hy) hni
    · exact h2 id s v hs hgl hm ⟨y, hy, hc⟩ hv

/-- On leaving a block its variables are forgotten. -/
theorem Here.outer (h : Here K (a.inner x) st vm ip k) : Here K a st vm ip k := by
  obtain ⟨⟨last, slots, hat, h1, h2⟩, hg⟩ := h
  exact ⟨⟨last, slots, hat, h1, fun id s v hs hgl hm hi hv => h2 id s v hs hgl hm hi.mono hv⟩, hg⟩

theorem Sim.outer {m : Mode} {lp : Loop} {α : Type} {P Q : α → St F → VM F → List (Val F) → Prop} {o : Out F α}
    (h : Sim K (a.inner x) m lp vm k P o) (hpq : ∀ r st vm k, P r st vm k → Q r st vm k) : Sim K a m lp vm k Q o := by
  cases o with
  | stuck => trivial
  | fuel => trivial
  | fail msg w => exact h
  | leave c st =>
      cases c with
      | quebra => obtain ⟨h0, y, j, v, h1, h2, h3, h4⟩ := h; exact ⟨h0, y, j, v, h1, h2, h3, h4.outer⟩
      | continua => obtain ⟨h0, y, j, v, h1, h2, h3, h4⟩ := h; exact ⟨h0, y, j, v, h1, h2, h3, h4.outer⟩
      | retorna w => obtain ⟨h0, y, j, v, h1, h2, h3, h4⟩ := h; exact ⟨h0, y, j, v, h1, h2, h3, h4.outer⟩
  | done r st => obtain ⟨v, j, h1, h2, h3⟩ := h; exact ⟨v, j, h1, h2, hpq _ _ _ _ h3⟩

/-- The code inside a block. -/
theorem Code.into {lp lp' : Loop} {s s' t t' : Gen} (C : Code K a W lp s s') (hb : W.block x = true) {W' : Wf} (h1 : W'.L = W.L)
    (h2 : W'.home = W.home) (h3 : W'.chain = x :: W.chain) (h4 : W'.mod = W.mod) (h5 : W'.calls = W.calls)
    (h6 : W'.scope = some x ∨ W'.scope = W.scope) (hs : t.scope = W'.scope) (hf : Codegen.Fits a.cm.fin a.L t t')
    (hl : loopOf a W' t = lp') : Code K (a.inner x) W' lp' t t' :=
  ⟨C.act.inner (C.wf.block hb).2.2.2, C.wf.into hb h1 h2 h3 h4 h5 h6, hs, hf, hl⟩

end

end Compiled

end Amanda

import Verif.LinkImage
import Verif.Sim

/-!
# A loaded program and its source

For every module of a compiled program the facts the simulation (`Verif.Sim`) needs: `CModOk` for its
tables and `FunCode` for its functions.
-/

namespace Amanda

namespace Compiled

open Source Codegen

variable {F : Type} [FloatOps F]

/-- The context a module is generated in. -/
def _root_.Amanda.Source.Prog.ctx (P : Prog) (m : ModuleIn) : GenCtx :=
  { env := P.env, modPath := m.path, builtinPath := P.builtinPath, modules := P.imports.map ModuleIn.path }

/-- The loaded module of a path. -/
def progRef (P : Prog) (p : String) : Option ModRef :=
  match indexIn p (P.imports.map ModuleIn.path) with
  | some i => some (.imp i)
  | none => if p = P.main.path then some .main else none

/-- The link between a program and its loaded image, when the functions of the modules `loaded` are
known to the machine. -/
def progLink (cfg : Cfg) (P : Prog) (home : SymId → Option ScopeId) (prog : Program F) (loaded : String → Bool) :
    Link F :=
  { cfg := cfg, prog := prog, L := P.lang, home := home, ref := progRef P, loaded := loaded }

/-- The tables the generator makes for the modules of a program: no local has two slots, no two locals
share one, and the slots of the statements of a module fit into the 256 values the machine starts with
(vm.rs:19, 95). -/
structure SlotsFit (P : Prog) : Prop where
  tables : ∀ m ∈ P.modules, m.builtin = false → ∀ fin, genModule (P.ctx m) m {} = .ok ((), fin) → Tables fin
  start : ∀ m ∈ P.modules, m.builtin = false → ∀ fin, genModule (P.ctx m) m {} = .ok ((), fin) →
    fin.funcLocals.length ≤ 256

/-- Module `m`, compiled and loaded. -/
structure Built (P : Prog) (home : SymId → Option ScopeId) (prog : Program F) (m : ModuleIn) (calls : Bool)
    (ref : ModRef) (mod : Module F) (fin s0 s1 : Gen) : Prop where
  mem : m ∈ P.modules
  user : m.builtin = false
  refOf : progRef P m.path = some ref
  get : prog.get ref = some mod
  main : mod.main.module = .main ∧ mod.main.ip = 0 ∧ mod.main.name = "_inicio_"
  builtin : mod.builtin = false
  ok : okSs (P.wf home m calls) m.body = true
  gen : ModGen (P.ctx m) m (P.wf home m calls) fin s0 s1
  locals : Small fin.funcLocals ∧ fin.funcLocals.length ≤ 256
  code : writeAll fin.labels fin.ops = .ok mod.code
  names : mod.names = fin.names
  consts : ∀ (i : Nat) c, fin.consts[i]? = some c → ∃ v, constVal c = some v ∧ mod.constants[i]? = some v
  ints : ∀ n, ConstKey.int n ∈ fin.consts → InI64 n
  funcs : mod.functions = fin.funcs.map FuncOut.load
  registos : mod.registos = fin.registos.map fun r => ⟨r.name, r.fields⟩
  src : ∃ n, mod.srcMap.length = 3 * n

theorem flattenSrc_length {l : List (Int × List Nat)} {r : List Int} (h : flattenSrc l = .ok r) :
    ∃ n, r.length = 3 * n := by
  induction l generalizing r with
  | nil => cases Except.ok.inj h; exact ⟨0, rfl⟩
  | cons p l ih =>
      obtain ⟨line, offs⟩ := p
      unfold flattenSrc at h
      by_cases hl : line = 0
      · rw [if_pos hl] at h
        exact ih h
      · rw [if_neg hl] at h
        obtain ⟨e, he, h⟩ := except_bind_eq_ok.1 h
        obtain ⟨r', hr, h⟩ := except_bind_eq_ok.1 h
        obtain ⟨n, hn⟩ := ih hr
        cases Except.ok.inj h
        have : e.length = 3 := by
          unfold srcEntry at he
          split at he
          · cases Except.ok.inj he; rfl
          · cases Except.ok.inj he; rfl
          · cases he
        exact ⟨n + 1, by simp [this, hn]; omega⟩

/-! ## Paths -/

theorem indexIn_map {ms : List ModuleIn} (h : (ms.map ModuleIn.path).Nodup) {i : Nat} {m : ModuleIn}
    (hi : ms[i]? = some m) : indexIn m.path (ms.map ModuleIn.path) = some i := by
  induction ms generalizing i with
  | nil => cases hi
  | cons x xs ih =>
      have hn := List.nodup_cons.1 h
      cases i with
      | zero => cases hi; simp [indexIn]
      | succ i =>
          have hx : m ∈ xs := List.mem_of_getElem? hi
          have : x.path ≠ m.path := by
            intro e
            exact hn.1 (e ▸ List.mem_map_of_mem hx)
          simp only [List.map_cons, indexIn, if_neg this]
          rw [ih hn.2 hi]
          rfl

theorem indexIn_get {x : String} {l : List String} {i : Nat} (h : indexIn x l = some i) : l[i]? = some x := by
  induction l generalizing i with
  | nil => cases h
  | cons y ys ih =>
      unfold indexIn at h
      by_cases hy : y = x
      · rw [if_pos hy] at h
        cases h
        simp [hy]
      · rw [if_neg hy] at h
        cases hi : indexIn x ys with
        | none => rw [hi] at h; cases h
        | some j =>
            rw [hi] at h
            cases h
            simpa using ih hi

theorem progRef_import {P : Prog} (h : (P.modules.map ModuleIn.path).Nodup) {i : Nat} {m : ModuleIn}
    (hi : P.imports[i]? = some m) : progRef P m.path = some (.imp i) := by
  unfold progRef
  unfold Prog.modules at h
  rw [List.map_append] at h
  rw [indexIn_map (List.nodup_append.1 h).1 hi]

theorem progRef_main {P : Prog} (h : (P.modules.map ModuleIn.path).Nodup) : progRef P P.main.path = some .main := by
  unfold progRef
  unfold Prog.modules at h
  rw [List.map_append] at h
  cases hi : indexIn P.main.path (P.imports.map ModuleIn.path) with
  | none => simp
  | some i =>
      exact absurd rfl ((List.nodup_append.1 h).2.2 _ (List.mem_of_getElem? (indexIn_get hi)) P.main.path (by simp))

theorem progRef_inj {P : Prog} {p q : String} {r : ModRef} (hp : progRef P p = some r) (hq : progRef P q = some r) :
    p = q := by
  unfold progRef at hp hq
  cases h1 : indexIn p (P.imports.map ModuleIn.path) with
  | some i =>
      rw [h1] at hp
      cases hp
      cases h2 : indexIn q (P.imports.map ModuleIn.path) with
      | some j =>
          rw [h2] at hq
          cases hq
          have e1 := indexIn_get h1
          have e2 := indexIn_get h2
          rw [e1] at e2
          exact Option.some.inj e2
      | none =>
          rw [h2] at hq
          simp only at hq
          split at hq <;> cases hq
  | none =>
      rw [h1] at hp
      simp only at hp
      split at hp
      · rename_i e
        cases hp
        cases h2 : indexIn q (P.imports.map ModuleIn.path) with
        | some j => rw [h2] at hq; cases hq
        | none =>
            rw [h2] at hq
            simp only at hq
            split at hq
            · rename_i e2; rw [e, e2]
            · cases hq
      · cases hp

theorem find_of_path {ms : List ModuleIn} (h : (ms.map ModuleIn.path).Nodup) {m : ModuleIn} (hm : m ∈ ms) :
    ms.find? (fun x => decide (x.path = m.path)) = some m := by
  induction ms with
  | nil => cases hm
  | cons x xs ih =>
      have hn := List.nodup_cons.1 h
      rcases List.mem_cons.1 hm with e | hx
      · subst e; simp
      · have : x.path ≠ m.path := by
          intro e
          exact hn.1 (e ▸ List.mem_map_of_mem hx)
        rw [List.find?_cons_of_neg (by simpa using this)]
        exact ih hn.2 hx

theorem find_mem {P : Prog} {p : String} {m : ModuleIn} (h : P.find p = some m) : m ∈ P.modules ∧ m.path = p := by
  unfold Prog.find at h
  exact ⟨List.mem_of_find?_eq_some h, by simpa using List.find?_some h⟩

/-! ## Modules -/

section
variable {cfg : Cfg} {P : Prog} {home : SymId → Option ScopeId} {prog : Program F} {m : ModuleIn} {calls : Bool}
  {ref : ModRef} {mod : Module F} {fin s0 s1 : Gen}

/-- The compiled module as the simulation sees it. -/
def cmod (P : Prog) (m : ModuleIn) (ref : ModRef) (mod : Module F) (fin : Gen) : CMod F :=
  ⟨m.path, P.ctx m, fin, ref, mod⟩

theorem Built.cmodOk (B : Built P home prog m calls ref mod fin s0 s1) (hP : P.Ok home)
    (hlen : prog.imports.length = P.imports.length) (loaded : String → Bool) :
    CModOk (progLink cfg P home prog loaded) (cmod P m ref mod fin) where
  get := B.get
  code := B.code
  formed := B.gen.formed
  fit := B.gen.fit
  consts := B.consts
  ints := B.ints
  names := B.names
  registos := B.registos
  src := B.src
  env := rfl
  path := rfl
  bpath := rfl
  ref := B.refOf
  imports := by
    intro q i hi
    change indexIn q (P.imports.map ModuleIn.path) = some i at hi
    refine ⟨?_, ?_⟩
    · show progRef P q = _
      unfold progRef
      rw [hi]
    · have := (List.getElem?_eq_some_iff.1 (indexIn_get hi)).1
      show i < prog.imports.length
      rw [hlen]
      simpa using this
  tag := by
    intro id
    show P.tag m.path id = indexIn id fin.variants
    unfold Prog.tag
    have : P.find m.path = some m := find_of_path hP.paths B.mem
    rw [this, B.gen.variants, indexIn_idxOf]
  user := by
    show m.path ≠ P.builtinPath
    obtain ⟨x, xs, h1, h2, h3, -⟩ := hP.first
    intro e
    have hx : x ∈ P.modules := by simp [Prog.modules, h1]
    have f1 := find_of_path hP.paths B.mem
    have f2 := find_of_path hP.paths hx
    rw [h3, ← e, f1] at f2
    cases f2
    have := B.user
    rw [h2] at this
    cases this

theorem listed_find {ctx : GenCtx} {fin : Gen} {W : Wf} {ds : List (SymId × ScopeId × List TStmt)}
    {fos : List FuncOut} (h : AllListed ctx fin W ds fos) {d : SymId × ScopeId × List TStmt} (hd : d ∈ ds) :
    ∃ fo ∈ fos, Listed ctx fin W d fo := by
  induction ds generalizing fos with
  | nil => cases hd
  | cons x xs ih =>
      cases fos with
      | nil => cases h
      | cons fo fos =>
          rcases List.mem_cons.1 hd with e | hd
          · subst e; exact ⟨fo, by simp, h.1⟩
          · obtain ⟨fo', h1, h2⟩ := ih h.2 hd
            exact ⟨fo', by simp [h1], h2⟩

theorem listed_names {ctx : GenCtx} {fin : Gen} {W : Wf} {ds : List (SymId × ScopeId × List TStmt)}
    {fos : List FuncOut} (h : AllListed ctx fin W ds fos) :
    fos.map (fun f => some f.name) = ds.map fun d => (ctx.env.syms[d.1]?).map fun f => f.name := by
  induction ds generalizing fos with
  | nil =>
      cases fos with
      | nil => rfl
      | cons => cases h
  | cons x xs ih =>
      cases fos with
      | nil => cases h
      | cons fo fos =>
          obtain ⟨f, h1, h2, -⟩ := h.1.sym
          rw [List.map_cons, List.map_cons, ih h.2, h1, h2]
          rfl

/-- Every function of the module is known under its name, once its functions have been added. -/
theorem Built.funCode (B : Built P home prog m calls ref mod fin s0 s1) (hP : P.Ok home)
    (hlen : prog.imports.length = P.imports.length) (loaded : String → Bool) {n : String} {d : FunDecl}
    (hd : P.funs m.path n = some d) :
    ∃ gf ∈ mod.functions, gf.name = n ∧ ∃ sym t0 t1,
      FunCode (progLink cfg P home prog loaded) m.path d gf (cmod P m ref mod fin) sym t0 t1 := by
  unfold Prog.funs at hd
  have hfind : P.find m.path = some m := find_of_path hP.paths B.mem
  rw [hfind] at hd
  simp only [B.user] at hd
  obtain ⟨e, he, hde⟩ := List.exists_of_findSome?_eq_some (show (funcDecls m.body).findSome? (declOf P.env n) = some d from hd)
  obtain ⟨sy, x, body⟩ := e
  unfold declOf at hde
  cases hs : P.env.syms[sy]? with
  | none => simp [hs] at hde
  | some f =>
      simp only [hs] at hde
      have hfn : f.name = n ∧ f.builtin = false := by
        refine Decidable.byContradiction fun h => ?_
        rw [if_neg h] at hde
        cases hde
      rw [if_pos hfn] at hde
      obtain ⟨hfn, hfb⟩ := hfn
      cases hde
      obtain ⟨fo, hfo, Li⟩ := listed_find B.gen.funcs he
      obtain ⟨f', hf', hname, hmod, hpl⟩ := Li.sym
      have : some f = some f' := hs.symm.trans hf'
      cases this
      obtain ⟨t0, t1, pl⟩ := hpl hfb
      obtain ⟨hhead, hbody⟩ := Li.ok
      change (P.wf home m calls).header sy x body = true at hhead
      unfold Wf.header at hhead
      simp only [Bool.and_eq_true] at hhead
      have hh := hhead.2
      change (P.env.syms[sy]?).any _ = true at hh
      rw [hs] at hh
      simp only [Option.any_some, Bool.and_eq_true, Bool.or_eq_true, decide_eq_true_eq, hfb, Bool.false_eq_true,
        false_or] at hh
      obtain ⟨hpath, ⟨hloc, hnd⟩, htidy⟩ := hh
      change f.modPath = m.path at hpath
      have hb2 : okSs ((P.wf home m calls).funcIn x) body = true := by
        rcases hbody with h | h
        · change (P.env.syms[sy]?).any _ = true at h
          rw [hs] at h
          simp [hfb] at h
        · exact h
      have hloc' : ∀ p ∈ f.params, ∃ sp, P.env.syms[p]? = some sp ∧ sp.isGlobal = false ∧ sp.modPath = m.path ∧
          home p = some x := by
        intro p hp
        have := List.all_eq_true.1 hloc p hp
        unfold Wf.local at this
        change (match P.env.syms[p]? with | none => false | some s => ((P.wf home m calls).funcIn x).isLocal p s) = true at this
        cases hsp : P.env.syms[p]? with
        | none => rw [hsp] at this; cases this
        | some sp =>
            rw [hsp] at this
            simp only [Wf.isLocal, Bool.and_eq_true, decide_eq_true_eq, Bool.not_eq_true'] at this
            refine ⟨sp, rfl, by simpa using this.1.1, this.1.2, ?_⟩
            have hh := this.2
            change (home p).any [x].contains = true at hh
            cases hk : home p with
            | none => rw [hk] at hh; cases hh
            | some y => rw [hk] at hh; simpa using hh
      have hcm := B.cmodOk (cfg := cfg) hP hlen loaded
      have hslots := paramLocals_slots pl.params hnd (by
        intro p hp q hq sp sq h1 h2 h3
        obtain ⟨sp', g1, g2, g3, g4⟩ := hloc' p hp
        obtain ⟨sq', k1, k2, k3, k4⟩ := hloc' q hq
        change P.env.syms[p]? = some sp at h1
        change P.env.syms[q]? = some sq at h2
        rw [g1] at h1
        rw [k1] at h2
        cases h1
        cases h2
        exact hP.outIds p q _ _ _ _ g1 k1 g2 k2 (g3.trans k3.symm) (by rw [g3]; exact hcm.user) g4 k4 .refl h3) (by
        intro p _ sp _; rfl)
      refine ⟨FuncOut.load fo, ?_, hname.trans hfn, sy, t0, t1, ?_⟩
      · rw [B.funcs]; exact List.mem_map_of_mem hfo
      refine ⟨hcm, rfl, pl.start, rfl, pl.locals, ?_, pl.gen, pl.scope, pl.fits, pl.small.1, ?_, ?_, ?_, ?_, ?_⟩
      · show (FuncOut.load fo).module.ref = ref
        have hr := B.refOf
        unfold progRef at hr
        unfold FuncOut.load
        change fo.module = (match indexIn f.modPath (P.imports.map ModuleIn.path) with
          | some i => (i : Int) | none => -1) at hmod
        rw [hpath] at hmod
        cases hi : indexIn m.path (P.imports.map ModuleIn.path) with
        | some i =>
            rw [hi] at hr hmod
            cases hr
            simp [hmod, FuncModule.ref]
        | none =>
            rw [hi] at hr hmod
            simp only at hr
            split at hr
            · cases hr
              simp [hmod, FuncModule.ref]
            · cases hr
      · rw [hslots.2.1]; simp
      · intro k id hk
        obtain ⟨sp, h1, h2⟩ := hslots.2.2 k id hk
        exact ⟨sp, h1, by simpa using h2⟩
      · obtain ⟨u0, u1, u2, e0, l1, l2, f1, f2⟩ := pl.last
        unfold loadConst at l1
        gbind l1 with i v1 c1
        obtain ⟨ci, ce, -⟩ := constIndex_ok c1
        have x1 : Codegen.Fits fin t1.funcLocals v1 u1 := by
          refine f1.right (b := 0) ?_
          subst ce
          exact { Step.refl 0 u0 with consts := tableIndex_prefix _ _ }
        obtain ⟨i1, p1⟩ := emit_ins hcm x1 l1 (by decide)
        obtain ⟨i2, p2⟩ := emit_ins hcm f2 l2 (by decide)
        have hip : v1.ip = t1.ip := by rw [ce]; exact e0
        refine ⟨i, by rw [← hip]; exact i1, ?_, ?_⟩
        · refine prefix_get x1.consts ?_
          rw [emit_ok l1]
          show v1.consts[i]? = _
          rw [ce, ci]
          exact tableIndex_get _ _
        · rw [← hip]
          have : v1.ip + 3 = u1.ip := p1.symm
          rw [this]
          exact i2
      · exact hb2
      · intro hnil
        rcases htidy with (h | h) | h
        · exfalso
          have hfr := fr_genStmts (P.ctx m) ((P.wf home m calls).funcIn x) rfl body hb2 _ _ _ pl.gen pl.scope
          have h1 := (hfr.locals pl.small.1).length_le
          rw [hnil, hslots.2.1] at h1
          cases hp : f.params with
          | nil => rw [hp] at h; cases h
          | cons a b => rw [hp] at h1; simp at h1
        · exact h
        · exfalso
          exact stmts_slot (W := (P.wf home m calls).funcIn x) rfl body hb2 pl.scope pl.gen pl.small.1 h hnil

end

end Compiled

end Amanda

import Verif.LinkProg

/-!
# Running a loaded program

The machine runs the modules of a compiled program one after the other as `Prog.eval` says.
-/

namespace Amanda

namespace Compiled

open Source Codegen

variable {F : Type} [FloatOps F]

/-! ## Compiled and loaded modules -/

/-- What a successful compilation of a module leaves. -/
theorem compileModule_fin {ctx : GenCtx} {m : ModuleIn} {out : ModuleOut} (h : compileModule ctx m = .ok out)
    (hb : m.builtin = false) :
    ∃ fin, genModule { ctx with modPath := m.path } m {} = .ok ((), fin) ∧ writeAll fin.labels fin.ops = .ok out.code ∧
      out.builtin = false ∧ out.names = fin.names ∧ out.consts = fin.consts ∧ out.funcs = fin.funcs ∧
      out.registos = fin.registos ∧ ∃ n, out.srcMap.length = 3 * n := by
  unfold compileModule at h
  rw [if_neg (by simp [hb])] at h
  cases hg : genModule { ctx with modPath := m.path } m {} with
  | error e => rw [hg] at h; cases h
  | ok p =>
      obtain ⟨⟨⟩, s⟩ := p
      rw [hg] at h
      simp only [finish, except_bind_eq_ok] at h
      obtain ⟨code, hc, src, hs, h⟩ := h
      have hw : writeAll s.labels s.ops = .ok code := by
        cases hx : writeAll s.labels s.ops with
        | error e => rw [hx] at hc; cases hc
        | ok c => rw [hx] at hc; cases hc; rfl
      cases h
      exact ⟨s, rfl, hw, rfl, rfl, rfl, rfl, rfl, flattenSrc_length hs⟩

theorem consts_load {P : Prog} {home : SymId → Option ScopeId} (hP : P.Ok home) (hS : SlotsFit P) {m : ModuleIn}
    (hm : m ∈ P.modules) {out : ModuleOut}
    (h : compileModule { env := P.env, modPath := P.main.path, builtinPath := P.builtinPath
                         modules := P.imports.map ModuleIn.path } m = .ok out) : ∀ c ∈ out.consts, Loads c := by
  by_cases hb : m.builtin = true
  · unfold compileModule at h
    rw [if_pos hb] at h
    cases h
    intro c hc
    cases hc
  · have hb : m.builtin = false := by simpa using hb
    obtain ⟨fin, hg, -, -, -, hc, -⟩ := compileModule_fin h hb
    have hT := hS.tables m hm hb fin hg
    have hok : ∃ calls, okSs (P.wf home m calls) m.body = true := by
      rcases List.mem_append.1 hm with h | h
      · exact ⟨false, hP.imports m h hb⟩
      · rw [List.mem_singleton.1 h]; exact ⟨true, hP.main.2⟩
    obtain ⟨calls, hok⟩ := hok
    obtain ⟨s0, s1, G⟩ := genModule_gen (W := P.wf home m calls) rfl rfl hok hT hg
    rw [hc]
    exact G.consts

theorem built_of {P : Prog} {home : SymId → Option ScopeId} (hS : SlotsFit P) {prog : Program F} {m : ModuleIn}
    (hm : m ∈ P.modules) {calls : Bool} (hok : okSs (P.wf home m calls) m.body = true) (hb : m.builtin = false)
    {ref : ModRef} (hr : progRef P m.path = some ref) {mod : Module F} (hg : prog.get ref = some mod) {out : ModuleOut}
    (hc : compileModule { env := P.env, modPath := P.main.path, builtinPath := P.builtinPath
                          modules := P.imports.map ModuleIn.path } m = .ok out) (hl : Loaded out mod) :
    ∃ fin s0 s1, Built P home prog m calls ref mod fin s0 s1 := by
  obtain ⟨fin, hgen, hw, ob, on, oc, of', or', n, os⟩ := compileModule_fin hc hb
  have hT := hS.tables m hm hb fin hgen
  obtain ⟨s0, s1, G⟩ := genModule_gen (W := P.wf home m calls) rfl rfl hok hT hgen
  exact ⟨fin, s0, s1, hm, hb, hr, hg, hl.main, hl.builtin.trans ob, hok, G, ⟨hT.locals, hS.start m hm hb fin hgen⟩,
    by rw [hl.code]; exact hw, hl.names.trans on, oc ▸ hl.consts, oc ▸ hl.ints, by rw [hl.funcs, of'],
    by rw [hl.registos, or'], n, by rw [hl.src, List.length_map, os]⟩

/-! ## Globals at the start of a module -/

theorem foldl_set_get {A : Type} [DecidableEq A] {V I : Type} (key : I → A) (val : I → V) (l : List I) (g : List (A × V))
    (hn : (l.map key).Nodup) {x : I} (hx : x ∈ l) :
    assocGet (l.foldl (fun g i => assocSet g (key i) (val i)) g) (key x) = some (val x) := by
  induction l generalizing g with
  | nil => cases hx
  | cons y ys ih =>
      have hn' := List.nodup_cons.1 hn
      rcases List.mem_cons.1 hx with e | hx
      · subst e
        have : ∀ (zs : List I) (g : List (A × V)), (∀ z ∈ zs, key z ≠ key x) →
            assocGet (zs.foldl (fun g i => assocSet g (key i) (val i)) g) (key x) = assocGet g (key x) := by
          intro zs
          induction zs with
          | nil => intro g _; rfl
          | cons z zs ihz =>
              intro g hz
              rw [List.foldl_cons, ihz _ fun w hw => hz w (by simp [hw]), assocGet_set, if_neg (hz z (by simp))]
        rw [List.foldl_cons, this ys _ ?_, assocGet_set, if_pos rfl]
        intro z hz e
        exact hn'.1 (e ▸ List.mem_map_of_mem hz)
      · exact ih _ hn'.2 hx

theorem foldl_set_other {A : Type} [DecidableEq A] {V I : Type} (key : I → A) (val : I → V) (l : List I)
    (g : List (A × V)) {k : A} (hk : ∀ x ∈ l, key x ≠ k) :
    assocGet (l.foldl (fun g i => assocSet g (key i) (val i)) g) k = assocGet g k := by
  induction l generalizing g with
  | nil => rfl
  | cons z zs ih =>
      rw [List.foldl_cons, ih _ fun w hw => hk w (by simp [hw]), assocGet_set, if_neg (hk z (by simp))]

theorem assocGet_mem {A B : Type} [DecidableEq A] {l : List (A × B)} {k : A} {v : B} (h : assocGet l k = some v) :
    (k, v) ∈ l := by
  induction l with
  | nil => cases h
  | cons p l ih =>
      obtain ⟨k', v'⟩ := p
      unfold assocGet at h
      by_cases hk : k' = k
      · rw [if_pos hk] at h
        cases h
        simp [hk]
      · rw [if_neg hk] at h
        exact List.mem_cons_of_mem _ (ih h)

/-! ## More functions become known -/

theorem CModOk.reload {K : Link F} {cm : CMod F} (h : CModOk K cm) (l : String → Bool) :
    CModOk { K with loaded := l } cm :=
  ⟨h.get, h.code, h.formed, h.fit, h.consts, h.ints, h.names, h.registos, h.src, h.env, h.path, h.bpath, h.ref,
    h.imports, h.tag, h.user⟩

theorem FunCode.reload {K : Link F} {p : String} {d : FunDecl} {gf : AmaFunc} {cm : CMod F} {sym : SymId} {s0 s1 : Gen}
    (h : FunCode K p d gf cm sym s0 s1) (l : String → Bool) : FunCode { K with loaded := l } p d gf cm sym s0 s1 :=
  ⟨h.mod.reload l, h.path, h.start, h.bp, h.size, h.ref, h.gen, h.scope, h.fits, h.dense, h.count, h.params, h.last,
    h.wf, h.tidy⟩

/-! ## Runs -/

theorem runLoop_ok {cfg : Cfg} {prog : Program F} {vm vm' : VM F} (n : Nat) (h : step cfg prog vm = .ok vm') :
    runLoop cfg prog (n + 1) vm = runLoop cfg prog n vm' := by simp only [runLoop, h]

theorem runLoop_halt {cfg : Cfg} {prog : Program F} {vm vm' : VM F} (n : Nat)
    (h : step cfg prog vm = .error (.halt vm')) : runLoop cfg prog (n + 1) vm = .done vm' := by simp only [runLoop, h]

theorem Runs.loop {K : Link F} {vm vm' : VM F} (h : Runs K vm vm') :
    ∃ k, ∀ f, runLoop K.cfg K.prog (k + f) vm = runLoop K.cfg K.prog f vm' := by
  induction h with
  | refl => exact ⟨0, fun f => by rw [Nat.zero_add]⟩
  | head hs _ ih =>
      obtain ⟨k, hk⟩ := ih
      refine ⟨k + 1, fun f => ?_⟩
      rw [show k + 1 + f = (k + f) + 1 by omega, runLoop_ok _ hs]
      exact hk f

theorem RunsErr.loop {K : Link F} {vm : VM F} {msg : String} {w : World F} (h : RunsErr K vm msg w) :
    ∃ k pre vm', vm'.world = w ∧ ∀ f, k ≤ f → runLoop K.cfg K.prog f vm = .err (pre ++ msg ++ ".") vm' := by
  obtain ⟨vm1, vm2, pre, h1, h2, h3⟩ := h
  obtain ⟨k, hk⟩ := h1.loop
  refine ⟨k + 1, pre, vm2, h3, fun f hf => ?_⟩
  obtain ⟨j, rfl⟩ : ∃ j, f = k + (j + 1) := ⟨f - k - 1, by omega⟩
  rw [hk]
  unfold runLoop
  rw [h2]

theorem Long.loop {K : Link F} : ∀ {k f : Nat} {vm : VM F}, Long K k vm → f ≤ k →
    ∃ vm', runLoop K.cfg K.prog f vm = .outOfFuel vm'
  | _, 0, vm, _, _ => ⟨vm, rfl⟩
  | 0, f + 1, _, _, h => absurd h (Nat.not_succ_le_zero f)
  | k + 1, f + 1, vm, ⟨vm', hs, hl⟩, h => by
      rw [runLoop_ok f hs]
      exact hl.loop (Nat.le_of_succ_le_succ h)

/-- A run that ends does so in the same way when given more time. -/
def Steady (run : Nat → Outcome F) : Prop := ∀ f g, f ≤ g → (∃ vm, run f = .outOfFuel vm) ∨ run f = run g

theorem runLoop_steady (cfg : Cfg) (prog : Program F) : ∀ vm, Steady fun f => runLoop cfg prog f vm := by
  intro vm f
  induction f generalizing vm with
  | zero => exact fun g _ => .inl ⟨vm, rfl⟩
  | succ f ih =>
      intro g hg
      obtain ⟨g, rfl⟩ : ∃ j, g = j + 1 := ⟨g - 1, by omega⟩
      simp only [runLoop]
      cases step cfg prog vm with
      | ok vm' => exact ih vm' g (by omega)
      | error e => cases e <;> exact .inr rfl

theorem runModule_steady (cfg : Cfg) (prog : Program F) (ref : ModRef) (m : Module F) (vm : VM F) :
    Steady fun f => runModule cfg prog f ref m vm := by
  intro f g h
  unfold runModule
  cases initModule ref m vm with
  | none => exact .inr rfl
  | some vm' => exact runLoop_steady cfg prog _ f g h

theorem runImports_steady (cfg : Cfg) (prog : Program F) :
    ∀ (i : Nat) (ms : List (Module F)) (vm : VM F), Steady fun f => runImports cfg prog f i ms vm
  | _, [], _ => fun _ _ _ => .inr rfl
  | i, m :: ms, vm => by
      intro f g h
      simp only [runImports]
      rcases runModule_steady cfg prog (.imp i) m vm f g h with ⟨vm', e⟩ | e <;> simp only at e
      · rw [e]; exact .inl ⟨vm', rfl⟩
      · rw [← e]
        cases runModule cfg prog f (.imp i) m vm with
        | done vm' => exact runImports_steady cfg prog (i + 1) ms vm' f g h
        | _ => exact .inr rfl

/-- A machine that has stopped does nothing more. -/
theorem runProgram_steady (cfg : Cfg) (prog : Program F) (inp : List String) : Steady fun f => runProgram cfg prog f inp := by
  intro f g h
  simp only [runProgram]
  rcases runImports_steady cfg prog 0 prog.imports (VM.new inp) f g h with ⟨vm', e⟩ | e <;> simp only at e
  · rw [e]; exact .inl ⟨vm', rfl⟩
  · rw [← e]
    cases runImports cfg prog f 0 prog.imports (VM.new inp) with
    | done vm' => exact runModule_steady cfg prog .main prog.main vm' f g h
    | _ => exact .inr rfl

/-! ## One module -/

/-- The machine between two modules. -/
structure Ready (cfg : Cfg) (P : Prog) (home : SymId → Option ScopeId) (prog : Program F) (loaded : String → Bool)
    (st : St F) (vm : VM F) : Prop where
  globals : GlobalsOk (progLink cfg P home prog loaded) st.globals vm.globals
  world : vm.world = st.world
  room : 256 ≤ vm.values.length

/-- A run ends as the source program says. -/
def Ends (cfg : Cfg) (P : Prog) (home : SymId → Option ScopeId) (prog : Program F) (loaded : String → Bool)
    (run : Nat → Outcome F) : Out F Unit → Prop
  | .done _ st => ∃ k vm, Ready cfg P home prog loaded st vm ∧ ∀ f, k ≤ f → run f = .done vm
  | .fail msg w => ∃ k pre vm, vm.world = w ∧ ∀ f, k ≤ f → run f = .err (pre ++ msg ++ ".") vm
  | .fuel k => ∀ f, f ≤ k → ∃ vm, run f = .outOfFuel vm
  | _ => True

theorem Runs.done {K : Link F} {vm vm1 vm2 : VM F} (h : Runs K vm vm1)
    (hs : step K.cfg K.prog vm1 = .error (.halt vm2)) :
    ∃ k, ∀ f, k ≤ f → runLoop K.cfg K.prog f vm = .done vm2 := by
  obtain ⟨k, hk⟩ := h.loop
  refine ⟨k + 1, fun f hf => ?_⟩
  obtain ⟨j, rfl⟩ : ∃ j, f = k + (j + 1) := ⟨f - k - 1, by omega⟩
  rw [hk]
  exact runLoop_halt j hs

section
variable {cfg : Cfg} {P : Prog} {home : SymId → Option ScopeId} {prog : Program F} {m : ModuleIn} {calls : Bool}
  {ref : ModRef} {mod : Module F} {fin s0 s1 : Gen} {loaded loaded' : String → Bool} {st : St F} {vm : VM F}

/-- The globals after the functions of a module were added. -/
theorem user_globals (B : Built P home prog m calls ref mod fin s0 s1) (hP : P.Ok home)
    (hlen : prog.imports.length = P.imports.length)
    (hl : ∀ p, loaded' p = true → loaded p = true ∨ p = m.path)
    (h : GlobalsOk (progLink cfg P home prog loaded) st.globals vm.globals) :
    GlobalsOk (progLink cfg P home prog loaded') (st.begin m.path []).globals
      (mod.functions.foldl (fun g f => assocSet g (ref, f.name) (.func f)) vm.globals) := by
  have hnames : (mod.functions.map fun f => (ref, f.name)).Nodup := by
    have h1 := hP.names m B.mem
    have h2 := listed_names B.gen.funcs
    unfold funcNames at h1
    change fin.funcs.map (fun f => some f.name) = (funcDecls m.body).map fun d => (P.env.syms[d.1]?).map fun f => f.name at h2
    rw [← h2] at h1
    rw [B.funcs, List.map_map]
    have h3 : (fin.funcs.map fun f => some f.name) = (fin.funcs.map fun f => (ref, f.name)).map fun p => some p.2 := by
      rw [List.map_map]; rfl
    rw [h3] at h1
    exact List.Pairwise.of_map (fun p : ModRef × String => some p.2) (by
      intro a b hab e
      exact hab (by rw [e])) h1
  have hother : ∀ r n, r ≠ ref → assocGet (mod.functions.foldl (fun g f => assocSet g (ref, f.name) (.func f)) vm.globals) (r, n)
      = assocGet vm.globals (r, n) := by
    intro r n hr
    exact foldl_set_other (fun f : AmaFunc => (ref, f.name)) (fun f => Val.func f) _ _ (by
      intro x _ e
      exact hr (Prod.mk.inj e).1.symm)
  have hrefne : ∀ p r, p ≠ m.path → progRef P p = some r → r ≠ ref := by
    intro p r hp hr e
    subst e
    exact hp (progRef_inj hr B.refOf)
  refine ⟨?_, ?_, ?_⟩
  · intro p n v r hv hr
    change (if p = m.path then assocGet [] n else st.globals p n) = some v at hv
    by_cases hp : p = m.path
    · rw [if_pos hp] at hv
      cases hv
    · rw [if_neg hp] at hv
      rw [hother r n (hrefne p r hp hr)]
      exact h.vars p n v r hv hr
  · intro p n d hload hd
    by_cases hp : p = m.path
    · subst hp
      obtain ⟨gf, hgf, hn, sym, t0, t1, fc⟩ := B.funCode (cfg := cfg) hP hlen loaded' hd
      refine ⟨ref, gf, B.refOf, ?_, _, sym, t0, t1, fc⟩
      have := foldl_set_get (fun f : AmaFunc => (ref, f.name)) (fun f => (Val.func f : Val F)) _ vm.globals hnames hgf
      rw [← hn]
      exact this
    · have hl' : loaded p = true := by
        rcases hl p hload with h | h
        · exact h
        · exact absurd h hp
      obtain ⟨r, gf, hr, hg, cm, sym, t0, t1, fc⟩ := h.funs p n d hl' hd
      refine ⟨r, gf, hr, ?_, cm, sym, t0, t1, fc.reload loaded'⟩
      rw [hother r n (hrefne p r hp hr)]
      exact hg
  · intro t ht
    obtain ⟨r, hr, hg⟩ := h.types t ht
    refine ⟨r, hr, ?_⟩
    rw [hother r _ (hrefne _ r ?_ hr)]
    · exact hg
    · exact fun e => (B.cmodOk (cfg := cfg) hP hlen loaded).user e.symm

theorem linkOk (hP : P.Ok home) (hE : (constOfStr "''" : Option (Val F)) = some (.str "")) (loaded : String → Bool) :
    LinkOk (progLink cfg P home prog loaded) where
  refInj _ _ _ h1 h2 := progRef_inj h1 h2
  outInj := hP.outIds
  empty := hE

/-- The assertion of a debug build holds where the statements of a module end. -/
theorem halt_main {K : Link F} {a : Act F} {st : St F} {vm : VM F} {ip : Nat} {stk : List (Val F)} {cfg : Cfg} {prog : Program F}
    {m : Module F} {args : List Nat} (hn : a.fn.name = "_inicio_") (h : Here K a st vm ip stk) :
    exec cfg prog m vm .halt args = .error (.halt vm) := by
  obtain ⟨⟨last, slots, hat, -, -⟩, -⟩ := h
  refine if_neg fun h => h.2 ?_
  rw [hat.frames]
  exact congrArg some hn

/-- The machine at the beginning of a module written in the language. -/
theorem user_start (B : Built P home prog m calls ref mod fin s0 s1) (hP : P.Ok home)
    (hlen : prog.imports.length = P.imports.length)
    (hl : ∀ p, loaded' p = true → loaded p = true ∨ p = m.path)
    (hc : calls = true → (∀ p, loaded' p = true) ∧ ref = .main)
    (R : Ready cfg P home prog loaded st vm) :
    ∃ (a : Act F) (vm0 : VM F), a.cm = cmod P m ref mod fin ∧ a.fn.name = "_inicio_" ∧ a.base = [] ∧ a.rest = [] ∧ a.size = vm.values.length ∧
      (∀ f, runModule cfg prog f ref mod vm = runLoop cfg prog f vm0) ∧
      Code (progLink cfg P home prog loaded') a (P.wf home m calls) (none, none) s0 s1 ∧
      Here (progLink cfg P home prog loaded') a (st.begin m.path []) vm0 s0.ip [] := by
  have hG := user_globals B hP hlen hl R.globals
  have hcm := B.cmodOk (cfg := cfg) hP hlen loaded'
  let a : Act F := { cm := cmod P m ref mod fin, L := fin.funcLocals, fn := { mod.main with bp := 0 }, rest := []
                     base := [], size := vm.values.length, chain := [m.scope] }
  let vm1 : VM F := { vm with globals := mod.functions.foldl (fun g f => assocSet g (ref, f.name) (.func f)) vm.globals }
  have hroom := R.room
  have hrun : ∀ f, runModule cfg prog f ref mod vm = runLoop cfg prog f (enter ref mod vm1) := by
    intro f
    unfold runModule initModule
    rw [if_neg (by simp [B.builtin])]
  have hact : ActOk (progLink cfg P home prog loaded') a :=
    ⟨hcm, B.locals.1.1, Nat.le_trans B.locals.2 hroom, by show 0 + vm.values.length ≠ 0; omega, fun _ => rfl, by
      intro x hx y hy
      obtain rfl := List.mem_singleton.1 hx
      obtain rfl := List.mem_singleton.1 hy
      exact .inl .refl⟩
  have hcode : Code (progLink cfg P home prog loaded') a (P.wf home m calls) (none, none) s0 s1 :=
    ⟨hact, ⟨rfl, rfl, rfl,
      fun _ x hx => ⟨m.scope, rfl, by obtain rfl := List.mem_singleton.1 hx; exact .refl⟩, rfl, fun h => ⟨(hc h).1, by
      show mod.main.module.ref = ref
      rw [B.main.1, (hc h).2]; rfl⟩⟩, B.gen.scope, B.gen.fits, rfl⟩
  have hhere : Here (progLink cfg P home prog loaded') a (st.begin m.path []) (enter ref mod vm1) s0.ip [] := by
    refine ⟨⟨mod.main.lastI, vm.values, ⟨?_, ?_, rfl, rfl, R.world⟩, rfl, ?_⟩, hG⟩
    · have hsp : (vm1.values.length : Int) - 1 > -1 := by
        show (vm.values.length : Int) - 1 > -1
        omega
      unfold enter
      simp only [if_pos hsp]
      rw [B.gen.start, ← B.main.2.1]
    · refine ⟨?_, [], ?_⟩
      · show (vm.values.length : Int) - 1 + 1 = _
        simp [a]
      · simp [a, enter, vm1]
    · intro id s v _ _ _ _ h
      cases h
  exact ⟨a, enter ref mod vm1, rfl, B.main.2.2, rfl, rfl, rfl, hrun, hcode, hhere⟩

/-- A module written in the language. -/
theorem user_module (B : Built P home prog m calls ref mod fin s0 s1) (hP : P.Ok home)
    (hE : (constOfStr "''" : Option (Val F)) = some (.str ""))
    (hlen : prog.imports.length = P.imports.length)
    (hl : ∀ p, loaded' p = true → loaded p = true ∨ p = m.path)
    (hc : calls = true → (∀ p, loaded' p = true) ∧ ref = .main)
    (R : Ready cfg P home prog loaded st vm) (n : Nat) :
    Ends cfg P home prog loaded' (fun f => runModule cfg prog f ref mod vm) (P.evalModule cfg n m st) := by
  obtain ⟨a, vm0, hcma, hname, hbase, hrest, hsize, hrun, hcode, hhere⟩ := user_start B hP hlen hl hc R
  have hcm := B.cmodOk (cfg := cfg) hP hlen loaded'
  have hsim := (simulates (linkOk (cfg := cfg) (prog := prog) hP hE loaded') n).ss (m := .any) hcode B.ok trivial (by rw [hcma]; exact B.gen.gen) hhere
  have hpos : pos a (P.wf home m calls) = ⟨m.path, some m.scope, 1⟩ := by unfold pos; rw [hrest]; rfl
  rw [hpos] at hsim
  rw [← hcma] at hcm
  obtain ⟨t, t', ht, hip, hfit⟩ := B.gen.halt
  obtain ⟨hins, -⟩ := emit_ins hcm (by rw [hcma]; exact hfit) ht (by decide)
  unfold Prog.evalModule
  rw [if_neg (by simp [B.user])]
  change Sim (progLink cfg P home prog loaded') a .any (none, none) vm0 [] _
    (evalSs cfg P.lang n ⟨m.path, some m.scope, 1⟩ m.body (st.begin m.path [])) at hsim
  cases hev : evalSs cfg P.lang n ⟨m.path, some m.scope, 1⟩ m.body (st.begin m.path []) with
  | stuck => trivial
  | fuel r =>
      rw [hev] at hsim
      intro f hf
      obtain ⟨vm', h⟩ := Long.loop hsim hf
      exact ⟨vm', (hrun f).trans h⟩
  | leave c st' => trivial
  | fail msg w =>
      rw [hev] at hsim
      obtain ⟨k, pre, vm', h1, h2⟩ := RunsErr.loop hsim
      exact ⟨k, pre, vm', h1, fun f hf => (hrun f).trans (h2 f hf)⟩
  | done o st' =>
      rw [hev] at hsim
      obtain ⟨vm2, j, -, hr, hpost⟩ := hsim
      cases o with
      | some v => trivial
      | none =>
          obtain ⟨hh, -⟩ := hpost
          rw [show s1.ip = t.ip from hip.symm] at hh
          obtain ⟨vm3, e3, h3⟩ := hh.next hcm hins
          obtain ⟨k, hk⟩ := hr.done (vm2 := vm3) (e3.trans (halt_main hname h3))
          refine ⟨k, vm3, ⟨h3.globals, h3.world, ?_⟩, fun f hf => (hrun f).trans (hk f hf)⟩
          obtain ⟨⟨last, slots, hat, h1, h2⟩, -⟩ := h3
          obtain ⟨-, g, hg⟩ := hat.live
          rw [hg]
          have h3 := R.room
          rw [hsize] at h1
          simp
          omega

/-! ## Modules of the standard library -/

theorem builtinDefs_nodup {name : String} {defs : List (String × Val F)} (h : builtinDefs name = some defs) :
    (defs.map Prod.fst).Nodup := by
  unfold builtinDefs at h
  split at h
  · cases Option.some.inj h
    simp
  · cases Option.some.inj h
    simp
  · cases h

theorem builtinDefs_types {defs : List (String × Val F)} (h : builtinDefs "embutidos" = some defs) (t : VTy)
    (ht : t ≠ .vector) : assocGet defs t.name = some (.type t) := by
  cases Option.some.inj h
  cases t <;> first | rfl | exact absurd rfl ht

/-- A module of the standard library, at place `i` of the imports. -/
theorem builtin_module {i : Nat} (hP : P.Ok home) (hm : P.imports[i]? = some m) (hb : m.builtin = true)
    (hget : prog.imports[i]? = some mod) (hload : Loaded (compileBuiltin m) mod)
    (hl : ∀ p, loaded' p = true → loaded p = true ∨ p = m.path)
    (hvars : ∀ p n v r, st.globals p n = some v → progRef P p = some r → assocGet vm.globals (r, n) = some v)
    (hfuns : ∀ p n d, loaded p = true → P.funs p n = some d → ∃ r gf, progRef P p = some r ∧
      assocGet vm.globals (r, n) = some (.func gf) ∧
      ∃ cm sym s0 s1, FunCode (progLink cfg P home prog loaded) p d gf cm sym s0 s1)
    (htypes : (m.path = P.builtinPath ∧ P.library m.path = "embutidos") ∨ (m.path ≠ P.builtinPath ∧
      ∀ t : VTy, t ≠ .vector → ∃ r, progRef P P.builtinPath = some r ∧ assocGet vm.globals (r, t.name) = some (.type t)))
    (hw : vm.world = st.world) (hroom : 256 ≤ vm.values.length) (n : Nat) :
    Ends cfg P home prog loaded' (fun f => runModule cfg prog f (.imp i) mod vm) (P.evalModule cfg n m st) := by
  have hmem : m ∈ P.imports := List.mem_of_getElem? hm
  have hmem' : m ∈ P.modules := List.mem_append_left _ hmem
  have hname : mod.name = P.library m.path := by
    rw [hload.name]
    exact hP.library m hmem hb
  have href : progRef P m.path = some (.imp i) := progRef_import hP.paths hm
  unfold Prog.evalModule
  rw [if_pos hb]
  cases hd : (builtinDefs (P.library m.path) : Option (List (String × Val F))) with
  | none => trivial
  | some defs =>
      have hrefne : ∀ p r, p ≠ m.path → progRef P p = some r → r ≠ .imp i := by
        intro p r hp hr e
        subst e
        exact hp (progRef_inj hr href)
      have hother : ∀ r x, r ≠ .imp i →
          assocGet (defs.foldl (fun g (k, v) => assocSet g (.imp i, k) v) vm.globals) (r, x) = assocGet vm.globals (r, x) := by
        intro r x hr
        exact foldl_set_other (fun p : String × Val F => (ModRef.imp i, p.1)) (fun p => p.2) _ _ (by
          intro y _ e
          exact hr (Prod.mk.inj e).1.symm)
      have hown : ∀ x v, assocGet defs x = some v →
          assocGet (defs.foldl (fun g (k, v) => assocSet g (.imp i, k) v) vm.globals) (ModRef.imp i, x) = some v := by
        intro x v hx
        refine foldl_set_get (fun p : String × Val F => (ModRef.imp i, p.1)) (fun p => p.2) defs vm.globals ?_
          (assocGet_mem hx)
        have h1 := builtinDefs_nodup hd
        have h2 : defs.map Prod.fst = (defs.map fun p => (ModRef.imp i, p.1)).map Prod.snd := by
          rw [List.map_map]; rfl
        rw [h2] at h1
        exact List.Pairwise.of_map Prod.snd (by
          intro a b hab e
          exact hab (by rw [e])) h1
      let vm1 : VM F := { vm with globals := defs.foldl (fun g (k, v) => assocSet g (.imp i, k) v) vm.globals }
      have hrun : ∀ f, runModule cfg prog f (.imp i) mod vm = runLoop cfg prog f (enter (.imp i) mod vm1) := by
        intro f
        unfold runModule initModule
        rw [if_pos (by rw [hload.builtin]; rfl), hname, hd]
        rfl
      let vm2 : VM F := (enter (.imp i) mod vm1).reading
        { mod.main with bp := if (vm1.values.length : Int) - 1 > -1 then 0 else -1 } [] 0
      have hstep : step cfg prog (enter (.imp i) mod vm1) = .error (.halt vm2) := by
        have hni : NextIns prog (enter (.imp i) mod vm1)
            { mod.main with bp := if (vm1.values.length : Int) - 1 > -1 then 0 else -1 } [] mod .halt [] 0 := by
          refine ⟨hget, rfl, ?_⟩
          show fetch mod.code mod.main.ip = _
          rw [hload.code, hload.main.2.1]
          rfl
        rw [step_eq hni]
        exact if_neg fun h => h.2 (congrArg some hload.main.2.2)
      refine ⟨1, vm2, ⟨⟨?_, ?_, ?_⟩, hw, hroom⟩, ?_⟩
      · intro p x v r hv hr
        change (if p = m.path then assocGet defs x else st.globals p x) = some v at hv
        by_cases hp : p = m.path
        · rw [if_pos hp] at hv
          subst hp
          change progRef P m.path = some r at hr
          rw [href] at hr
          cases hr
          exact hown x v hv
        · rw [if_neg hp] at hv
          show assocGet (defs.foldl _ vm.globals) (r, x) = _
          rw [hother r x (hrefne p r hp hr)]
          exact hvars p x v r hv hr
      · intro p x d hload' hd'
        change P.funs p x = some d at hd'
        by_cases hp : p = m.path
        · subst hp
          unfold Prog.funs at hd'
          have : P.find m.path = some m := find_of_path hP.paths hmem'
          rw [this] at hd'
          simp [hb] at hd'
        · have hl' : loaded p = true := by
            rcases hl p hload' with h | h
            · exact h
            · exact absurd h hp
          obtain ⟨r, gf, hr, hg, cm, sym, t0, t1, fc⟩ := hfuns p x d hl' hd'
          refine ⟨r, gf, hr, ?_, cm, sym, t0, t1, fc.reload loaded'⟩
          show assocGet (defs.foldl _ vm.globals) (r, x) = _
          rw [hother r x (hrefne p r hp hr)]
          exact hg
      · intro t ht
        rcases htypes with ⟨h1, h2⟩ | ⟨h1, h2⟩
        · refine ⟨.imp i, ?_, ?_⟩
          · show progRef P P.builtinPath = _
            rw [← h1]; exact href
          · rw [h2] at hd
            exact hown _ _ (builtinDefs_types hd t ht)
        · obtain ⟨r, hr, hg⟩ := h2 t ht
          refine ⟨r, hr, ?_⟩
          show assocGet (defs.foldl _ vm.globals) (r, _) = _
          rw [hother r _ (hrefne _ r (fun e => h1 e.symm) hr)]
          exact hg
      · intro f hf
        obtain ⟨j, rfl⟩ : ∃ j, f = j + 1 := ⟨f - 1, by omega⟩
        show runModule cfg prog (j + 1) (.imp i) mod vm = _
        rw [hrun]
        exact runLoop_halt j hstep

end

/-! ## All modules -/

/-- The modules that have been run, when those of `rest` have not. -/
def doneBut (rest : List ModuleIn) (p : String) : Bool := decide (p ∉ rest.map ModuleIn.path)

theorem doneBut_cons {m : ModuleIn} {rest : List ModuleIn} {p : String} (h : doneBut rest p = true) :
    doneBut (m :: rest) p = true ∨ p = m.path := by
  unfold doneBut at h ⊢
  by_cases hp : p = m.path
  · exact Or.inr hp
  · refine Or.inl ?_
    simp only [decide_eq_true_eq] at h ⊢
    rw [List.map_cons, List.mem_cons]
    exact fun h' => h'.elim hp h

/-- The end of the run of `runProgram`. -/
def runRest (cfg : Cfg) (prog : Program F) (i : Nat) (mods : List (Module F)) (vm : VM F) (fuel : Nat) : Outcome F :=
  match runImports cfg prog fuel i mods vm with
  | .done vm => runModule cfg prog fuel .main prog.main vm
  | o => o

theorem runRest_cons {cfg : Cfg} {prog : Program F} {i : Nat} {mod : Module F} {mods : List (Module F)} {vm : VM F}
    {fuel : Nat} : runRest cfg prog i (mod :: mods) vm fuel =
      match runModule cfg prog fuel (.imp i) mod vm with
      | .done vm => runRest cfg prog (i + 1) mods vm fuel
      | o => o := by
  unfold runRest
  simp only [runImports]
  cases runModule cfg prog fuel (.imp i) mod vm <;> rfl

section
variable {cfg : Cfg} {P : Prog} {home : SymId → Option ScopeId} {prog : Program F}

theorem ends_cons {i : Nat} {mod : Module F} {mods : List (Module F)} {m : ModuleIn} {rest : List ModuleIn} {n : Nat}
    {st : St F} {vm : VM F} {loaded loaded' : String → Bool}
    (h1 : Ends cfg P home prog loaded (fun f => runModule cfg prog f (.imp i) mod vm) (P.evalModule cfg n m st))
    (h2 : ∀ st' vm', Ready cfg P home prog loaded st' vm' →
      Ends cfg P home prog loaded' (runRest cfg prog (i + 1) mods vm') (P.evalModules cfg n rest st')) :
    Ends cfg P home prog loaded' (runRest cfg prog i (mod :: mods) vm) (P.evalModules cfg n (m :: rest) st) := by
  unfold Prog.evalModules
  cases hev : P.evalModule cfg n m st with
  | stuck => trivial
  | fuel r =>
      rw [hev] at h1
      intro f hf
      obtain ⟨vm', h⟩ := h1 f hf
      refine ⟨vm', ?_⟩
      simp only at h
      rw [runRest_cons, h]
  | leave c st' => trivial
  | fail msg w =>
      rw [hev] at h1
      obtain ⟨k, pre, vm', hw, hk⟩ := h1
      refine ⟨k, pre, vm', hw, fun f hf => ?_⟩
      have := hk f hf
      simp only at this
      rw [runRest_cons, this]
  | done u st' =>
      rw [hev] at h1
      obtain ⟨k, vm', R, hk⟩ := h1
      have h3 := h2 st' vm' R
      show Ends cfg P home prog loaded' (runRest cfg prog i (mod :: mods) vm) (P.evalModules cfg n rest st')
      cases hev2 : P.evalModules cfg n rest st' with
      | stuck => trivial
      | fuel r =>
          rw [hev2] at h3
          intro f hf
          rw [runRest_cons]
          rcases runModule_steady cfg prog (.imp i) mod vm f (max f k) (Nat.le_max_left _ _) with ⟨vm2, h4⟩ | h4
          · simp only at h4
            rw [h4]
            exact ⟨vm2, rfl⟩
          · have h5 := hk _ (Nat.le_max_right f k)
            simp only at h4 h5
            rw [h4, h5]
            exact h3 f hf
      | leave c st2 => trivial
      | fail msg w =>
          rw [hev2] at h3
          obtain ⟨k2, pre, vm2, hw, hk2⟩ := h3
          refine ⟨max k k2, pre, vm2, hw, fun f hf => ?_⟩
          have h4 := hk f (Nat.le_trans (Nat.le_max_left _ _) hf)
          simp only at h4
          rw [runRest_cons, h4]
          exact hk2 f (Nat.le_trans (Nat.le_max_right _ _) hf)
      | done u2 st2 =>
          rw [hev2] at h3
          obtain ⟨k2, vm2, R2, hk2⟩ := h3
          refine ⟨max k k2, vm2, R2, fun f hf => ?_⟩
          have h4 := hk f (Nat.le_trans (Nat.le_max_left _ _) hf)
          simp only at h4
          rw [runRest_cons, h4]
          exact hk2 f (Nat.le_trans (Nat.le_max_right _ _) hf)

theorem rest_runs (hP : P.Ok home) (hS : SlotsFit P) (hE : (constOfStr "''" : Option (Val F)) = some (.str ""))
    (hL : LoadedProg { env := P.env, modPath := P.main.path, builtinPath := P.builtinPath
                       modules := P.imports.map ModuleIn.path } P.main P.imports prog) (n : Nat) :
    ∀ (rem : List ModuleIn) (i : Nat) (st : St F) (vm : VM F), P.imports.drop (i + 1) = rem →
      Ready cfg P home prog (doneBut (rem ++ [P.main])) st vm →
      Ends cfg P home prog (fun _ => true) (runRest cfg prog (i + 1) (prog.imports.drop (i + 1)) vm)
        (P.evalModules cfg n (rem ++ [P.main]) st) := by
  intro rem
  induction rem with
  | nil =>
      intro i st vm hrem R
      have hnil : prog.imports.drop (i + 1) = [] := by
        have : P.imports.length ≤ i + 1 := List.drop_eq_nil_iff.1 hrem
        exact List.drop_eq_nil_of_le (by rw [hL.length]; exact this)
      rw [hnil]
      obtain ⟨out, hout, hload⟩ := hL.main
      obtain ⟨fin, s0, s1, B⟩ := built_of hS (home := home) (prog := prog) (m := P.main) (by simp [Prog.modules]) hP.main.2 hP.main.1
        (progRef_main hP.paths) (mod := prog.main) rfl hout hload
      have := user_module B hP hE hL.length (loaded' := fun _ => true) (fun p _ => doneBut_cons (m := P.main) (rest := []) (by simp [doneBut]))
        (fun _ => ⟨fun _ => rfl, rfl⟩) R n
      show Ends cfg P home prog (fun _ => true) (fun f => runModule cfg prog f .main prog.main vm) (P.evalModules cfg n [P.main] st)
      unfold Prog.evalModules
      cases hev : P.evalModule cfg n P.main st with
      | stuck => trivial
      | fuel r => rw [hev] at this; exact this
      | leave c st' => trivial
      | fail msg w => rw [hev] at this; exact this
      | done u st' => rw [hev] at this; exact this
  | cons m rem ih =>
      intro i st vm hrem R
      have hm : P.imports[i + 1]? = some m := by
        rw [← List.head?_drop, hrem]; rfl
      have hrem' : P.imports.drop (i + 1 + 1) = rem := by
        rw [← List.tail_drop, hrem]; rfl
      obtain ⟨out, mod, hout, hget, hload⟩ := hL.imports (i + 1) m hm
      have hdrop : prog.imports.drop (i + 1) = mod :: prog.imports.drop (i + 1 + 1) := by
        have hlt := (List.getElem?_eq_some_iff.1 hget)
        obtain ⟨h1, h2⟩ := hlt
        rw [List.drop_eq_getElem_cons h1, h2]
      rw [hdrop]
      refine ends_cons (loaded := doneBut (rem ++ [P.main])) ?_ fun st' vm' R' => ih (i + 1) st' vm' hrem' R'
      have hmem : m ∈ P.imports := List.mem_of_getElem? hm
      cases hb : m.builtin with
      | false =>
          obtain ⟨fin, s0, s1, B⟩ := built_of hS (home := home) (prog := prog) (m := m) (List.mem_append_left _ hmem)
            (hP.imports m hmem hb) hb (progRef_import hP.paths hm) (mod := mod) hget hout hload
          exact user_module B hP hE hL.length (fun p h => doneBut_cons h) (fun h => by cases h) R n
      | true =>
          unfold compileModule at hout
          rw [if_pos hb] at hout
          cases hout
          refine builtin_module hP hm hb hget hload (fun p h => doneBut_cons h) R.globals.vars R.globals.funs
            (Or.inr ⟨?_, R.globals.types⟩) R.world R.room n
          obtain ⟨x, xs, h1, h2, h3, -⟩ := hP.first
          intro e
          have hn := hP.paths
          unfold Prog.modules at hn
          rw [List.map_append] at hn
          have hn := (List.nodup_append.1 hn).1
          have f1 := indexIn_map hn hm
          have f2 := indexIn_map hn (i := 0) (m := x) (by rw [h1]; rfl)
          rw [h3, ← e, f1] at f2
          cases f2

/-- The first module, with the built-in functions, in a machine that has just started. -/
theorem first_module {m : ModuleIn} {ms : List ModuleIn} {mod : Module F} (hP : P.Ok home) (h1 : P.imports = m :: ms)
    (h2 : m.builtin = true) (h3 : m.path = P.builtinPath) (h4 : P.library m.path = "embutidos")
    (hget : prog.imports[0]? = some mod) (hload : Loaded (compileBuiltin m) mod) (n : Nat) (inp : List String) :
    Ends cfg P home prog (doneBut (ms ++ [P.main])) (fun f => runModule cfg prog f (.imp 0) mod (VM.new inp))
      (P.evalModule cfg n m
        { locals := fun _ => none, globals := fun _ _ => none, world := { heap := [], out := "", inp := inp } }) := by
  have hm : P.imports[0]? = some m := by rw [h1]; rfl
  have hmods : P.modules = m :: (ms ++ [P.main]) := by simp [Prog.modules, h1]
  refine builtin_module (loaded := doneBut P.modules) hP hm h2 hget hload ?_ ?_ ?_ (Or.inl ⟨h3, h4⟩) rfl ?_ n
  · intro p h
    rw [hmods]
    exact doneBut_cons h
  · intro p x v r h
    cases h
  · intro p x d hl hd
    unfold Prog.funs at hd
    cases hf : P.find p with
    | none => rw [hf] at hd; cases hd
    | some y =>
        obtain ⟨f1, f2⟩ := find_mem hf
        unfold doneBut at hl
        simp only [decide_eq_true_eq] at hl
        exact absurd (f2 ▸ List.mem_map_of_mem f1) hl
  · show 256 ≤ (List.replicate defaultStackSize (Val.none : Val F)).length
    rw [List.length_replicate]
    decide

/-- The machine runs a compiled program as the source program says. -/
theorem program_runs (hP : P.Ok home) (hS : SlotsFit P) (hE : (constOfStr "''" : Option (Val F)) = some (.str ""))
    (hL : LoadedProg { env := P.env, modPath := P.main.path, builtinPath := P.builtinPath
                       modules := P.imports.map ModuleIn.path } P.main P.imports prog) (n : Nat) (inp : List String) :
    Ends cfg P home prog (fun _ => true) (fun f => runProgram cfg prog f inp) (P.eval cfg n inp) := by
  obtain ⟨m, ms, h1, h2, h3, h4⟩ := hP.first
  have hm : P.imports[0]? = some m := by rw [h1]; rfl
  obtain ⟨out, mod, hout, hget, hload⟩ := hL.imports 0 m hm
  have hdrop : prog.imports = mod :: prog.imports.drop (0 + 1) := by
    cases hp : prog.imports with
    | nil => rw [hp] at hget; cases hget
    | cons x xs => rw [hp] at hget; cases hget; rfl
  have hrun : (fun f => runProgram cfg prog f inp) = runRest cfg prog 0 (mod :: prog.imports.drop (0 + 1)) (VM.new inp) := by
    funext f
    rw [← hdrop]
    rfl
  rw [hrun]
  unfold Prog.eval
  have hmods : P.modules = m :: (ms ++ [P.main]) := by simp [Prog.modules, h1]
  rw [hmods]
  refine ends_cons (loaded := doneBut (ms ++ [P.main])) ?_ fun st' vm' R' =>
    rest_runs hP hS hE hL n ms 0 st' vm' (by rw [h1]; rfl) R'
  unfold compileModule at hout
  rw [if_pos h2] at hout
  cases hout
  exact first_module hP h1 h2 h3 h4 hget hload n inp

/-- The machine at the beginning of the main module of a program that imports only the built-in
functions. -/
theorem main_start (hP : P.Ok home) (hS : SlotsFit P)
    (hL : LoadedProg { env := P.env, modPath := P.main.path, builtinPath := P.builtinPath
                       modules := P.imports.map ModuleIn.path } P.main P.imports prog) {m : ModuleIn}
    (hm : P.imports = [m]) (inp : List String) :
    ∃ (a : Act F) (st : St F) (vm : VM F) (s0 s1 : Gen), a.rest = [] ∧
      Code (progLink cfg P home prog fun _ => true) a (P.wf home P.main true) (none, none) s0 s1 ∧
      genStmts a.cm.ctx P.main.body s0 = .ok ((), s1) ∧
      Here (progLink cfg P home prog fun _ => true) a (st.begin P.main.path []) vm s0.ip [] := by
  obtain ⟨m', ms, h1, h2, h3, h4⟩ := hP.first
  rw [hm] at h1
  cases h1
  obtain ⟨out, mod, hout, hget, hload⟩ := hL.imports 0 m (by rw [hm]; rfl)
  unfold compileModule at hout
  rw [if_pos h2] at hout
  cases hout
  have hb := first_module (cfg := cfg) hP hm h2 h3 h4 hget hload 0 inp
  unfold Prog.evalModule at hb
  rw [if_pos h2, h4] at hb
  obtain ⟨k, vm, R, -⟩ := hb
  obtain ⟨out, hout, hload⟩ := hL.main
  obtain ⟨fin, s0, s1, B⟩ := built_of hS (home := home) (prog := prog) (m := P.main) (by simp [Prog.modules]) hP.main.2 hP.main.1
    (progRef_main hP.paths) (mod := prog.main) rfl hout hload
  obtain ⟨a, vm0, hcma, -, -, hrest, -, -, hcode, hhere⟩ := user_start B hP hL.length (loaded' := fun _ => true)
    (fun p _ => doneBut_cons (m := P.main) (rest := []) (by simp [doneBut])) (fun _ => ⟨fun _ => rfl, rfl⟩) R
  exact ⟨a, _, vm0, s0, s1, hrest, hcode, by rw [hcma]; exact B.gen.gen, hhere⟩

end

end Compiled

end Amanda

import Verif.SimExpr

/-!
# The simulation: calls

Variants, records, functions of the standard library and functions of the program.
-/

namespace Amanda

namespace Compiled

open Source Codegen

variable {F : Type} [FloatOps F]

section
variable {K : Link F} {a : Act F} {W : Wf} {lp : Loop} {s s' : Gen} {m : Mode} {vm vm' : VM F}
  {st : St F} {k : List (Val F)} {ip : Nat} {n : Nat}

/-- The code of a name that is called only loads the global. -/
theorem callee_code {line : Nat} {name : String} {i : Option SymId} {prom : Ty} (C : Code K a W lp s s')
    (hok : W.callee (.var line name i prom) = true)
    (h : genExpr a.cm.ctx (.var line name i prom) s = .ok ((), s')) {id : SymId}
    (hid : (i.orElse fun _ => K.L.env.resolve W.scope name) = some id) :
    ∃ sy t, K.L.env.syms[id]? = some sy ∧ sy.isGlobal = true ∧ W.canRead id = true ∧
      loadVariable a.cm.ctx sy.toSymRef t = .ok ((), s') ∧ Code K a W lp t s' ∧ t.ip = s.ip := by
  simp only [Wf.callee, Bool.and_eq_true, decide_eq_true_eq] at hok
  obtain ⟨hp, hg⟩ := hok
  unfold Wf.nameSym at hg
  rw [C.wf.lang, hid] at hg
  unfold genExpr at h
  obtain ⟨t0, h, c, hip0, -⟩ := C.atLine h
  unfold genVariable at h
  gbind h with s0 t1 e0
  obtain ⟨e1, e2⟩ := get_ok e0
  rw [e1, e2] at h
  gbind h with v t2 e3
  obtain ⟨hv, e4⟩ := symOf_ok e3
  rw [e4] at h
  rw [C.act.mod.env, c.scope, hid] at hv
  obtain ⟨_, t, h1, h2, c1, c2⟩ := c.cut h (by good) (fun _ => by good)
  unfold autoCast at h2
  rw [if_neg hp] at h2
  obtain ⟨-, rfl⟩ := pure_ok h2
  have hsy : K.L.env.syms[id]? = some v := hv
  have hgl : v.isGlobal = true := by
    simp only [optAll, hsy, Option.any_some] at hg
    exact hg
  refine ⟨v, t0, hsy, hgl, ?_, h1, c1, hip0⟩
  unfold Wf.canRead
  rw [C.wf.lang, hsy]
  simp [hgl]

/-- A variant with parts. -/
theorem sim_makeVariant (ih : IH K n) {line : Nat} {w : VariantRef} {args : List TExpr} {f : Sym} {prom : Ty}
    (C : Code K a W lp s s') (hw : w.arity ≠ 0) (hk : f.kind = .variant)
    (hok : okEs W args = true) (hm : m ≠ .any → cleanEs args = true)
    (h : (do genExprs a.cm.ctx args
             genExpr a.cm.ctx (.path line (some w))
             genCallOp a.cm.ctx f args.length prom) s = .ok ((), s')) (H : Here K a st vm s.ip k) :
    Sim K a m lp vm k (Pushed K a s'.ip)
      ((do let vs ← evalEs K.cfg K.L n (pos a W) args
           makeVariant K.L (pos a W) w vs : M F (Val F)) st) := by
  have n1 := nice_exprs C hok
  have n2 : Nice W.scope (genExpr a.cm.ctx (.path line (some w))) :=
    ⟨fun n => keeps_genExpr _ n _, by unfold genExpr; exact fr_atLine _ (fr_genPath _)⟩
  have n3 : Nice W.scope (genCallOp a.cm.ctx f args.length prom) := ⟨fun n => keeps_genCallOp _ _ _ _, fr_genCallOp _ _ _ _⟩
  obtain ⟨_, t, h1, h2, c1, c2⟩ := C.cut h (by good) (fun _ => by good)
  obtain ⟨_, t2, h3, h4, c3, c4⟩ := c2.cut h2 (by good) (fun _ => by good)
  refine Sim.seq (ih.es c1 hok hm h1 H) ?_
  intro vs st1 vm1 j _ H1
  obtain ⟨H1, hlen⟩ := H1
  unfold genExpr at h3
  obtain ⟨t0, h3, c3, hip0, -⟩ := c3.atLine h3
  rw [← hip0] at H1
  obtain ⟨tag, htag, hi64, vm2, r2, H2⟩ := sim_genPathTag c3 h3 H1 hw
  unfold genCallOp at h4
  rw [hk] at h4
  obtain ⟨hi, hip⟩ := c4.ins h4
  rw [← hlen] at hi
  rw [hip]
  unfold makeVariant
  refine Sim.lookup fun tag' ht => ?_
  rw [htag] at ht
  cases ht
  exact Sim.runs r2 (sim_buildVariant C.act hi64 hi H2)

/-- A record. -/
theorem sim_makeRecord (ih : IH K n) {line : Nat} {name : String} {i : Option SymId} {p : Ty}
    {args : List TExpr} {f : Sym} {prom : Ty} (C : Code K a W lp s s')
    (hc : W.callee (.var line name i p) = true) (hk : f.kind = .type ∨ f.kind = .prim)
    (hok : okFields W args = true)
    (h : (do genExprs a.cm.ctx args
             genExpr a.cm.ctx (.var line name i p)
             genCallOp a.cm.ctx f args.length prom) s = .ok ((), s')) (H : Here K a st vm s.ip k) :
    Sim K a m lp vm k (Pushed K a s'.ip)
      ((do let fs ← evalFields K.cfg K.L n (pos a W) args
           let r ← makeRecord K.L (pos a W) name i fs
           promote prom r : M F (Val F)) st) := by
  have n1 := nice_fields C hok
  have n2 : Nice W.scope (genExpr a.cm.ctx (.var line name i p)) :=
    ⟨fun n => keeps_genExpr _ n _, fr_callee _ hc⟩
  have n3 : Nice W.scope (genCallOp a.cm.ctx f args.length prom) := ⟨fun n => keeps_genCallOp _ _ _ _, fr_genCallOp _ _ _ _⟩
  obtain ⟨_, t, h1, h2, c1, c2⟩ := C.cut h (by good) (fun _ => by good)
  obtain ⟨_, t2, h3, h4, c3, c4⟩ := c2.cut h2 (by good) (fun _ => by good)
  refine Sim.seq1 (ih.fields c1 hok h1 H) ?_
  intro fs st1 vm1 H1
  obtain ⟨H1, hlen⟩ := H1
  have h5 : (do emit .buildObj [args.length]; autoCast a.cm.ctx prom) t2 = .ok ((), s') := by
    unfold genCallOp at h4
    rcases hk with hk | hk <;> rw [hk] at h4 <;> exact h4
  obtain ⟨_, t3, h6, h7, c6, c7⟩ := c4.cut h5 (by good) (fun _ => by good)
  obtain ⟨hi, hip⟩ := c6.ins h6
  rw [← hlen] at hi
  have key : Sim K a .strict lp vm1 k (Pushed K a t3.ip) (makeRecord K.L (pos a W) name i fs st1) := by
    unfold makeRecord
    refine Sim.lookup fun id hid => ?_
    obtain ⟨sy, t4, hsy, -, hread, hload, c8, hip4⟩ := callee_code c3 hc h3 hid
    rw [← hip4] at H1
    refine Sim.seq1 (sim_loadVariable c8 hsy hread hload H1) ?_
    intro v st2 vm2 H2
    rw [hip]
    cases v with
    | registo reg => exact sim_buildObj C.act.mod hi H2
    | _ => trivial
  refine Sim.seq1 key ?_
  intro r st2 vm2 H2
  exact sim_autoCast c7 h7 H2

/-- The return instruction. -/
theorem sim_ret (hm : CModOk K a.cm) {x : Nat} {j : List (Val F)} {v : Val F} {g : AmaFunc} {fs : List AmaFunc}
    (hi : InsAt a.cm x .ret []) (hr : a.rest = g :: fs)
    (hbp : a.fn.bp = a.base.length ∨ (a.fn.bp = -1 ∧ a.size = 0 ∧ j = []))
    (H : Here K a st vm x (j ++ [v])) :
    ∃ vm', Runs K vm vm' ∧ At vm' (g :: fs) (a.base ++ [v]) g.module.ref vm.globals st.world := by
  obtain ⟨⟨last, slots, hat, h1, h2⟩, hg⟩ := H
  let vm1 := vm.reading { a.fn with ip := x, lastI := last } a.rest (x + Op.ret.size - 1)
  have e1 : step K.cfg K.prog vm = exec K.cfg K.prog a.cm.image vm1 .ret [] := by
    refine step_eq ⟨?_, hat.frames, hi⟩
    rw [hat.ctx]; exact hm.get
  have hl : Live vm1 (a.base ++ (slots ++ j) ++ [v]) := by
    have := hat.live
    simp only [List.append_assoc] at this ⊢
    exact this.of_eq rfl rfl
  obtain ⟨vm2, e2, q1, q2, q3, q4, q5⟩ := exec_ret K.cfg K.prog a.cm.image
    (vm := vm1) (f := { a.fn with lastI := x, ip := x + Op.ret.size - 1 }) (g := g) (fs := fs)
    (by show _ :: a.rest = _; rw [hr]) hl (by
      rcases hbp with hb | ⟨hb, hs, hj⟩
      · exact Or.inl hb
      · refine Or.inr ⟨hb, ?_⟩
        rw [hj, List.append_nil]
        exact List.eq_nil_of_length_eq_zero (h1.trans hs))
  refine ⟨vm2, Runs.one (by rw [e1, e2]), q2, q1, q3, q4, ?_⟩
  rw [q5]
  exact hat.world

/-- What `loadVariable` can load: something of the module itself or of one it knows. -/
theorem loadVariable_known {ctx : GenCtx} {sym : SymRef} {u : Unit} (h : loadVariable ctx sym s = .ok (u, s'))
    (hg : sym.isGlobal = true) : sym.modPath = ctx.modPath ∨ ∃ i, indexIn sym.modPath ctx.modules = some i := by
  unfold loadVariable at h
  gbind h with i t e
  split at h
  · gbind h with mi t2 e2
    exact Or.inr ⟨mi, (need_ok e2).1⟩
  · rename_i hmp
    exact Or.inl (Decidable.of_not_not hmp)

omit [FloatOps F] in
theorem assocGet_zip {A B : Type} [DecidableEq A] (ps : List A) (vs : List B) {x : A} {v : B}
    (h : assocGet (ps.zip vs) x = some v) : ∃ i : Nat, ps[i]? = some x ∧ vs[i]? = some v := by
  induction ps generalizing vs with
  | nil => simp [assocGet] at h
  | cons p ps ih =>
      cases vs with
      | nil => simp [assocGet] at h
      | cons w vs =>
          simp only [List.zip_cons_cons, assocGet] at h
          split at h
          · rename_i e
            subst e
            cases h
            exact ⟨0, rfl, rfl⟩
          · obtain ⟨i, h1, h2⟩ := ih vs h
            exact ⟨i + 1, by simpa using h1, by simpa using h2⟩

/-- Calling a function of the program. -/
theorem sim_invoke (ih : IH K n) {p : String} {d : FunDecl} {gf : AmaFunc} {cm : CMod F} {sym : SymId} {s0 s1 : Gen}
    (ha : ActOk K a) (fc : FunCode K p d gf cm sym s0 s1) (hall : ∀ p, K.loaded p = true) (hctx : gf.module = .main → a.cm.ref = .main)
    (hret : a.fn.module.ref = a.cm.ref) {vs : List (Val F)}
    (hi : InsAt a.cm ip .callFunction [vs.length]) (H : Here K a st vm ip (k ++ vs ++ [.func gf])) :
    Sim K a m lp vm k (Pushed K a (ip + Op.callFunction.size))
      (invoke (a.rest.length + 1) d (evalSs K.cfg K.L n ⟨p, some d.scope, a.rest.length + 1 + 1⟩ d.body) vs st) := by
  unfold invoke
  by_cases hlen : vs.length = d.params.length
  case neg => rw [if_pos hlen]; trivial
  rw [if_neg (by simpa using hlen)]
  -- the locals of the function
  have hloc : s0.funcLocals <+: s1.funcLocals := by
    have hf : Fr (bodyWf K p d.scope).scope (genStmts cm.ctx d.body) :=
      fr_genStmts _ (bodyWf K p d.scope) fc.mod.env d.body fc.wf
    exact (hf s0 () s1 fc.gen fc.scope).locals fc.dense
  have hle : vs.length ≤ gf.locals := by
    rw [fc.size, hlen, ← fc.count]
    exact hloc.length_le
  obtain ⟨⟨last, slots, hat, hs1, hs2⟩, hg⟩ := H
  let vm1 := vm.reading { a.fn with ip := ip, lastI := last } a.rest (ip + Op.callFunction.size - 1)
  have e1 : step K.cfg K.prog vm = exec K.cfg K.prog a.cm.image vm1 .callFunction [vs.length] := by
    refine step_eq ⟨?_, hat.frames, hi⟩
    rw [hat.ctx]; exact ha.mod.get
  let base := a.base ++ slots ++ k
  have hl : Live vm1 (base ++ vs ++ [.func gf]) := by
    have := hat.live
    simp only [base, List.append_assoc] at this ⊢
    exact this.of_eq rfl rfl
  let fr : AmaFunc := { a.fn with lastI := ip, ip := ip + Op.callFunction.size - 1 }
  obtain ⟨vm2, locals, q1, q2, q3, q4, q5, q6, q7, q8⟩ := exec_call_func K.cfg K.prog a.cm.image
    (vm := vm1) (f := fr) (fs := a.rest) (g := gf) rfl hl hle
  have hc2 : vm2.ctx = cm.ref := by
    rw [q2]
    unfold calleeCtx
    rw [← fc.ref]
    cases hmod : gf.module with
    | imported i => rfl
    | main =>
        show vm1.ctx = .main
        rw [← hctx hmod]
        exact hat.ctx
  by_cases hdepth : a.rest.length + 1 = recursionLimit
  · rw [if_pos hdepth]
    rw [if_pos hdepth] at q8
    obtain ⟨k3, hk3⟩ := fc.mod.src
    obtain ⟨pre, hp⟩ := throwErr_reports K.prog vm2 cm.image msgRecursion (by rw [hc2]; exact fc.mod.get) k3 hk3
      (by rw [q1]; simp)
    refine ⟨vm, vm2, pre, .refl _, ?_, ?_⟩
    · rw [e1, q8, hp]; rfl
    · rw [q4]; exact hat.world
  rw [if_neg hdepth]
  rw [if_neg hdepth] at q8
  -- the called function
  let a' : Act F :=
    { cm := cm, L := s1.funcLocals, fn := calleeFrame gf base.length
      rest := { fr with ip := fr.ip + 1 } :: a.rest, base := base, size := vs.length + locals.length, chain := [d.scope] }
  have ha' : ActOk K a' := by
    refine ⟨fc.mod, fc.dense, ?_, ?_, ?_, ?_⟩
    · show s1.funcLocals.length ≤ vs.length + locals.length
      rw [← fc.size]; exact q6
    · show base.length + _ ≠ 0
      have := ha.room
      have : base.length = a.base.length + a.size + k.length := by simp [base, hs1, Nat.add_assoc]
      omega
    · intro hne
      show (if gf.locals > 0 then (base.length : Int) else gf.bp) = base.length
      have : gf.locals > 0 := by
        rw [fc.size]
        exact List.length_pos_iff.2 hne
      rw [if_pos this]
    · intro x hx y hy
      obtain rfl := List.mem_singleton.1 hx
      obtain rfl := List.mem_singleton.1 hy
      exact .inl .refl
  let W' := bodyWf K p d.scope
  have hwf : WfOk K a' W' := ⟨rfl, rfl, rfl,
    fun _ x hx => ⟨d.scope, rfl, by obtain rfl := List.mem_singleton.1 hx; exact .refl⟩, fc.path.symm, fun _ => ⟨hall, fc.ref⟩⟩
  have C' : Code K a' W' (none, none) s0 s1 := ⟨ha', hwf, fc.scope, fc.fits, rfl⟩
  let vm3 : VM F := { vm2 with frames := calleeFrame gf base.length :: vm2.frames }
  let st0 : St F := { st with locals := fun i => assocGet (d.params.zip vs) i }
  have H' : Here K a' st0 vm3 s0.ip [] := by
    refine ⟨⟨gf.lastI, vs ++ locals, ⟨?_, ?_, hc2, rfl, ?_⟩, ?_, ?_⟩, ?_⟩
    · show calleeFrame gf base.length :: vm2.frames = { calleeFrame gf base.length with ip := s0.ip, lastI := gf.lastI } :: _
      rw [q1, ← fc.start]
      rfl
    · show Live vm3 (base ++ (vs ++ locals) ++ [])
      rw [List.append_nil, ← List.append_assoc]
      exact q5.of_eq rfl rfl
    · show vm2.world = st.world
      rw [q4]; exact hat.world
    · simp [a']
    · intro id sy v hid hng hmod hown hv
      obtain ⟨i, hi1, hi2⟩ := assocGet_zip _ _ hv
      obtain ⟨sy', hsy', hlk⟩ := fc.params i id hi1
      rw [hid] at hsy'
      cases hsy'
      refine ⟨i, lookup_prefix hloc hlk, ?_⟩
      have : i < vs.length := (List.getElem?_eq_some_iff.1 hi2).1
      rw [List.getElem?_append_left this]
      exact hi2
    · show GlobalsOk K st.globals vm2.globals
      rw [q3]; exact hg
  have hone : step K.cfg K.prog vm = .ok vm3 := by rw [e1, q8]
  have hstep : Runs K vm vm3 := Runs.one hone
  -- the body
  let m' : Mode := if s1.funcLocals = [] then .tidy else .any
  have hm' : m'.okFor (cleanSs · d.body) := by
    by_cases hn : s1.funcLocals = []
    · simp only [m', if_pos hn]; exact fc.tidy hn
    · simp only [m', if_neg hn]; trivial
  have hbody := ih.ss (m := m') C' fc.wf hm' fc.gen H'
  have hpos : pos a' W' = ⟨p, some d.scope, a.rest.length + 1 + 1⟩ := rfl
  rw [hpos] at hbody
  -- returning
  have hback : ∀ (x : Nat) (j : List (Val F)) (v : Val F) (st1 : St F) (vm4 : VM F),
      InsAt cm x .ret [] → m'.junk j → Here K a' st1 vm4 x ([] ++ j ++ [v]) →
      ∃ vm5, Runs K vm4 vm5 ∧ Here K a { st1 with locals := st.locals } vm5 (ip + Op.callFunction.size) (k ++ [v]) := by
    intro x j v st1 vm4 hx hj H4
    rw [List.nil_append] at H4
    have hg4 := H4.globals
    obtain ⟨vm5, r5, h5⟩ := sim_ret (a := a') fc.mod hx rfl (by
      by_cases hn : s1.funcLocals = []
      · refine Or.inr ⟨?_, ?_, ?_⟩
        · show (if gf.locals > 0 then (base.length : Int) else gf.bp) = -1
          rw [fc.size, hn, if_neg (by simp), fc.bp]
        · show vs.length + locals.length = 0
          have h0 : gf.locals = 0 := by rw [fc.size, hn]; rfl
          rw [q7 h0, List.length_nil]
          omega
        · rcases hj with hj | hj
          · simp only [m', if_pos hn] at hj; cases hj
          · exact hj
      · exact Or.inl (ha'.bp hn)) H4
    refine ⟨vm5, r5, ⟨⟨ip, slots, ⟨?_, ?_, ?_, rfl, ?_⟩, hs1, hs2⟩, ?_⟩⟩
    · rw [h5.frames]
      show { fr with ip := fr.ip + 1 } :: a.rest = _
      simp only [fr, size_end]
    · have := h5.live
      simp only [a', base, List.append_assoc] at this ⊢
      exact this
    · rw [h5.ctx]; exact hret
    · exact h5.world
    · rw [h5.globals]; exact hg4
  generalize ho : evalSs K.cfg K.L n ⟨p, some d.scope, a.rest.length + 1 + 1⟩ d.body st0 = o at hbody
  by_cases hf : ∃ r, o = .fuel r
  · obtain ⟨r, rfl⟩ := hf
    exact Runs1.long ⟨vm3, hone, .refl _⟩ hbody
  refine Sim.runs hstep ?_
  cases o with
  | stuck => trivial
  | fuel r => exact absurd ⟨r, rfl⟩ hf
  | fail msg w => exact hbody
  | leave c st1 =>
      cases c with
      | quebra => trivial
      | continua => trivial
      | retorna v =>
          obtain ⟨-, x, j, vm4, hx, hj, r4, H4⟩ := hbody
          obtain ⟨vm5, r5, H5⟩ := hback x j v st1 vm4 hx hj H4
          exact ⟨vm5, [], m.junk_nil, r4.trans r5, by simpa [Pushed] using H5⟩
  | done o st1 =>
      cases o with
      | some v => trivial
      | none =>
          obtain ⟨vm4, j, hj, r4, H4, -⟩ := hbody
          obtain ⟨i, hload, hconst, hretI⟩ := fc.last
          obtain ⟨w, hw, hcw⟩ := fc.mod.consts _ _ hconst
          have hwf : w = .bool false := by
            have : (constVal (.str "falso") : Option (Val F)) = some (.bool false) := rfl
            rw [this] at hw
            exact (Option.some.inj hw).symm
          subst hwf
          simp only [Option.toList_none, List.append_nil] at H4
          obtain ⟨vm5, e5, H5⟩ := H4.next fc.mod hload
          obtain ⟨vm6, vm7, e6, e7, H7⟩ := H5.pushNext (.bool false)
          have r7 : Runs K vm4 vm7 := Runs.one (by
            have hcw' : a'.cm.image.constants[i]? = some (.bool false) := hcw
            rw [e5]
            simp [exec, operand_cons, hcw', orPanic, e6, e7])
          obtain ⟨vm8, r8, H8⟩ := hback (s1.ip + 3) j (.bool false) st1 vm7 hretI hj (H7.move rfl)
          exact ⟨vm8, [], m.junk_nil, (r4.trans r7).trans r8, by simpa [Pushed] using H8⟩

/-- A function. -/
theorem sim_function (ih : IH K n) {line : Nat} {name : String} {i : Option SymId} {p : Ty}
    {args : List TExpr} {f : Sym} {prom : Ty} (C : Code K a W lp s s')
    (hc : W.callee (.var line name i p) = true) (hk : f.kind = .func ∨ f.kind = .method)
    (hcall : W.mayCall name i = true)
    (hok : okEs W args = true) (hm : m ≠ .any → cleanEs args = true)
    (h : (do genExprs a.cm.ctx args
             genExpr a.cm.ctx (.var line name i p)
             genCallOp a.cm.ctx f args.length prom) s = .ok ((), s')) (H : Here K a st vm s.ip k) :
    Sim K a m lp vm k (Pushed K a s'.ip)
      ((do let vs ← evalEs K.cfg K.L n (pos a W) args
           let r ← apply K.cfg K.L (pos a W) (evalSs K.cfg K.L n) name i vs
           promote prom r : M F (Val F)) st) := by
  have n1 := nice_exprs C hok
  have n2 : Nice W.scope (genExpr a.cm.ctx (.var line name i p)) :=
    ⟨fun n => keeps_genExpr _ n _, fr_callee _ hc⟩
  have n3 : Nice W.scope (genCallOp a.cm.ctx f args.length prom) := ⟨fun n => keeps_genCallOp _ _ _ _, fr_genCallOp _ _ _ _⟩
  obtain ⟨_, t, h1, h2, c1, c2⟩ := C.cut h (by good) (fun _ => by good)
  obtain ⟨_, t2, h3, h4, c3, c4⟩ := c2.cut h2 (by good) (fun _ => by good)
  refine Sim.seq (ih.es c1 hok hm h1 H) ?_
  intro vs st1 vm1 j _ H1
  obtain ⟨H1, hlen⟩ := H1
  have h5 : (do emit .callFunction [args.length]; autoCast a.cm.ctx prom) t2 = .ok ((), s') := by
    unfold genCallOp at h4
    rcases hk with hk | hk <;> rw [hk] at h4 <;> exact h4
  obtain ⟨_, t3, h6, h7, c6, c7⟩ := c4.cut h5 (by good) (fun _ => by good)
  obtain ⟨hi, hip⟩ := c6.ins h6
  rw [← hlen] at hi
  have key : Sim K a .strict lp vm1 (k ++ j) (Pushed K a t3.ip)
      (apply K.cfg K.L (pos a W) (evalSs K.cfg K.L n) name i vs st1) := by
    unfold apply
    refine Sim.lookup fun id hid => ?_
    obtain ⟨sy, t4, hsy, hgl, hread, hload, c8, hip4⟩ := callee_code c3 hc h3 hid
    rw [← hip4] at H1
    refine Sim.lookup fun sy' hsy' => ?_
    rw [hsy] at hsy'
    cases hsy'
    cases hf : K.L.funs sy.modPath sy.name with
    | some d =>
        have hcall' : W.calls = true := by
          unfold Wf.mayCall Wf.nameSym at hcall
          have hid' : (i.orElse fun _ => W.L.env.resolve W.scope name) = some id := by
            rw [C.wf.lang]; exact hid
          rw [hid'] at hcall
          simp only [optAll, C.wf.lang, hsy, Option.all_some, hf, Option.isNone_some, Bool.or_false] at hcall
          exact hcall
        obtain ⟨hall, hret⟩ := C.wf.calls hcall'
        obtain ⟨r, gf, hr, hgf, cm, sym, s0, s1, fc⟩ := H1.globals.funs _ _ _ (hall _) hf
        obtain ⟨vm2, r2, H2⟩ := sim_loadGlobal c8 hload hgl hr hgf H1
        refine Sim.runs r2 ?_
        rw [hip]
        have hctx : gf.module = .main → a.cm.ref = .main := by
          intro hmain
          have hcm : cm.ref = .main := by rw [← fc.ref, hmain]; rfl
          have href : K.ref sy.modPath = some cm.ref := by rw [← fc.path]; exact fc.mod.ref
          rcases loadVariable_known hload hgl with hp | ⟨x, hx⟩
          · have hp' : sy.modPath = a.cm.path := hp.trans C.act.mod.path
            rw [hp', C.act.mod.ref, hcm] at href
            exact Option.some.inj href
          · have := (C.act.mod.imports _ _ hx).1
            have e : K.ref sy.modPath = some (.imp x) := this
            rw [href, hcm] at e
            cases e
        exact sim_invoke ih C.act fc hall hctx hret hi H2
    | none =>
        refine Sim.seq1 (sim_loadVariable c8 hsy hread hload H1) ?_
        intro g st2 vm2 H2
        rw [hip]
        by_cases hg : ∃ gf, g = .func gf
        · obtain ⟨gf, rfl⟩ := hg
          trivial
        · exact sim_native C.act.mod (fun gf e => hg ⟨gf, e⟩) hi H2
  refine Sim.seq1 key ?_
  intro r st2 vm2 H2
  exact sim_autoCast c7 h7 H2

end

end Compiled

end Amanda

import Verif.ExecGen

/-!
# The simulation: expressions

`IH K n` says that generated code does what the source-level evaluation with fuel `n` says, for all
kinds of pieces of program.  This file proves it for expressions with fuel `n + 1` from `IH K n`;
calls are in `Verif.SimCall`, statements in `Verif.SimStmt`.
-/

namespace Amanda

namespace Compiled

open Source Codegen

variable {F : Type} [FloatOps F]

/-- What an expression leaves: its value, except that changes leave nothing; the value of an
assignment is then in its variable. -/
def ePost (K : Link F) (a : Act F) (e : TExpr) (ip : Nat) : Val F → St F → VM F → List (Val F) → Prop :=
  fun v st vm k =>
    match e with
    | .assign _ sym _ => Here K a st vm ip k ∧ readVar K.L sym st = .done v st
    | .set _ _ _ => Here K a st vm ip k
    | .indexSet _ _ _ _ => Here K a st vm ip k
    | _ => Here K a st vm ip (k ++ [v])

/-- What several expressions leave. -/
def esPost (K : Link F) (a : Act F) (n ip : Nat) : List (Val F) → St F → VM F → List (Val F) → Prop :=
  fun vs st vm k => Here K a st vm ip (k ++ vs) ∧ vs.length = n

/-- What named arguments leave. -/
def fsPost (K : Link F) (a : Act F) (n ip : Nat) :
    List (String × Val F) → St F → VM F → List (Val F) → Prop :=
  fun fs st vm k => Here K a st vm ip (k ++ fieldStack fs) ∧ fs.length = n

/-- What statements leave: the value of `produz`. -/
def sPost (K : Link F) (a : Act F) (W : Wf) (ip : Nat) :
    Option (Val F) → St F → VM F → List (Val F) → Prop :=
  fun o st vm k => Here K a st vm ip (k ++ o.toList) ∧ (o.isSome = true → W.yields = true)

/-- Which statements a mode is for. -/
def Mode.okFor (m : Mode) (clean : Bool → Bool) : Prop :=
  match m with
  | .any => True
  | .tidy => clean true = true
  | .strict => clean false = true

/-- The code of an `enquanto`, from its condition at `x0` to its end at `x1`. -/
structure WhileCode (K : Link F) (a : Act F) (W : Wf) (x : ScopeId) (cond : TExpr) (body : List TStmt)
    (x0 x1 : Nat) (t1 t2 t3 t4 : Gen) : Prop where
  okc : okE (W.paraIn x) .value cond = true
  okb : okSs (W.loopIn x) body = true
  codec : Code K a (W.paraIn x) (none, none) t1 t2
  codeb : Code K a (W.loopIn x) (some x0, some x1) t3 t4
  genc : genExpr a.cm.ctx cond t1 = .ok ((), t2)
  genb : genStmts a.cm.ctx body t3 = .ok ((), t4)
  test : InsAt a.cm t2.ip .jumpIfFalse [x1]
  back : InsAt a.cm t4.ip .jump [x0]
  ip1 : t1.ip = x0
  ip3 : t3.ip = t2.ip + Op.jumpIfFalse.size

/-- The code of a `para`, from its condition at `x0` to its end at `x1`. -/
structure ParaCode (K : Link F) (a : Act F) (W : Wf) (lp : Loop) (x : ScopeId) (id : SymId) (stop : TExpr)
    (inc : Option TExpr) (body : List TStmt) (x0 x1 : Nat)
    (c : Sym) (t1 t2 t3 t4 t5 t6 t7 t8 : Gen) : Prop where
  sym : K.L.env.syms[id]? = some c
  read : (W.enter x).canRead id = true
  write : (W.enter x).canWrite id = true
  okt : okE (W.enter x) .value stop = true
  cleant : cleanE stop = true
  oki : ∀ e, inc = some e → okE (W.enter x) .value e = true
  okb : okSs (W.paraIn x) body = true
  codev : Code K a (W.enter x) lp t1 t2
  genv : loadVariable a.cm.ctx c.toSymRef t1 = .ok ((), t2)
  codet : Code K a (W.enter x) lp t2 t3
  gent : genExpr a.cm.ctx stop t2 = .ok ((), t3)
  less : InsAt a.cm t3.ip .opLess []
  test : InsAt a.cm (t3.ip + Op.opLess.size) .jumpIfFalse [x1]
  ip4 : t4.ip = t3.ip + Op.opLess.size + Op.jumpIfFalse.size
  codeb : Code K a (W.paraIn x) (none, none) t4 t5
  genb : genStmts a.cm.ctx body t4 = .ok ((), t5)
  codei : Code K a (W.enter x) lp t5 t6
  geni : genInc (genOpt a.cm.ctx inc) t5 = .ok ((), t6)
  codew : Code K a (W.enter x) lp t6 t7
  genw : loadVariable a.cm.ctx c.toSymRef t6 = .ok ((), t7)
  add : InsAt a.cm t7.ip .opAdd []
  ip8 : t8.ip = t7.ip + Op.opAdd.size
  codes : ∃ t9, Code K a (W.enter x) lp t8 t9 ∧ setVariable c.toSymRef t8 = .ok ((), t9) ∧
    InsAt a.cm t9.ip .jump [x0]
  ip1 : t1.ip = x0

/-- The generated code does what evaluation with fuel `n` says. -/
structure IH (K : Link F) (n : Nat) : Prop where
  e : ∀ {a : Act F} {W : Wf} {lp : Loop} {s s' : Gen} {m : Mode} {st : St F} {vm : VM F}
    {k : List (Val F)} {u : Use} {e : TExpr}, Code K a W lp s s' → okE W u e = true →
    (m ≠ .any → cleanE e = true) → genExpr a.cm.ctx e s = .ok ((), s') → Here K a st vm s.ip k →
    Sim K a m lp vm k (ePost K a e s'.ip) (evalE K.cfg K.L n (pos a W) e st)
  es : ∀ {a : Act F} {W : Wf} {lp : Loop} {s s' : Gen} {m : Mode} {st : St F} {vm : VM F}
    {k : List (Val F)} {es : List TExpr}, Code K a W lp s s' → okEs W es = true →
    (m ≠ .any → cleanEs es = true) → genExprs a.cm.ctx es s = .ok ((), s') → Here K a st vm s.ip k →
    Sim K a m lp vm k (esPost K a es.length s'.ip) (evalEs K.cfg K.L n (pos a W) es st)
  fields : ∀ {a : Act F} {W : Wf} {lp : Loop} {s s' : Gen} {st : St F} {vm : VM F}
    {k : List (Val F)} {es : List TExpr}, Code K a W lp s s' → okFields W es = true →
    genExprs a.cm.ctx es s = .ok ((), s') → Here K a st vm s.ip k →
    Sim K a .strict lp vm k (fsPost K a es.length s'.ip) (evalFields K.cfg K.L n (pos a W) es st)
  d : ∀ {a : Act F} {W : Wf} {lp : Loop} {s s' : Gen} {m : Mode} {st : St F} {vm : VM F}
    {k : List (Val F)} {d : Decision}, Code K a W lp s s' → okD W d = true →
    (m ≠ .any → cleanD d = true) → genDecision a.cm.ctx d s = .ok ((), s') → Here K a st vm s.ip k →
    Sim K a m lp vm k (sPost K a W s'.ip) (evalD K.cfg K.L n (pos a W) d st)
  cases : ∀ {a : Act F} {W : Wf} {lp : Loop} {s s' : Gen} {m : Mode} {st : St F} {vm : VM F}
    {k : List (Val F)} {id : SymId} {l x : Nat} {cs : List DCase}, Code K a W lp s s' →
    W.canRead id = true → okCases W cs = true → (m ≠ .any → cleanCases cs = true) →
    genCases a.cm.ctx id l cs s = .ok ((), s') → a.cm.fin.labels[l]? = some x →
    Here K a st vm s.ip k →
    Sim K a m lp vm k (sPost K a W x) (evalCases K.cfg K.L n (pos a W) id cs st)
  s : ∀ {a : Act F} {W : Wf} {lp : Loop} {s s' : Gen} {m : Mode} {st : St F} {vm : VM F}
    {k : List (Val F)} {c : TStmt}, Code K a W lp s s' → okS W c = true →
    m.okFor (cleanS · c) → genStmt a.cm.ctx c s = .ok ((), s') → Here K a st vm s.ip k →
    Sim K a m lp vm k (sPost K a W s'.ip) (evalS K.cfg K.L n (pos a W) c st)
  ss : ∀ {a : Act F} {W : Wf} {lp : Loop} {s s' : Gen} {m : Mode} {st : St F} {vm : VM F}
    {k : List (Val F)} {cs : List TStmt}, Code K a W lp s s' → okSs W cs = true →
    m.okFor (cleanSs · cs) → genStmts a.cm.ctx cs s = .ok ((), s') → Here K a st vm s.ip k →
    Sim K a m lp vm k (sPost K a W s'.ip) (evalSs K.cfg K.L n (pos a W) cs st)
  b : ∀ {a : Act F} {W : Wf} {lp : Loop} {s s' : Gen} {m : Mode} {st : St F} {vm : VM F}
    {k : List (Val F)} {c : TBlock}, Code K a W lp s s' → okB W c = true →
    m.okFor (cleanB · c) → genBlock a.cm.ctx c s = .ok ((), s') → Here K a st vm s.ip k →
    Sim K a m lp vm k (sPost K a W s'.ip) (evalB K.cfg K.L n (pos a W) c st)
  elses : ∀ {a : Act F} {W : Wf} {lp : Loop} {s s' : Gen} {m : Mode} {st : St F} {vm : VM F}
    {k : List (Val F)} {l : Nat} {es : List TElse} {eb : Option TBlock}, Code K a W lp s s' →
    okElses W es = true → okOptB W eb = true → m.okFor (cleanElses · es) → m.okFor (cleanOptB · eb) →
    (do genElses a.cm.ctx l es; genOptBlock a.cm.ctx eb) s = .ok ((), s') →
    a.cm.fin.labels[l]? = some s'.ip → Here K a st vm s.ip k →
    Sim K a m lp vm k (sPost K a W s'.ip) (evalElses K.cfg K.L n (pos a W) es eb st)
  while' : ∀ {a : Act F} {W : Wf} {lp : Loop} {m : Mode} {st : St F} {vm : VM F}
    {k : List (Val F)} {x : ScopeId} {cond : TExpr} {body : List TStmt} {x0 x1 : Nat} {t1 t2 t3 t4 : Gen},
    WhileCode K a W x cond body x0 x1 t1 t2 t3 t4 → (m ≠ .any → cleanE cond = true) →
    m.okFor (cleanSs · body) → Here K a st vm x0 k →
    Sim K a m lp vm k (sPost K a W x1) (evalWhile K.cfg K.L n (pos a (W.enter x)) cond body st)
  para : ∀ {a : Act F} {W : Wf} {lp : Loop} {m : Mode} {st : St F} {vm : VM F}
    {k : List (Val F)} {x : ScopeId} {id : SymId} {stop : TExpr} {inc : Option TExpr} {body : List TStmt}
    {x0 x1 : Nat} {c : Sym} {t1 t2 t3 t4 t5 t6 t7 t8 : Gen},
    ParaCode K a W lp x id stop inc body x0 x1 c t1 t2 t3 t4 t5 t6 t7 t8 →
    (m ≠ .any → ∀ e, inc = some e → cleanE e = true) →
    m.okFor (cleanSs · body) → Here K a st vm x0 k →
    Sim K a m lp vm k (sPost K a W x1) (evalPara K.cfg K.L n (pos a (W.enter x)) id stop inc body st)
  paraStep : ∀ {a : Act F} {W : Wf} {lp : Loop} {m : Mode} {st : St F} {vm : VM F}
    {k : List (Val F)} {x : ScopeId} {id : SymId} {stop : TExpr} {inc : Option TExpr} {body : List TStmt}
    {x0 x1 : Nat} {c : Sym} {t1 t2 t3 t4 t5 t6 t7 t8 : Gen},
    ParaCode K a W lp x id stop inc body x0 x1 c t1 t2 t3 t4 t5 t6 t7 t8 →
    (m ≠ .any → ∀ e, inc = some e → cleanE e = true) →
    m.okFor (cleanSs · body) → Here K a st vm t5.ip k →
    Sim K a m lp vm k (sPost K a W x1) (evalParaStep K.cfg K.L n (pos a (W.enter x)) id stop inc body st)
  inc : ∀ {a : Act F} {W : Wf} {lp : Loop} {s s' : Gen} {m : Mode} {st : St F} {vm : VM F}
    {k : List (Val F)} {i : Option TExpr}, Code K a W lp s s' →
    (∀ e, i = some e → okE W .value e = true) → (m ≠ .any → ∀ e, i = some e → cleanE e = true) →
    genInc (genOpt a.cm.ctx i) s = .ok ((), s') → Here K a st vm s.ip k →
    Sim K a m lp vm k (Pushed K a s'.ip) (evalInc K.cfg K.L n (pos a W) i st)

section
variable {K : Link F} {a : Act F} {W : Wf} {lp : Loop} {s s' : Gen} {m : Mode} {vm vm' : VM F}
  {st : St F} {k : List (Val F)} {ip : Nat} {n : Nat}

/-- Only the line changes at the beginning of a node. -/
theorem Code.atLine {l : Nat} {g : G Unit} {u : Unit} (C : Code K a W lp s s')
    (h : atLine l g s = .ok (u, s')) :
    ∃ t, g t = .ok ((), s') ∧ Code K a W lp t s' ∧ t.ip = s.ip ∧ t.labels = s.labels := by
  unfold Codegen.atLine at h
  gbind h with u1 t e
  have et := modify_ok e
  have S : Step 0 s t := by subst et; exact Step.same rfl rfl rfl rfl rfl rfl rfl rfl
  refine ⟨t, h, ⟨C.act, C.wf, ?_, C.fits.right S, ?_⟩, ?_, ?_⟩
  · rw [et]; exact C.scope
  · rw [← C.loop]; unfold loopOf; rw [et]
  · rw [et]
  · rw [et]

/-- `produz` does not matter for the code. -/
theorem Code.yields (C : Code K a W lp s s') (b : Bool) : Code K a { W with yields := b } lp s s' :=
  ⟨C.act, ⟨C.wf.lang, C.wf.home, C.wf.chain, C.wf.above, C.wf.mod, C.wf.calls⟩, C.scope, C.fits, C.loop⟩

theorem nice_expr (C : Code K a W lp s s') {u : Use} {e : TExpr} (h : okE W u e = true) :
    Nice W.scope (genExpr a.cm.ctx e) :=
  ⟨fun n => keeps_genExpr _ n e, fr_genExpr _ W C.env u e h⟩

theorem nice_exprs (C : Code K a W lp s s') {es : List TExpr} (h : okEs W es = true) :
    Nice W.scope (genExprs a.cm.ctx es) :=
  ⟨fun n => keeps_genExprs _ n es, fr_genExprs _ W C.env es h⟩

theorem nice_fields (C : Code K a W lp s s') {es : List TExpr} (h : okFields W es = true) :
    Nice W.scope (genExprs a.cm.ctx es) :=
  ⟨fun n => keeps_genExprs _ n es, fr_genFields _ W C.env es h⟩

/-- Expressions used for their value leave it. -/
theorem ePost_value {e : TExpr} (h : okE W .value e = true) : ePost K a e ip = Pushed K a ip := by
  cases e <;> first | rfl | skip
  · simp [okE] at h
  · simp [okE] at h
  · rename_i t v
    cases t <;> simp [okE] at h

/-- The value of an expression. -/
theorem IH.value (ih : IH K n) {e : TExpr} (C : Code K a W lp s s') (hok : okE W .value e = true)
    (hm : m ≠ .any → cleanE e = true) (h : genExpr a.cm.ctx e s = .ok ((), s')) (H : Here K a st vm s.ip k) :
    Sim K a m lp vm k (Pushed K a s'.ip) (evalE K.cfg K.L n (pos a W) e st) := by
  rw [← ePost_value (a := a) hok]
  exact ih.e C hok hm h H

theorem IH.strict (ih : IH K n) {e : TExpr} (C : Code K a W lp s s') (hok : okE W .value e = true)
    (hm : cleanE e = true) (h : genExpr a.cm.ctx e s = .ok ((), s')) (H : Here K a st vm s.ip k) :
    Sim K a .strict lp vm k (Pushed K a s'.ip) (evalE K.cfg K.L n (pos a W) e st) :=
  ih.value C hok (fun _ => hm) h H

/-! ## One lemma for each kind of expression -/

theorem sim_const {lexeme : String} {prom : Ty} (C : Code K a W lp s s')
    (h : genConstant a.cm.ctx lexeme prom s = .ok ((), s')) (H : Here K a st vm s.ip k) :
    Sim K a m lp vm k (Pushed K a s'.ip)
      ((do let v ← M.need (literal lexeme); promote prom v : M F (Val F)) st) := by
  unfold genConstant at h
  obtain ⟨_, t, h1, h2, c1, c2⟩ := C.cut h (by good) (fun _ => by good)
  obtain ⟨v, vm1, hv, r1, H1⟩ := sim_loadConst c1 h1 H
  refine Sim.lookup fun w hw => ?_
  have : w = v := by
    have hv' : (literal lexeme : Option (Val F)) = some v := hv
    rw [hw] at hv'
    exact Option.some.inj hv'
  subst this
  exact Sim.runs r1 (sim_autoCast c2 h2 H1)

theorem sim_fmtStr (ih : IH K n) {parts : List TExpr} (C : Code K a W lp s s')
    (hok : okEs W parts = true) (hm : m ≠ .any → cleanEs parts = true)
    (h : genFmtStr (genExprs a.cm.ctx parts) parts.length s = .ok ((), s')) (H : Here K a st vm s.ip k) :
    Sim K a m lp vm k (Pushed K a s'.ip)
      ((do let vs ← evalEs K.cfg K.L n (pos a W) parts
           let h ← M.heap
           let ss ← M.res (vs.mapM (displayVal h))
           pure (.str (String.join ss)) : M F (Val F)) st) := by
  unfold genFmtStr at h
  have n1 := nice_exprs C hok
  obtain ⟨_, t, h1, h2, c1, c2⟩ := C.cut h (by good) (fun _ => by good)
  refine Sim.seq (ih.es c1 hok hm h1 H) ?_
  intro vs st1 vm1 j _ H1
  obtain ⟨H1, hlen⟩ := H1
  obtain ⟨hi, hip⟩ := c2.ins h2
  rw [hip]
  rw [← hlen] at hi
  exact sim_buildStr C.act.mod hi H1

theorem sim_list (ih : IH K n) {es : List TExpr} (C : Code K a W lp s s')
    (hok : okEs W es = true) (hm : m ≠ .any → cleanEs es = true)
    (h : genList (genExprs a.cm.ctx es) es.length s = .ok ((), s')) (H : Here K a st vm s.ip k) :
    Sim K a m lp vm k (Pushed K a s'.ip)
      ((do let vs ← evalEs K.cfg K.L n (pos a W) es
           let c ← M.alloc (.vec vs)
           pure (.vector c) : M F (Val F)) st) := by
  unfold genList at h
  have n1 := nice_exprs C hok
  obtain ⟨_, t, h1, h2, c1, c2⟩ := C.cut h (by good) (fun _ => by good)
  refine Sim.seq (ih.es c1 hok hm h1 H) ?_
  intro vs st1 vm1 j _ H1
  obtain ⟨H1, hlen⟩ := H1
  obtain ⟨hi, hip⟩ := c2.ins h2
  rw [hip]
  rw [← hlen] at hi
  exact sim_buildVec C.act.mod hi H1

theorem sim_var {name : String} {sym : Option SymId} {prom : Ty} (C : Code K a W lp s s')
    (hok : optAll (W.nameSym name sym) W.canRead = true)
    (h : genVariable a.cm.ctx name sym prom s = .ok ((), s')) (H : Here K a st vm s.ip k) :
    Sim K a m lp vm k (Pushed K a s'.ip)
      ((do let id ← nameSym K.L (pos a W) name sym
           let v ← readVar K.L id
           promote prom v : M F (Val F)) st) := by
  unfold genVariable at h
  gbind h with s0 t0 e0
  obtain ⟨e1, e2⟩ := get_ok e0
  rw [e1, e2] at h
  gbind h with v t1 e3
  obtain ⟨hv, e4⟩ := symOf_ok e3
  rw [e4] at h
  obtain ⟨_, t, h1, h2, c1, c2⟩ := C.cut h (by good) (fun _ => by good)
  refine Sim.lookup fun id hid => ?_
  have hid' : W.nameSym name sym = some id := by
    unfold Wf.nameSym
    rw [C.wf.lang]
    exact hid
  rw [hid'] at hok
  have hsy : K.L.env.syms[id]? = some v := by
    rw [C.act.mod.env, C.scope] at hv
    have : (sym.orElse fun _ => K.L.env.resolve W.scope name) = some id := hid
    rw [this] at hv
    exact hv
  refine Sim.seq1 (sim_loadVariable c1 hsy hok h1 H) ?_
  intro w st1 vm1 H1
  exact sim_autoCast c2 h2 H1

theorem sim_alvo {id : SymId} (C : Code K a W lp s s') (hok : W.canRead id = true)
    (h : genAlvo a.cm.ctx id s = .ok ((), s')) (H : Here K a st vm s.ip k) :
    Sim K a m lp vm k (Pushed K a s'.ip) (readVar K.L id st) :=
  Sim.relax (sim_readSym C h hok H)

theorem convTarget_ok {to : Ty} {t : VTy} (h : convTarget to = some t) (ctx : GenCtx) :
    t ≠ .vector ∧ (tyRef ctx to).isGlobal = true ∧ (tyRef ctx to).name = t.name ∧
      (tyRef ctx to).modPath = ctx.builtinPath := by
  unfold convTarget at h
  split at h
  · rename_i e; subst e; cases h; exact ⟨by decide, rfl, rfl, rfl⟩
  · split at h
    · rename_i e; subst e; cases h; exact ⟨by decide, rfl, rfl, rfl⟩
    · split at h
      · rename_i e; subst e; cases h; exact ⟨by decide, rfl, rfl, rfl⟩
      · split at h
        · rename_i e; subst e; cases h; exact ⟨by decide, rfl, rfl, rfl⟩
        · cases h

theorem sim_converta (ih : IH K n) {e : TExpr} {fromTy toTy : Ty} (C : Code K a W lp s s')
    (hok : okE W .value e = true) (hm : m ≠ .any → cleanE e = true)
    (h : genConverta a.cm.ctx (genExpr a.cm.ctx e) fromTy toTy s = .ok ((), s')) (H : Here K a st vm s.ip k) :
    Sim K a m lp vm k (Pushed K a s'.ip)
      ((do let v ← evalE K.cfg K.L n (pos a W) e; convert fromTy toTy v : M F (Val F)) st) := by
  unfold genConverta at h
  have n1 := nice_expr C hok
  obtain ⟨_, t, h1, h2, c1, c2⟩ := C.cut h (by good) (fun _ => by good)
  refine Sim.seq (ih.value c1 hok hm h1 H) ?_
  intro v st1 vm1 j _ H1
  unfold convert
  by_cases he : (toTy.eqv fromTy || toTy.eqv .indef) = true
  · rw [if_pos he] at h2 ⊢
    obtain ⟨-, rfl⟩ := pure_ok h2
    exact Sim.done (.refl _) H1
  · rw [if_neg he] at h2 ⊢
    refine Sim.lookup fun ty hty => ?_
    obtain ⟨q1, q2, q3, q4⟩ := convTarget_ok hty a.cm.ctx
    obtain ⟨_, t2, h3, h4, c3, c4⟩ := c2.cut h2 (by good) (fun _ => by good)
    obtain ⟨vm2, r2, H2⟩ := sim_loadType q1 c3 h3 q2 q3 (by rw [q4]; exact C.act.mod.bpath) H1
    obtain ⟨hi, hip⟩ := c4.ins h4
    rw [hip]
    refine Sim.runs r2 ?_
    by_cases hf : fromTy.eqv .indef = true
    · rw [if_pos hf] at hi ⊢
      exact sim_cast1 C.act.mod hi H2
    · rw [if_neg hf] at hi ⊢
      exact sim_cast0 C.act.mod hi H2

/-- The instructions of the operators. -/
theorem binOpcode_exec {op : TT} {o : Op} (h : binOpcode op = some o) :
    operator op = some o ∧ (¬ (o = .jumpIfFalse ∨ o = .jump)) ∧
    ∀ (cfg : Cfg) (prog : Program F) (i : Module F) (vm1 : VM F), exec cfg prog i vm1 o [] = execBin prog vm1 o := by
  cases op <;> cases h <;> exact ⟨rfl, by decide, fun _ _ _ _ => rfl⟩

theorem unOpcode_exec {op : TT} {o : Op} (h : unOpcode op = some o) :
    prefixOp op = some o ∧ (¬ (o = .jumpIfFalse ∨ o = .jump)) ∧
    ∀ (cfg : Cfg) (prog : Program F) (i : Module F) (vm1 : VM F), exec cfg prog i vm1 o [] = execUnary cfg vm1 o := by
  cases op <;> cases h <;> exact ⟨rfl, by decide, fun _ _ _ _ => rfl⟩

theorem sim_nullTest (ih : IH K n) {e : TExpr} {neg : Bool} (C : Code K a W lp s s')
    (hok : okE W .value e = true) (hm : m ≠ .any → cleanE e = true)
    (h : genNullTest (genExpr a.cm.ctx e) neg s = .ok ((), s')) (H : Here K a st vm s.ip k) :
    Sim K a m lp vm k (Pushed K a s'.ip)
      ((do let v ← evalE K.cfg K.L n (pos a W) e; pure (.bool (v.isNone != neg)) : M F (Val F)) st) := by
  unfold genNullTest at h
  have n1 := nice_expr C hok
  obtain ⟨_, t, h1, h2, c1, c2⟩ := C.cut h (by good) (fun _ => by good)
  obtain ⟨_, t2, h3, h4, c3, c4⟩ := c2.cut h2 (by good) (fun _ => by good)
  refine Sim.seq (ih.value c1 hok hm h1 H) ?_
  intro v st1 vm1 j _ H1
  obtain ⟨hi, hip⟩ := c3.ins h3
  obtain ⟨vm2, r2, H2⟩ := sim_isnull C.act.mod hi H1
  rw [← hip] at H2
  cases neg with
  | true =>
      rw [if_pos rfl] at h4
      obtain ⟨hi2, hip2⟩ := c4.ins h4
      obtain ⟨vm3, r3, H3⟩ := sim_not C.act.mod hi2 H2
      rw [← hip2] at H3
      exact Sim.done (r2.trans r3) (by simpa [Pushed] using H3)
  | false =>
      rw [if_neg (by simp)] at h4
      obtain ⟨-, rfl⟩ := pure_ok h4
      exact Sim.done r2 (by simpa [Pushed] using H2)

theorem sim_operator (ih : IH K n) {op : TT} {l r : TExpr} {prom : Ty} (C : Code K a W lp s s')
    (hl : okE W .value l = true) (hr : okE W .value r = true) (hc : cleanE r = true)
    (hm : m ≠ .any → cleanE l = true)
    (h : genOperator a.cm.ctx op (genExpr a.cm.ctx l) (genExpr a.cm.ctx r) prom s = .ok ((), s'))
    (H : Here K a st vm s.ip k) :
    Sim K a m lp vm k (Pushed K a s'.ip)
      ((do let x ← evalE K.cfg K.L n (pos a W) l
           let y ← evalE K.cfg K.L n (pos a W) r
           let o ← M.need (operator op)
           let v ← M.res (binop x o y)
           promote prom v : M F (Val F)) st) := by
  unfold genOperator at h
  have n1 := nice_expr C hl
  have n2 := nice_expr C hr
  obtain ⟨_, t, h1, h2, c1, c2⟩ := C.cut h (by good) (fun _ => by good)
  obtain ⟨_, t2, h3, h4, c3, c4⟩ := c2.cut h2 (by good) (fun _ => by good)
  gbind h4 with o t3 e3
  obtain ⟨ho, e4⟩ := need_ok e3
  rw [e4] at h4
  obtain ⟨_, t5, h5, h6, c5, c6⟩ := c4.cut h4 (by good) (fun _ => by good)
  obtain ⟨q1, q2, q3⟩ := binOpcode_exec (F := F) ho
  refine Sim.seq (ih.value c1 hl hm h1 H) ?_
  intro x st1 vm1 j _ H1
  refine Sim.seq1 (ih.strict c3 hr hc h3 H1) ?_
  intro y st2 vm2 H2
  refine Sim.lookup fun o' ho' => ?_
  rw [q1] at ho'
  cases ho'
  obtain ⟨hi, hip⟩ := c5.ins h5 q2
  refine Sim.seq1 (sim_bin (lp := lp) C.act.mod hi (fun vm1 => q3 _ _ _ vm1) H2) ?_
  intro v st3 vm3 H3
  unfold Pushed at H3
  rw [← hip] at H3
  exact sim_autoCast c6 h6 H3

theorem sim_un (ih : IH K n) {op : TT} {e : TExpr} {prom : Ty} (C : Code K a W lp s s')
    (hok : okE W .value e = true) (hm : m ≠ .any → cleanE e = true)
    (h : genUnaryop a.cm.ctx op (genExpr a.cm.ctx e) prom s = .ok ((), s')) (H : Here K a st vm s.ip k) :
    Sim K a m lp vm k (Pushed K a s'.ip)
      ((do let x ← evalE K.cfg K.L n (pos a W) e
           let o ← M.need (prefixOp op)
           let v ← M.need (unary K.cfg o x)
           promote prom v : M F (Val F)) st) := by
  unfold genUnaryop at h
  have n1 := nice_expr C hok
  obtain ⟨_, t, h1, h2, c1, c2⟩ := C.cut h (by good) (fun _ => by good)
  gbind h2 with o t3 e3
  obtain ⟨ho, e4⟩ := need_ok e3
  rw [e4] at h2
  obtain ⟨_, t5, h5, h6, c5, c6⟩ := c2.cut h2 (by good) (fun _ => by good)
  obtain ⟨q1, q2, q3⟩ := unOpcode_exec (F := F) ho
  refine Sim.seq (ih.value c1 hok hm h1 H) ?_
  intro x st1 vm1 j _ H1
  refine Sim.lookup fun o' ho' => ?_
  rw [q1] at ho'
  cases ho'
  obtain ⟨hi, hip⟩ := c5.ins h5 q2
  refine Sim.seq1 (sim_unary (lp := lp) C.act.mod hi (fun vm1 => q3 _ _ _ vm1) H1) ?_
  intro v st3 vm3 H3
  unfold Pushed at H3
  rw [← hip] at H3
  exact sim_autoCast c6 h6 H3

omit [FloatOps F] in
/-- What was written can be read. -/
theorem writeVar_read {L : Lang} {id : SymId} {sy : Sym} (h : L.env.syms[id]? = some sy) (v : Val F) (st : St F) :
    ∃ st', writeVar L id (some v) st = .done () st' ∧ readVar L id st' = .done v st' := by
  by_cases hg : sy.isGlobal = true
  · exact ⟨_, by unfold writeVar; rw [h]; simp only [hg, if_true]; rfl,
      by unfold readVar; rw [h]; simp only [hg, if_true]; simp [M.need]; rfl⟩
  · exact ⟨_, by unfold writeVar; rw [h]; simp only [hg]; rfl,
      by unfold readVar; rw [h]; simp only [hg]; simp [M.need]; rfl⟩

/-- The right side of an assignment: its value ends up on the stack. -/
theorem sim_rhs (ih : IH K n) {e : TExpr} (C : Code K a W lp s s') (hok : okE W .rhs e = true)
    (hm : m ≠ .any → cleanE e = true)
    (h : (do genExpr a.cm.ctx e; genChain a.cm.ctx (assignedSym e)) s = .ok ((), s'))
    (H : Here K a st vm s.ip k) :
    Sim K a m lp vm k (Pushed K a s'.ip) (evalE K.cfg K.L n (pos a W) e st) := by
  have n1 := nice_expr C hok
  have n2 : Nice W.scope (genChain a.cm.ctx (assignedSym e)) :=
    ⟨fun n => by unfold genChain; split <;> repeat keep, fr_genChain _ _⟩
  obtain ⟨_, t, h1, h2, c1, c2⟩ := C.cut h (by good) (fun _ => by good)
  have hs := ih.e c1 hok hm h1 H
  by_cases hv : okE W .value e = true
  · have hn : assignedSym e = none := by
      cases e <;> first | rfl | (simp [okE] at hv)
    rw [hn] at h2
    obtain ⟨-, rfl⟩ := pure_ok h2
    rw [ePost_value hv] at hs
    exact hs
  · -- an assignment
    have ha : ∃ l sym r, e = .assign l sym r := by
      cases e <;> first | exact ⟨_, _, _, rfl⟩ | skip
      all_goals exfalso
      all_goals first
        | exact hv hok
        | (apply hv; simpa [okE] using hok)
        | (simp [okE] at hok; done)
        | skip
      · rename_i t v
        cases t <;> simp [okE] at hok
      · rename_i o d
        cases d <;> (apply hv; simpa [okE] using hok)
    obtain ⟨l, sym, r, rfl⟩ := ha
    cases ho : evalE K.cfg K.L n (pos a W) (.assign l sym r) st with
    | stuck => trivial
    | fuel r => rw [ho] at hs; exact hs
    | fail msg w => rw [ho] at hs; exact hs
    | leave c st' => rw [ho] at hs; exact hs
    | done v st' =>
        rw [ho] at hs
        obtain ⟨vm1, j, hj, r1, H1, hread⟩ := hs
        simp only [okE, Bool.and_eq_true] at hok
        have hw := hok.1.2
        have hc : W.canRead sym = true := by
          unfold Wf.canWrite at hw
          unfold Wf.canRead
          cases hsy : W.L.env.syms[sym]? with
          | none => rw [hsy] at hw; cases hw
          | some sy =>
              rw [hsy] at hw
              dsimp only at hw ⊢
              by_cases hg : sy.isGlobal = true
              · simp [hg]
              · rw [if_neg hg] at hw
                simp [hw]
        have hs2 := sim_readSym c2 h2 hc H1
        rw [hread] at hs2
        obtain ⟨vm2, j2, hj2, r2, H2⟩ := hs2
        have : j2 = [] := by
          rcases hj2 with h | h
          · cases h
          · exact h
        subst this
        exact ⟨vm2, j, hj, r1.trans r2, by simpa using H2⟩

/-- An assignment (also that of a declaration). -/
theorem sim_assign (hK : LinkOk K) (ih : IH K n) {e : TExpr} {id : SymId} (C : Code K a W lp s s')
    (hok : okE W .rhs e = true) (hw : W.canWrite id = true) (hm : m ≠ .any → cleanE e = true)
    (h : genAssign a.cm.ctx (genExpr a.cm.ctx e) (assignedSym e) id s = .ok ((), s'))
    (H : Here K a st vm s.ip k) :
    Sim K a m lp vm k (fun v st vm k => Here K a st vm s'.ip k ∧ readVar K.L id st = .done v st)
      ((do let v ← evalE K.cfg K.L n (pos a W) e
           writeVar K.L id (some v)
           pure v : M F (Val F)) st) := by
  have n1 := nice_expr C hok
  have n2 : Nice W.scope (genChain a.cm.ctx (assignedSym e)) :=
    ⟨fun n => by unfold genChain; split <;> repeat keep, fr_genChain _ _⟩
  have h' : ((do genExpr a.cm.ctx e; genChain a.cm.ctx (assignedSym e) : G Unit) >>= fun _ =>
      (do let v ← symOf a.cm.ctx (some id); setVariable v.toSymRef)) s = .ok ((), s') := by
    unfold genAssign at h
    gbind h with u1 t1 e1
    gbind h with u2 t2 e2
    exact G.bind_ok.2 ⟨u2, t2, G.bind_ok.2 ⟨u1, t1, e1, e2⟩, h⟩
  obtain ⟨_, t, h1, h2, c1, c2⟩ := C.cut h' (by good) (fun _ => by good)
  gbind h2 with sy t3 e3
  obtain ⟨hsy, e4⟩ := symOf_same e3
  rw [e4] at h2
  rw [C.act.mod.env] at hsy
  refine Sim.seq (sim_rhs ih c1 hok hm h1 H) ?_
  intro v st1 vm1 j _ H1
  obtain ⟨st2, hwr, hrd⟩ := writeVar_read hsy v st1
  have hs := sim_setVariable hK c2 hsy hw h2 H1 (Or.inr rfl)
  show Sim K a m lp vm1 (k ++ j) _ ((writeVar K.L id (some v) st1).next fun _ st => .done v st)
  rw [hwr] at hs ⊢
  obtain ⟨vm2, i, hi, r2, H2⟩ := hs
  have : i = [] := by
    rcases hi with h | h
    · cases h
    · exact h
  subst this
  exact ⟨vm2, [], m.junk_nil, r2, H2, hrd⟩

theorem sim_get (ih : IH K n) {e : TExpr} {name : String} (C : Code K a W lp s s')
    (hok : okE W .value e = true) (hm : m ≠ .any → cleanE e = true)
    (h : genGet (genExpr a.cm.ctx e) name false s = .ok ((), s')) (H : Here K a st vm s.ip k) :
    Sim K a m lp vm k (Pushed K a s'.ip)
      ((do let o ← evalE K.cfg K.L n (pos a W) e; readField o name : M F (Val F)) st) := by
  unfold genGet at h
  have n1 := nice_expr C hok
  obtain ⟨_, t, h1, h2, c1, c2⟩ := C.cut h (by good) (fun _ => by good)
  obtain ⟨_, t2, h3, h4, c3, c4⟩ := c2.cut h2 (by good) (fun _ => by good)
  refine Sim.seq (ih.value c1 hok hm h1 H) ?_
  intro v st1 vm1 j _ H1
  obtain ⟨vm2, r2, H2⟩ := sim_loadName c3 h3 H1
  rw [if_neg (by simp)] at h4
  obtain ⟨hi, hip⟩ := c4.ins h4
  rw [hip]
  exact Sim.runs r2 (sim_getProp C.act.mod hi H2)

theorem sim_index (ih : IH K n) {e i : TExpr} (C : Code K a W lp s s')
    (hok : okE W .value e = true) (hi : okE W .value i = true) (hc : cleanE i = true)
    (hm : m ≠ .any → cleanE e = true)
    (h : genIndexGet (genExpr a.cm.ctx e) (genExpr a.cm.ctx i) s = .ok ((), s')) (H : Here K a st vm s.ip k) :
    Sim K a m lp vm k (Pushed K a s'.ip)
      ((do let t ← evalE K.cfg K.L n (pos a W) e
           let i ← evalE K.cfg K.L n (pos a W) i
           let i ← asIndex i
           let h ← M.heap
           M.res (indexGet K.cfg h t i) : M F (Val F)) st) := by
  unfold genIndexGet at h
  have n1 := nice_expr C hok
  have n2 := nice_expr C hi
  obtain ⟨_, t, h1, h2, c1, c2⟩ := C.cut h (by good) (fun _ => by good)
  obtain ⟨_, t2, h3, h4, c3, c4⟩ := c2.cut h2 (by good) (fun _ => by good)
  refine Sim.seq (ih.value c1 hok hm h1 H) ?_
  intro v st1 vm1 j _ H1
  refine Sim.seq1 (ih.strict c3 hi hc h3 H1) ?_
  intro y st2 vm2 H2
  obtain ⟨hi, hip⟩ := c4.ins h4
  rw [hip]
  exact sim_indexGet C.act.mod hi H2

theorem sim_idxSet (ih : IH K n) {e i v : TExpr} (C : Code K a W lp s s')
    (hok : okE W .value e = true) (hi : okE W .value i = true) (hc : cleanE i = true)
    (hv : okE W .value v = true) (hcv : cleanE v = true) (hm : m ≠ .any → cleanE e = true)
    (h : genIndexSet (genExpr a.cm.ctx e) (genExpr a.cm.ctx i) (genExpr a.cm.ctx v) s = .ok ((), s'))
    (H : Here K a st vm s.ip k) :
    Sim K a m lp vm k (Arrived K a s'.ip)
      ((do let t ← evalE K.cfg K.L n (pos a W) e
           let i ← evalE K.cfg K.L n (pos a W) i
           let v ← evalE K.cfg K.L n (pos a W) v
           let i ← asIndex i
           let h ← M.heap
           let h ← M.res (indexSet h t i v)
           M.setHeap h
           pure v : M F (Val F)) st) := by
  unfold genIndexSet at h
  have n1 := nice_expr C hok
  have n2 := nice_expr C hi
  have n3 := nice_expr C hv
  obtain ⟨_, t, h1, h2, c1, c2⟩ := C.cut h (by good) (fun _ => by good)
  obtain ⟨_, t2, h3, h4, c3, c4⟩ := c2.cut h2 (by good) (fun _ => by good)
  obtain ⟨_, t3, h5, h6, c5, c6⟩ := c4.cut h4 (by good) (fun _ => by good)
  refine Sim.seq (ih.value c1 hok hm h1 H) ?_
  intro x st1 vm1 j _ H1
  refine Sim.seq1 (ih.strict c3 hi hc h3 H1) ?_
  intro y st2 vm2 H2
  refine Sim.seq1 (ih.strict c5 hv hcv h5 H2) ?_
  intro z st3 vm3 H3
  obtain ⟨hi, hip⟩ := c6.ins h6
  rw [hip]
  exact sim_indexSet C.act.mod hi H3

theorem sim_set (ih : IH K n) {e v : TExpr} {name : String} {line : Nat} (C : Code K a W lp s s')
    (hok : okE W .value e = true) (hv : okE W .value v = true) (hcv : cleanE v = true)
    (hm : m ≠ .any → cleanE e = true)
    (h : genSet (genExpr a.cm.ctx (.get line e name true)) (genExpr a.cm.ctx v) s = .ok ((), s'))
    (H : Here K a st vm s.ip k) :
    Sim K a m lp vm k (Arrived K a s'.ip)
      ((do let o ← evalE K.cfg K.L n (pos a W) e
           let v ← evalE K.cfg K.L n (pos a W) v
           writeField o name v
           pure v : M F (Val F)) st) := by
  unfold genSet at h
  have n1 := nice_expr C hok
  have n2 := nice_expr C hv
  have n3 : Nice W.scope (genExpr a.cm.ctx (.get line e name true)) := by
    refine ⟨fun n => keeps_genExpr _ n _, ?_⟩
    unfold genExpr genGet
    have := n1.fr
    exact fr_atLine _ (by repeat fr)
  obtain ⟨_, t, h1, h2, c1, c2⟩ := C.cut h (by good) (fun _ => by good)
  obtain ⟨_, t2, h3, h4, c3, c4⟩ := c2.cut h2 (by good) (fun _ => by good)
  unfold genExpr at h1
  obtain ⟨t0, h1, c1, hip0, -⟩ := c1.atLine h1
  unfold genGet at h1
  obtain ⟨_, t1, h5, h6, c5, c6⟩ := c1.cut h1 (by good) (fun _ => by good)
  obtain ⟨_, t7, h7, h8, c7, c8⟩ := c6.cut h6 (by good) (fun _ => by good)
  rw [if_pos rfl] at h8
  obtain ⟨-, e8⟩ := pure_ok h8
  rw [← hip0] at H
  refine Sim.seq (ih.value c5 hok hm h5 H) ?_
  intro x st1 vm1 j _ H1
  obtain ⟨vm2, r2, H2⟩ := sim_loadName c7 h7 H1
  rw [← e8] at H2
  refine Sim.runs r2 ?_
  refine Sim.seq1 (ih.strict c3 hv hcv h3 H2) ?_
  intro z st3 vm3 H3
  obtain ⟨hi, hip⟩ := c4.ins h4
  rw [hip]
  refine Sim.seq1 (sim_setProp (lp := lp) C.act.mod hi H3) ?_
  intro _ st4 vm4 H4
  exact Sim.pure H4

theorem sim_unwrap (ih : IH K n) {e : TExpr} (C : Code K a W lp s s')
    (hok : okE W .value e = true) (hm : m ≠ .any → cleanE e = true)
    (h : genUnwrap (genExpr a.cm.ctx e) none s = .ok ((), s')) (H : Here K a st vm s.ip k) :
    Sim K a m lp vm k (Pushed K a s'.ip)
      ((do let v ← evalE K.cfg K.L n (pos a W) e
           if v.isNone then M.fail msgNullRef else pure v : M F (Val F)) st) := by
  unfold genUnwrap at h
  have n1 := nice_expr C hok
  obtain ⟨_, t, h1, h2, c1, c2⟩ := C.cut h (by good) (fun _ => by good)
  refine Sim.seq (ih.value c1 hok hm h1 H) ?_
  intro v st1 vm1 j _ H1
  obtain ⟨hi, hip⟩ := c2.ins h2
  rw [hip]
  exact sim_unwrap0 C.act.mod hi H1

theorem sim_unwrapOr (ih : IH K n) {e d : TExpr} (C : Code K a W lp s s')
    (hok : okE W .value e = true) (hd : okE W .value d = true) (hc : cleanE d = true)
    (hm : m ≠ .any → cleanE e = true)
    (h : genUnwrap (genExpr a.cm.ctx e) (some (genExpr a.cm.ctx d)) s = .ok ((), s'))
    (H : Here K a st vm s.ip k) :
    Sim K a m lp vm k (Pushed K a s'.ip)
      ((do let v ← evalE K.cfg K.L n (pos a W) e
           let w ← evalE K.cfg K.L n (pos a W) d
           pure (if v.isNone then w else v) : M F (Val F)) st) := by
  unfold genUnwrap at h
  have n1 := nice_expr C hok
  have n2 := nice_expr C hd
  obtain ⟨_, t, h1, h2, c1, c2⟩ := C.cut h (by good) (fun _ => by good)
  obtain ⟨_, t2, h3, h4, c3, c4⟩ := c2.cut h2 (by good) (fun _ => by good)
  refine Sim.seq (ih.value c1 hok hm h1 H) ?_
  intro v st1 vm1 j _ H1
  refine Sim.seq1 (ih.strict c3 hd hc h3 H1) ?_
  intro w st2 vm2 H2
  obtain ⟨hi, hip⟩ := c4.ins h4
  obtain ⟨vm3, r3, H3⟩ := sim_unwrap1 C.act.mod hi H2
  rw [hip]
  exact Sim.done r3 H3

/-- Several expressions. -/
theorem sim_exprs (ih : IH K n) {e : TExpr} {es : List TExpr} (C : Code K a W lp s s')
    (hok : okEs W (e :: es) = true) (hm : m ≠ .any → cleanEs (e :: es) = true)
    (h : genExprs a.cm.ctx (e :: es) s = .ok ((), s')) (H : Here K a st vm s.ip k) :
    Sim K a m lp vm k (esPost K a (e :: es).length s'.ip)
      ((do let v ← evalE K.cfg K.L n (pos a W) e
           let vs ← evalEs K.cfg K.L n (pos a W) es
           pure (v :: vs) : M F (List (Val F))) st) := by
  unfold genExprs at h
  simp only [okEs, Bool.and_eq_true] at hok
  have n1 := nice_expr C hok.1.1
  have n2 := nice_exprs C hok.1.2
  obtain ⟨_, t, h1, h2, c1, c2⟩ := C.cut h (by good) (fun _ => by good)
  refine Sim.seq (ih.value c1 hok.1.1 (fun e => by have := hm e; simp [cleanEs] at this; exact this.1) h1 H) ?_
  intro v st1 vm1 j _ H1
  refine Sim.seq1 (ih.es c2 hok.1.2 (fun _ => hok.2) h2 H1) ?_
  intro vs st2 vm2 H2
  obtain ⟨H2, hlen⟩ := H2
  exact Sim.pure ⟨by simpa using H2, by simp [hlen]⟩

/-- Named arguments. -/
theorem sim_fields (ih : IH K n) {line : Nat} {name : String} {e : TExpr} {es : List TExpr}
    (C : Code K a W lp s s') (hok : okFields W (.named line name e :: es) = true)
    (h : genExprs a.cm.ctx (.named line name e :: es) s = .ok ((), s')) (H : Here K a st vm s.ip k) :
    Sim K a .strict lp vm k (fsPost K a (TExpr.named line name e :: es).length s'.ip)
      ((do let v ← evalE K.cfg K.L n (pos a W) e
           let vs ← evalFields K.cfg K.L n (pos a W) es
           pure ((name, v) :: vs) : M F (List (String × Val F))) st) := by
  unfold genExprs at h
  simp only [okFields, Bool.and_eq_true] at hok
  have n1 := nice_expr C hok.1.1
  have n2 := nice_fields C hok.2
  have n3 : Nice W.scope (genExpr a.cm.ctx (.named line name e)) := by
    refine ⟨fun n => keeps_genExpr _ n _, ?_⟩
    unfold genExpr genNamed
    have := n1.fr
    exact fr_atLine _ (by repeat fr)
  obtain ⟨_, t, h1, h2, c1, c2⟩ := C.cut h (by good) (fun _ => by good)
  unfold genExpr at h1
  obtain ⟨t0, h1, c1, hip0, -⟩ := c1.atLine h1
  unfold genNamed at h1
  obtain ⟨_, t1, h5, h6, c5, c6⟩ := c1.cut h1 (by good) (fun _ => by good)
  rw [← hip0] at H
  obtain ⟨vm1, r1, H1⟩ := sim_loadName c5 h5 H
  refine Sim.runs r1 ?_
  refine Sim.seq1 (ih.strict c6 hok.1.1 hok.1.2 h6 H1) ?_
  intro v st1 vm2 H2
  refine Sim.seq1 (ih.fields c2 hok.2 h2 H2) ?_
  intro vs st2 vm3 H3
  obtain ⟨H3, hlen⟩ := H3
  exact Sim.pure ⟨by simpa [fieldStack] using H3, by simp [hlen]⟩

/-- `iguala` as an expression. -/
theorem sim_iguala (ih : IH K n) {d : Decision} (C : Code K a W lp s s')
    (hok : okD { W with yields := true } d = true) (hm : m ≠ .any → cleanD d = true)
    (h : genDecision a.cm.ctx d s = .ok ((), s')) (H : Here K a st vm s.ip k) :
    Sim K a m lp vm k (Pushed K a s'.ip)
      ((do let o ← evalD K.cfg K.L n (pos a W) d; M.need o : M F (Val F)) st) := by
  refine Sim.seq (ih.d (W := { W with yields := true }) (C.yields true) hok hm h H) ?_
  intro o st1 vm1 j _ H1
  refine Sim.need fun v hv => ⟨vm1, .refl _, ?_⟩
  subst hv
  exact H1.1

end

end Compiled

end Amanda

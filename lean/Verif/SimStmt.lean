import Verif.SimCall

/-!
# The simulation: statements and decisions
-/

namespace Amanda

namespace Compiled

open Source Codegen

variable {F : Type} [FloatOps F]

/-! ## Modes, ends and blocks -/

theorem Mode.okFor.imp {m : Mode} {f g : Bool → Bool} (h : m.okFor f) (k : ∀ b, f b = true → g b = true) :
    m.okFor g := by
  cases m with
  | any => trivial
  | tidy => exact k _ h
  | strict => exact k _ h

theorem Mode.okFor.use {m : Mode} {f : Bool → Bool} {c : Bool} (h : m.okFor f)
    (k : ∀ b, f b = true → c = true) : m ≠ .any → c = true := by
  intro hm
  cases m with
  | any => exact absurd rfl hm
  | tidy => exact k _ h
  | strict => exact k _ h

/-- Statements that are never clean are only for mode `any`. -/
theorem Mode.okFor.any {m : Mode} {f : Bool → Bool} (h : m.okFor f) (k : ∀ b, f b = false) : m = .any := by
  cases m with
  | any => rfl
  | tidy => have : f true = true := h; rw [k] at this; cases this
  | strict => have : f false = true := h; rw [k] at this; cases this

/-- Statements that leave early are not for mode `strict`. -/
theorem Mode.okFor.early {m : Mode} {f : Bool → Bool} (h : m.okFor f) (k : f false = false) : m ≠ .strict := by
  intro e
  subst e
  have : f false = true := h
  rw [k] at this
  cases this

section
variable {K : Link F} {a : Act F} {W : Wf} {lp : Loop} {s s' : Gen} {m : Mode} {vm vm' : VM F}
  {st : St F} {k : List (Val F)} {ip : Nat} {n : Nat}

/-- What cannot leave a loop is good for every loop. -/
theorem Sim.loop {α : Type} {P : α → St F → VM F → List (Val F) → Prop} {o : Out F α}
    (h : Sim K a m (none, none) vm k P o) : Sim K a m lp vm k P o := by
  cases o with
  | stuck => trivial
  | fuel => trivial
  | fail msg w => exact h
  | done x st => exact h
  | leave c st =>
      cases c with
      | quebra => obtain ⟨-, x, j, v, h1, -⟩ := h; cases h1
      | continua => obtain ⟨-, x, j, v, h1, -⟩ := h; cases h1
      | retorna w => exact h

/-- Weaker claims, with what the outcome is. -/
theorem Sim.imp2 {α : Type} {P P' : α → St F → VM F → List (Val F) → Prop} {o : Out F α}
    (h : Sim K a m lp vm k P o)
    (q : ∀ x st vm' j, o = .done x st → P x st vm' (k ++ j) → P' x st vm' (k ++ j)) :
    Sim K a m lp vm k P' o := by
  cases o with
  | stuck => trivial
  | fuel => trivial
  | fail msg w => exact h
  | leave c st => cases c <;> exact h
  | done x st =>
      obtain ⟨v, j, h1, h2, h3⟩ := h
      exact ⟨v, j, h1, h2, q _ _ _ _ rfl h3⟩

omit [FloatOps F] in
theorem Out.next_assoc {α β γ : Type} (o : Out F α) (f : α → St F → Out F β) (g : β → St F → Out F γ) :
    (o.next f).next g = o.next fun x st => (f x st).next g := by
  cases o <;> rfl

/-- A block. -/
theorem Code.scoped {x : ScopeId} {g : G Unit} {u : Unit} (C : Code K a W lp s s') (hb : W.block x = true)
    (h : genScoped a.cm.ctx x g s = .ok (u, s')) :
    ∃ t t', g t = .ok ((), t') ∧ Code K (a.inner x) (W.enter x) lp t t' ∧ t.ip = s.ip ∧ t'.ip = s'.ip ∧
      t.labels = s.labels ∧ t'.labels = s'.labels := by
  obtain ⟨t, t', h1, h2, h3, h4, h5, h6, h7, h8, h9, -, -⟩ := C.fits.scoped h
  refine ⟨t, t', h1, C.into hb rfl rfl rfl rfl rfl (.inl rfl) h3 h2 ?_, h4, h5, h6, h7⟩
  rw [← C.loop]
  show (if W.inLoop then _ else _) = (if W.inLoop then _ else _)
  rw [h8, h9]

theorem nice_stmt (C : Code K a W lp s s') {c : TStmt} (h : okS W c = true) :
    Nice W.scope (genStmt a.cm.ctx c) :=
  ⟨fun n => keeps_genStmt _ n c, fr_genStmt _ W C.env c h⟩

theorem nice_stmts (C : Code K a W lp s s') {cs : List TStmt} (h : okSs W cs = true) :
    Nice W.scope (genStmts a.cm.ctx cs) :=
  ⟨fun n => keeps_genStmts _ n cs, fr_genStmts _ W C.env cs h⟩

theorem nice_block (C : Code K a W lp s s') {b : TBlock} (h : okB W b = true) :
    Nice W.scope (genBlock a.cm.ctx b) :=
  ⟨fun n => keeps_genBlock _ n b, fr_genBlock _ W C.env b h⟩

theorem nice_optBlock (C : Code K a W lp s s') {b : Option TBlock} (h : okOptB W b = true) :
    Nice W.scope (genOptBlock a.cm.ctx b) :=
  ⟨fun n => keeps_genOptBlock _ n b, fr_genOptBlock _ W C.env b h⟩

theorem nice_elses (C : Code K a W lp s s') {l : Nat} {es : List TElse} (h : okElses W es = true) :
    Nice W.scope (genElses a.cm.ctx l es) :=
  ⟨fun n => keeps_genElses _ n l es, fr_genElses _ W C.env l es h⟩

theorem nice_decision (C : Code K a W lp s s') {d : Decision} (h : okD W d = true) :
    Nice W.scope (genDecision a.cm.ctx d) :=
  ⟨fun n => keeps_genDecision _ n d, fr_genDecision _ W C.env d h⟩

theorem nice_cases (C : Code K a W lp s s') {id : SymId} {l : Nat} {cs : List DCase} (h : okCases W cs = true) :
    Nice W.scope (genCases a.cm.ctx id l cs) :=
  ⟨fun n => keeps_genCases _ n id l cs, fr_genCases _ W C.env id l cs h⟩

/-- A label that was just patched. -/
theorem patch_end {l : Nat} {u : Unit} (h : patchLabel l s = .ok (u, s')) (hl : l < s.labels.length) :
    s'.labels[l]? = some s.ip ∧ s'.ip = s.ip := by
  have e := patchLabel_ok h
  subst e
  exact ⟨by simp [hl], rfl⟩

/-! ## Conditions -/

/-- The label at the end of a branch. -/
theorem branch_label {cond : TExpr} {body : TBlock} {l after : Nat} (C : Code K a W lp s s')
    (hc : okE W .value cond = true) (hb : okB W body = true)
    (h : genBranch (genExpr a.cm.ctx cond) (genBlock a.cm.ctx body) l after s = .ok ((), s'))
    (hl : after < s.labels.length) : s'.labels[after]? = some s'.ip := by
  have n1 := nice_expr C hc
  have n2 := nice_block C hb
  unfold genBranch at h
  obtain ⟨_, t1, h1, h2, c1, c2, -, b2⟩ := C.split (Nat.le_refl _) (by good) (fun _ => by good) h
  obtain ⟨_, t2, h3, h4, c3, c4, -, b4⟩ := c2.split b2 (by good) (fun _ => by good) h2
  obtain ⟨_, t3, h5, h6, c5, c6, -, b6⟩ := c4.split b4 (by good) (fun _ => by good) h4
  obtain ⟨_, t4, h7, h8, c7, c8, -, b8⟩ := c6.split b6 (by good) (fun _ => by good) h6
  obtain ⟨p1, p2⟩ := patch_end h8 (Nat.lt_of_lt_of_le hl b8)
  rw [p1, p2]

theorem sim_cond (ih : IH K n) {cond : TExpr} {body : TBlock} {l after x : Nat} {R : M F (Option (Val F))}
    (C : Code K a W lp s s') (hc : okE W .value cond = true) (hb : okB W body = true)
    (hmc : m ≠ .any → cleanE cond = true) (hmb : m.okFor (cleanB · body))
    (h : genBranch (genExpr a.cm.ctx cond) (genBlock a.cm.ctx body) l after s = .ok ((), s'))
    (hl : after < s.labels.length) (hafter : a.cm.fin.labels[after]? = some s'.ip)
    (hend : a.cm.fin.labels[l]? = some x) (H : Here K a st vm s.ip k)
    (hR : ∀ st vm j, m.junk j → Here K a st vm s'.ip (k ++ j) → Sim K a m lp vm (k ++ j) (sPost K a W x) (R st)) :
    Sim K a m lp vm k (sPost K a W x)
      ((do let c ← evalE K.cfg K.L n (pos a W) cond
           let b ← truth c
           if b then evalB K.cfg K.L n (pos a W) body else R : M F (Option (Val F))) st) := by
  have n1 := nice_expr C hc
  have n2 := nice_block C hb
  unfold genBranch at h
  obtain ⟨_, t1, h1, h2, c1, c2, -, b2⟩ := C.split (Nat.le_refl _) (by good) (fun _ => by good) h
  obtain ⟨_, t2, h3, h4, c3, c4, -, b4⟩ := c2.split b2 (by good) (fun _ => by good) h2
  obtain ⟨_, t3, h5, h6, c5, c6, -, b6⟩ := c4.split b4 (by good) (fun _ => by good) h4
  obtain ⟨_, t4, h7, h8, c7, c8, -, b8⟩ := c6.split b6 (by good) (fun _ => by good) h6
  obtain ⟨y, hy, hj1, hip1⟩ := emit_jump C.act.mod c3.fits h3 (Or.inl rfl)
  have : y = s'.ip := by rw [hafter] at hy; exact (Option.some.inj hy).symm
  subst this
  obtain ⟨z, hz, hj2, hip2⟩ := emit_jump C.act.mod c7.fits h7 (Or.inr rfl)
  have : z = x := by rw [hend] at hz; exact (Option.some.inj hz).symm
  subst this
  refine Sim.seq (ih.value c1 hc hmc h1 H) ?_
  intro v st1 vm1 j1 hjk1 H1
  refine Sim.seq (sim_branch C.act.mod hj1 H1) ?_
  intro b st2 vm2 j2 hjk2 H2
  cases b with
  | false =>
      rw [if_neg (by simp)] at H2 ⊢
      rw [List.append_assoc] at H2 ⊢
      exact hR _ _ _ (Mode.junk_append hjk1 hjk2) H2
  | true =>
      rw [if_pos rfl] at H2 ⊢
      rw [← hip1] at H2
      have hs := ih.b c5 hb hmb h5 H2
      generalize evalB K.cfg K.L n (pos a W) body st2 = o at hs
      cases o with
      | stuck => trivial
      | fuel => trivial
      | fail msg w => exact hs
      | leave c st => cases c <;> exact hs
      | done w st3 =>
          obtain ⟨vm3, j3, hjk3, r3, H3, hyl⟩ := hs
          obtain ⟨vm4, r4, H4⟩ := sim_jump C.act.mod hj2 H3
          exact ⟨vm4, j3, hjk3, r3.trans r4, H4, hyl⟩

theorem sim_elses (ih : IH K n) {l : Nat} {es : List TElse} {eb : Option TBlock} (C : Code K a W lp s s')
    (hes : okElses W es = true) (heb : okOptB W eb = true) (hmes : m.okFor (cleanElses · es))
    (hmeb : m.okFor (cleanOptB · eb))
    (h : (do genElses a.cm.ctx l es; genOptBlock a.cm.ctx eb) s = .ok ((), s'))
    (hend : a.cm.fin.labels[l]? = some s'.ip) (H : Here K a st vm s.ip k) :
    Sim K a m lp vm k (sPost K a W s'.ip) (evalElses K.cfg K.L (n + 1) (pos a W) es eb st) := by
  cases es with
  | nil =>
      unfold genElses at h
      gbind h with u t e
      obtain ⟨-, rfl⟩ := pure_ok e
      cases eb with
      | none =>
          unfold genOptBlock at h
          obtain ⟨-, rfl⟩ := pure_ok h
          unfold evalElses
          exact Sim.done (.refl _) ⟨by simpa using H, by simp⟩
      | some b =>
          unfold genOptBlock at h
          unfold evalElses
          simp only [okOptB] at heb
          exact ih.b C heb (hmeb.imp fun _ h => by simpa [cleanOptB] using h) h H
  | cons e rest =>
      obtain ⟨cond, body⟩ := e
      simp only [okElses, Bool.and_eq_true] at hes
      unfold genElses genElsif at h
      have h' : (newLabel >>= fun after => genBranch (genExpr a.cm.ctx cond) (genBlock a.cm.ctx body) l after >>= fun _ =>
          (do genElses a.cm.ctx l rest; genOptBlock a.cm.ctx eb)) s = .ok ((), s') := by
        rw [← h]
        simp only [bind, G.bind]
        repeat' split
        all_goals simp_all
      clear h
      have n1 := nice_expr C hes.1.1
      have n2 := nice_block C hes.1.2
      have n3 := nice_elses C (l := l) hes.2
      have n4 := nice_optBlock C heb
      gbind h' with after t0 e0
      obtain ⟨ha, ht0⟩ := newLabel_ok e0
      have S : Good1 0 s t0 := good_newLabel s after t0 (Nat.zero_le _) C.scope e0
      have C0 : Code K a W lp t0 s' := by
        refine ⟨C.act, C.wf, S.scope.trans C.scope, C.fits.right S.step, ?_⟩
        rw [← C.loop]; unfold loopOf; rw [S.start, S.exit]
      have hlt : after < t0.labels.length := by rw [ha, ht0]; simp
      have g1 : Good t0.labels.length W.scope
          (genBranch (genExpr a.cm.ctx cond) (genBlock a.cm.ctx body) l after) := by
        unfold genBranch; good
      have g2 : Good 0 W.scope (do genElses a.cm.ctx l rest; genOptBlock a.cm.ctx eb) := by good
      obtain ⟨_, t1, h1, h2, c1, c2, -, b2⟩ := C0.split (Nat.le_refl _) g1
        (fun _ => by intro s u s' hs hsc hr; exact (g2 s u s' (Nat.zero_le _) hsc hr).mono (Nat.zero_le _)) h'
      have hp := branch_label c1 hes.1.1 hes.1.2 h1 hlt
      have hfin : a.cm.fin.labels[after]? = some t1.ip := by
        have hs2 := g2 t1 () s' (Nat.zero_le _) c2.scope h2
        have : after < t1.labels.length := Nat.lt_of_lt_of_le hlt b2
        rw [C.fits.labels after (by rw [ha]; exact Nat.le_refl _) (Nat.lt_of_lt_of_le this hs2.step.count),
          hs2.step.labels after (Nat.zero_le _) this, hp]
      unfold evalElses
      have hip0 : t0.ip = s.ip := by rw [ht0]
      refine sim_cond ih c1 hes.1.1 hes.1.2 (hmes.use fun b h => by simp [cleanElses] at h; exact h.1.1)
        (hmes.imp fun b h => by simp [cleanElses] at h; exact h.1.2) h1 hlt hfin hend (H.move hip0.symm) ?_
      intro st1 vm1 j hj H1
      exact ih.elses c2 hes.2 heb (hmes.imp fun b h => by simp [cleanElses] at h; exact h.2) hmeb h2 hend H1

theorem sim_se (ih : IH K n) {cond : TExpr} {body : TBlock} {es : List TElse} {eb : Option TBlock}
    (C : Code K a W lp s s') (hc : okE W .value cond = true) (hb : okB W body = true)
    (hes : okElses W es = true) (heb : okOptB W eb = true)
    (hmc : m ≠ .any → cleanE cond = true) (hmb : m.okFor (cleanB · body)) (hmes : m.okFor (cleanElses · es))
    (hmeb : m.okFor (cleanOptB · eb))
    (h : genSe (genExpr a.cm.ctx cond) (genBlock a.cm.ctx body) (fun l => genElses a.cm.ctx l es)
      (genOptBlock a.cm.ctx eb) s = .ok ((), s')) (H : Here K a st vm s.ip k) :
    Sim K a m lp vm k (sPost K a W s'.ip)
      ((do let c ← evalE K.cfg K.L n (pos a W) cond
           let b ← truth c
           if b then evalB K.cfg K.L n (pos a W) body else evalElses K.cfg K.L n (pos a W) es eb : M F (Option (Val F))) st) := by
  unfold genSe at h
  gbind h with l t0 e0
  gbind h with after t1 e1
  obtain ⟨hl, ht0⟩ := newLabel_ok e0
  obtain ⟨ha, ht1⟩ := newLabel_ok e1
  have h' : (genBranch (genExpr a.cm.ctx cond) (genBlock a.cm.ctx body) l after >>= fun _ =>
      ((do genElses a.cm.ctx l es; genOptBlock a.cm.ctx eb) >>= fun _ => patchLabel l)) t1 = .ok ((), s') := by
    rw [← h]
    simp only [bind, G.bind]
    repeat' split
    all_goals simp_all
  clear h
  have n1 := nice_expr C hc
  have n2 := nice_block C hb
  have n3 := nice_elses C (l := l) hes
  have n4 := nice_optBlock C heb
  have S0 : Good1 0 s t0 := good_newLabel s l t0 (Nat.zero_le _) C.scope e0
  have S1 : Good1 0 t0 t1 := good_newLabel t0 after t1 (Nat.zero_le _) (S0.scope.trans C.scope) e1
  have S := S0.trans S1
  have C0 : Code K a W lp t1 s' := by
    refine ⟨C.act, C.wf, S.scope.trans C.scope, C.fits.right S.step, ?_⟩
    rw [← C.loop]; unfold loopOf; rw [S.start, S.exit]
  have hlen : t1.labels.length = s.labels.length + 2 := by rw [ht1, ht0]; simp
  have hl' : l < t1.labels.length := by omega
  have ha0 : after = s.labels.length + 1 := by rw [ha, ht0]; simp
  have ha' : after < t1.labels.length := by omega
  have g1 : Good t1.labels.length W.scope
      (genBranch (genExpr a.cm.ctx cond) (genBlock a.cm.ctx body) l after) := by
    unfold genBranch; good
  have g2 : Good 0 W.scope (do genElses a.cm.ctx l es; genOptBlock a.cm.ctx eb) := by good
  have g3 : ∀ b, Good b W.scope (do genElses a.cm.ctx l es; genOptBlock a.cm.ctx eb) := by
    intro b s u s' hs hsc hr
    exact (g2 s u s' (Nat.zero_le _) hsc hr).mono (Nat.zero_le _)
  have hpatch : Good t1.labels.length W.scope (patchLabel l) := good_patch hl'
  obtain ⟨_, t2, h1, h2, c1, c2, -, b2⟩ := C0.split (Nat.le_refl _) g1
    (fun _ => good_bind (g3 _) fun _ => hpatch) h'
  obtain ⟨_, t3, h3, h4, c3, c4, q3, b4⟩ := c2.split b2 (g3 _) (fun _ => hpatch) h2
  have hp := branch_label c1 hc hb h1 ha'
  obtain ⟨p1, p2⟩ := patch_end h4 (Nat.lt_of_lt_of_le hl' b4)
  have hlens : s'.labels.length = t3.labels.length := by rw [patchLabel_ok h4]; simp
  have hend : a.cm.fin.labels[l]? = some s'.ip := by
    rw [C.fits.labels l (by rw [hl]; exact Nat.le_refl _) (by rw [hlens]; exact Nat.lt_of_lt_of_le hl' b4), p1, p2]
  have hfin : a.cm.fin.labels[after]? = some t2.ip := by
    have hs3 := g2 t2 () t3 (Nat.zero_le _) c2.scope h3
    have e2 : after < t2.labels.length := Nat.lt_of_lt_of_le ha' b2
    have e3 : after < t3.labels.length := Nat.lt_of_lt_of_le e2 hs3.step.count
    rw [C.fits.labels after (by omega) (by rw [hlens]; exact e3)]
    rw [patchLabel_ok h4]
    show (t3.labels.set l t3.ip)[after]? = _
    rw [List.getElem?_set_ne (by omega), hs3.step.labels after (Nat.zero_le _) e2, hp]
  have hip : t1.ip = s.ip := by rw [ht1, ht0]
  refine sim_cond ih c1 hc hb hmc hmb h1 ha' hfin hend (H.move hip.symm) ?_
  intro st1 vm1 j hj H1
  rw [p2]
  exact ih.elses c3 hes heb hmes hmeb h3 (by rw [hend, p2]) H1

/-! ## Decisions -/

omit [FloatOps F] in
theorem nice_test (id : SymId) (c : ConsRef) : Nice W.scope (genTest a.cm.ctx id c) :=
  ⟨fun _ => keeps_genTest _ _ _, fr_genTest _ _ _⟩

omit [FloatOps F] in
theorem nice_caseBindings (id : SymId) (c : ConsRef) (args : List SymId) :
    Nice W.scope (genCaseBindings a.cm.ctx id c args) :=
  ⟨fun _ => keeps_genCaseBindings _ _ _ _, fr_genCaseBindings _ _ _ _⟩

/-- The label at the end of a case. -/
theorem case_label {id : SymId} {c : ConsRef} {args : List SymId} {body : Decision} {l after : Nat}
    (C : Code K a W lp s s') (hb : okD W body = true)
    (h : genCaseCode a.cm.ctx id c args (genDecision a.cm.ctx body) l after s = .ok ((), s'))
    (hl : after < s.labels.length) : s'.labels[after]? = some s'.ip := by
  have n1 := nice_test (a := a) (W := W) id c
  have n2 := nice_caseBindings (a := a) (W := W) id c args
  have n3 := nice_decision C hb
  unfold genCaseCode at h
  obtain ⟨_, t1, h1, h2, c1, c2, -, b2⟩ := C.split (Nat.le_refl _) (by good) (fun _ => by good) h
  obtain ⟨_, t2, h3, h4, c3, c4, -, b4⟩ := c2.split b2 (by good) (fun _ => by good) h2
  obtain ⟨_, t3, h5, h6, c5, c6, -, b6⟩ := c4.split b4 (by good) (fun _ => by good) h4
  obtain ⟨_, t4, h7, h8, c7, c8, -, b8⟩ := c6.split b6 (by good) (fun _ => by good) h6
  obtain ⟨_, t5, h9, h10, c9, c10, -, b10⟩ := c8.split b8 (by good) (fun _ => by good) h8
  obtain ⟨p1, p2⟩ := patch_end h10 (Nat.lt_of_lt_of_le hl b10)
  rw [p1, p2]

theorem sim_case (hK : LinkOk K) (ih : IH K n) {id : SymId} {c : ConsRef} {args : List SymId} {body : Decision}
    {l after x : Nat} {R : M F (Option (Val F))}
    (C : Code K a W lp s s') (hc : W.canRead id = true) (hargs : args.all W.local = true)
    (hb : okD W body = true)
    (hm1 : m ≠ .any → args ≠ [] ∧ ∃ w, c = .variant w) (hm2 : m ≠ .any → cleanD body = true)
    (h : genCaseCode a.cm.ctx id c args (genDecision a.cm.ctx body) l after s = .ok ((), s'))
    (hl : after < s.labels.length) (hafter : a.cm.fin.labels[after]? = some s'.ip)
    (hend : a.cm.fin.labels[l]? = some x) (H : Here K a st vm s.ip k)
    (hR : ∀ st vm j, m.junk j → Here K a st vm s'.ip (k ++ j) → Sim K a m lp vm (k ++ j) (sPost K a W x) (R st)) :
    Sim K a m lp vm k (sPost K a W x)
      ((do let v ← readVar K.L id
           let yes ← fits K.L (pos a W) c v
           if yes then do
             bindParts K.L c args v
             evalD K.cfg K.L n (pos a W) body
           else R : M F (Option (Val F))) st) := by
  have n1 := nice_test (a := a) (W := W) id c
  have n2 := nice_caseBindings (a := a) (W := W) id c args
  have n3 := nice_decision C hb
  unfold genCaseCode at h
  obtain ⟨_, t1, h1, h2, c1, c2, -, b2⟩ := C.split (Nat.le_refl _) (by good) (fun _ => by good) h
  obtain ⟨_, t2, h3, h4, c3, c4, -, b4⟩ := c2.split b2 (by good) (fun _ => by good) h2
  obtain ⟨_, t3, h5, h6, c5, c6, -, b6⟩ := c4.split b4 (by good) (fun _ => by good) h4
  obtain ⟨_, t4, h7, h8, c7, c8, -, b8⟩ := c6.split b6 (by good) (fun _ => by good) h6
  obtain ⟨_, t5, h9, h10, c9, c10, -, b10⟩ := c8.split b8 (by good) (fun _ => by good) h8
  obtain ⟨y, hy, hj1, hip1⟩ := emit_jump C.act.mod c3.fits h3 (Or.inl rfl)
  have : y = s'.ip := by rw [hafter] at hy; exact (Option.some.inj hy).symm
  subst this
  obtain ⟨z, hz, hj2, hip2⟩ := emit_jump C.act.mod c9.fits h9 (Or.inr rfl)
  have : z = x := by rw [hend] at hz; exact (Option.some.inj hz).symm
  subst this
  rcases readVar_cases K.L id st with hr | ⟨v, hv⟩
  · show Sim K a m lp vm k _ ((readVar K.L id st).next _)
    rw [hr]; trivial
  show Sim K a m lp vm k _ ((readVar K.L id st).next _)
  rw [hv]
  show Sim K a m lp vm k _ ((fits K.L (pos a W) c v st).next _)
  have hs := sim_genTest (m := m) c1 h1 hc hv H
  have hst : ∀ b st', fits K.L (pos a W) c v st = .done b st' → st' = st := fun b st' e => fits_state e
  refine Sim.bind (Sim.imp2 hs (P' := fun b st' vm k => Here K a st' vm t1.ip (k ++ [.bool b]) ∧ st' = st)
    fun b st' vm' j e h => ⟨h, hst b st' e⟩) ?_
  rintro b _ vm1 j1 hjk1 ⟨H1, rfl⟩
  obtain ⟨vm2, r2, H2⟩ := sim_jumpIfFalse C.act.mod hj1 H1
  refine Sim.runs r2 ?_
  cases b with
  | false =>
      rw [if_neg (by simp)] at H2 ⊢
      exact hR _ _ _ hjk1 H2
  | true =>
      rw [if_pos rfl] at H2 ⊢
      rw [← hip1] at H2
      refine Sim.seq (sim_caseBindings hK c5 h5 hc hargs hm1 hv H2) ?_
      intro _ st2 vm3 j3 hjk3 H3
      have hs := ih.d c7 hb hm2 h7 H3
      generalize evalD K.cfg K.L n (pos a W) body st2 = o at hs
      cases o with
      | stuck => trivial
      | fuel => trivial
      | fail msg w => exact hs
      | leave c st => cases c <;> exact hs
      | done w st3 =>
          obtain ⟨vm4, j4, hjk4, r4, H4, hyl⟩ := hs
          obtain ⟨vm5, r5, H5⟩ := sim_jump C.act.mod hj2 H4
          exact ⟨vm5, j4, hjk4, r4.trans r5, H5, hyl⟩

theorem sim_cases (hK : LinkOk K) (ih : IH K n) {id : SymId} {l x : Nat} {cs : List DCase}
    (C : Code K a W lp s s') (hc : W.canRead id = true) (hcs : okCases W cs = true)
    (hm : m ≠ .any → cleanCases cs = true) (h : genCases a.cm.ctx id l cs s = .ok ((), s'))
    (hend : a.cm.fin.labels[l]? = some x) (H : Here K a st vm s.ip k) :
    Sim K a m lp vm k (sPost K a W x) (evalCases K.cfg K.L (n + 1) (pos a W) id cs st) := by
  cases cs with
  | nil => unfold evalCases; trivial
  | cons dc rest =>
      obtain ⟨c, args, body⟩ := dc
      simp only [okCases, Bool.and_eq_true] at hcs
      unfold genCases genCase at h
      have n1 := nice_test (a := a) (W := W) id c
      have n2 := nice_caseBindings (a := a) (W := W) id c args
      have n3 := nice_decision C hcs.1.2
      have n4 := nice_cases C (id := id) (l := l) hcs.2
      gbind h with after t0 e0
      obtain ⟨ha, ht0⟩ := newLabel_ok e0
      have S : Good1 0 s t0 := good_newLabel s after t0 (Nat.zero_le _) C.scope e0
      have C0 : Code K a W lp t0 s' := by
        refine ⟨C.act, C.wf, S.scope.trans C.scope, C.fits.right S.step, ?_⟩
        rw [← C.loop]; unfold loopOf; rw [S.start, S.exit]
      have hlt : after < t0.labels.length := by rw [ha, ht0]; simp
      have g1 : Good t0.labels.length W.scope
          (genCaseCode a.cm.ctx id c args (genDecision a.cm.ctx body) l after) := by
        unfold genCaseCode; good
      obtain ⟨_, t1, h1, h2, c1, c2, -, b2⟩ := C0.split (Nat.le_refl _) g1 (fun _ => by good) h
      have hp := case_label c1 hcs.1.2 h1 hlt
      have hfin : a.cm.fin.labels[after]? = some t1.ip := by
        have hs2 := (n4.good : Good 0 _ _) t1 () s' (Nat.zero_le _) c2.scope h2
        have : after < t1.labels.length := Nat.lt_of_lt_of_le hlt b2
        rw [C.fits.labels after (by rw [ha]; exact Nat.le_refl _) (Nat.lt_of_lt_of_le this hs2.step.count),
          hs2.step.labels after (Nat.zero_le _) this, hp]
      have hclean : m ≠ .any → (args ≠ [] ∧ ∃ w, c = .variant w) ∧ cleanD body = true ∧ cleanCases rest = true := by
        intro hne
        have := hm hne
        cases c with
        | variant w =>
            simp only [cleanCases, Bool.and_eq_true, Bool.not_eq_true', List.isEmpty_eq_false_iff] at this
            exact ⟨⟨this.1.1, w, rfl⟩, this.1.2, this.2⟩
        | _ => simp [cleanCases] at this
      unfold evalCases
      have hip0 : t0.ip = s.ip := by rw [ht0]
      refine sim_case hK ih c1 hc hcs.1.1.2 hcs.1.2 (fun e => (hclean e).1) (fun e => (hclean e).2.1) h1 hlt hfin hend
        (H.move hip0.symm) ?_
      intro st1 vm1 j hj H1
      exact ih.cases c2 hc hcs.2 (fun e => (hclean e).2.2) h2 hend H1

/-- `gen_iguala_cases` treats all cases alike. -/
theorem genSwitch_eq (ctx : GenCtx) (id : SymId) (c : DCase) (cs : List DCase) :
    genSwitch (fun a b => genCase ctx id c a b) (fun a => genCases ctx id a cs) =
      (newLabel >>= fun l => genCases ctx id l (c :: cs) >>= fun _ => patchLabel l) := by
  have e : ∀ l, genCases ctx id l (c :: cs) =
      (newLabel >>= fun after => genCase ctx id c l after >>= fun _ => genCases ctx id l cs) := by
    intro l
    rw [genCases]
  funext s
  simp only [e]
  unfold genSwitch
  simp only [bind, G.bind]
  repeat' split
  all_goals simp_all

theorem sim_decision (hK : LinkOk K) (ih : IH K n) {d : Decision} (C : Code K a W lp s s')
    (hok : okD W d = true) (hm : m ≠ .any → cleanD d = true)
    (h : genDecision a.cm.ctx d s = .ok ((), s')) (H : Here K a st vm s.ip k) :
    Sim K a m lp vm k (sPost K a W s'.ip) (evalD K.cfg K.L (n + 1) (pos a W) d st) := by
  cases d with
  | fail => unfold evalD; trivial
  | success bs line x body =>
      unfold genDecision genSuccess at h
      unfold evalD
      simp only [okD, Bool.and_eq_true] at hok
      have hp := block_parent C.env hok.1.1
      have n1 : Nice W.scope (genArmBindings a.cm.ctx x bs) :=
        ⟨fun _ => keeps_genArmBindings _ _ _, fr_genArmBindings _ _ _⟩
      have n2 : Nice W.scope (do setLine line; genScoped a.cm.ctx x (genStmts a.cm.ctx body)) :=
        ⟨fun n => keeps_atLine _ (keeps_genScoped _ _ (keeps_genStmts _ n body)),
          fr_atLine _ (fr_genScoped _ _ hp (fr_genStmts _ (W.enter x) C.env body hok.2))⟩
      obtain ⟨_, t1, h1, h2, c1, c2⟩ := C.cut h (by good) (fun _ => by good)
      have c1' : Code K (a.inner x) { W with chain := x :: W.chain } lp s t1 :=
        C.into hok.1.1 rfl rfl rfl rfl rfl (.inr rfl) c1.scope c1.fits C.loop
      refine Sim.outer (x := x) (P := sPost K (a.inner x) W s'.ip) ?_ (fun _ _ _ _ h => ⟨h.1.outer, h.2⟩)
      show Sim K (a.inner x) m lp vm k _ ((bindNames K.L x bs >>= fun _ =>
        evalSs K.cfg K.L n { pos a W with scope := some x } body : M F (Option (Val F)))
        (st.entered K.L x))
      refine Sim.seq1 (sim_armBindings hK c1' h1 hok.1.2 (H.enter C.wf hok.1.1)) ?_
      intro _ st1 vm1 H1
      obtain ⟨t2, h3, c3, hip2, -⟩ := c2.atLine h2
      obtain ⟨t3, t4, h4, c4, hip3, hip4, -, -⟩ := c3.scoped hok.1.1 h3
      have H3 : Here K (a.inner x) st1 vm1 t3.ip k := H1.move (by rw [hip3, hip2])
      rw [← hip4]
      by_cases hany : m = .any
      · subst hany
        exact ih.ss (m := .any) c4 hok.2 trivial h4 H3
      · refine Sim.relax (loop' := lp) (ih.ss (m := .strict) c4 hok.2 ?_ h4 H3)
        have := hm hany
        simpa [cleanD, Mode.okFor] using this
  | switch id cs fb =>
      unfold evalD
      simp only [okD, Bool.and_eq_true] at hok
      cases cs with
      | nil => unfold genDecision at h; cases h
      | cons c cs =>
          unfold genDecision at h
          rw [genSwitch_eq] at h
          gbind h with l t0 e0
          obtain ⟨hl, ht0⟩ := newLabel_ok e0
          have n4 := nice_cases C (id := id) (l := l) hok.2
          have S : Good1 0 s t0 := good_newLabel s l t0 (Nat.zero_le _) C.scope e0
          have C0 : Code K a W lp t0 s' := by
            refine ⟨C.act, C.wf, S.scope.trans C.scope, C.fits.right S.step, ?_⟩
            rw [← C.loop]; unfold loopOf; rw [S.start, S.exit]
          have hlt : l < t0.labels.length := by rw [hl, ht0]; simp
          obtain ⟨_, t1, h1, h2, c1, c2, -, b2⟩ := C0.split (Nat.le_refl _) (by good) (fun _ => by good) h
          obtain ⟨p1, p2⟩ := patch_end h2 (Nat.lt_of_lt_of_le hlt b2)
          have hlens : s'.labels.length = t1.labels.length := by rw [patchLabel_ok h2]; simp
          have hend : a.cm.fin.labels[l]? = some s'.ip := by
            rw [C.fits.labels l (by rw [hl]; exact Nat.le_refl _) (by rw [hlens]; exact Nat.lt_of_lt_of_le hlt b2), p1, p2]
          have hip0 : t0.ip = s.ip := by rw [ht0]
          exact ih.cases c1 hok.1 hok.2 (fun e => by simpa [cleanD] using hm e) h1 hend (H.move hip0.symm)

/-! ## Sequences and blocks -/

theorem sim_stmts (ih : IH K n) {cs : List TStmt} (C : Code K a W lp s s') (hok : okSs W cs = true)
    (hm : m.okFor (cleanSs · cs)) (h : genStmts a.cm.ctx cs s = .ok ((), s')) (H : Here K a st vm s.ip k) :
    Sim K a m lp vm k (sPost K a W s'.ip) (evalSs K.cfg K.L (n + 1) (pos a W) cs st) := by
  cases cs with
  | nil =>
      unfold genStmts at h
      obtain ⟨-, rfl⟩ := pure_ok h
      unfold evalSs
      exact Sim.done (.refl _) ⟨by simpa using H, by simp⟩
  | cons c rest =>
      unfold genStmts at h
      simp only [okSs, Bool.and_eq_true] at hok
      have C1 := C.yields (W.yields && rest.isEmpty)
      have n1 : Nice W.scope (genStmt a.cm.ctx c) := nice_stmt C1 hok.1
      have n2 := nice_stmts C hok.2
      obtain ⟨_, t1, h1, h2, c1, c2⟩ := C.cut h (by good) (fun _ => by good)
      unfold evalSs
      refine Sim.seq (ih.s (W := { W with yields := W.yields && rest.isEmpty }) (c1.yields _) hok.1
        (hm.imp fun b h => by simp [cleanSs] at h; exact h.1) h1 H) ?_
      intro o st1 vm1 j hj H1
      obtain ⟨H1, hy⟩ := H1
      cases o with
      | none =>
          simp only [Option.toList_none, List.append_nil] at H1
          exact ih.ss c2 hok.2 (hm.imp fun b h => by simp [cleanSs] at h; exact h.2) h2 H1
      | some v =>
          have := hy rfl
          simp only [Bool.and_eq_true, List.isEmpty_iff] at this
          obtain ⟨hy1, hy2⟩ := this
          subst hy2
          unfold genStmts at h2
          obtain ⟨-, rfl⟩ := pure_ok h2
          exact Sim.done (.refl _) ⟨H1, fun _ => hy1⟩

theorem sim_block (ih : IH K n) {c : TBlock} (C : Code K a W lp s s') (hok : okB W c = true)
    (hm : m.okFor (cleanB · c)) (h : genBlock a.cm.ctx c s = .ok ((), s')) (H : Here K a st vm s.ip k) :
    Sim K a m lp vm k (sPost K a W s'.ip) (evalB K.cfg K.L (n + 1) (pos a W) c st) := by
  obtain ⟨x, body⟩ := c
  unfold genBlock at h
  unfold evalB
  simp only [okB, Bool.and_eq_true] at hok
  obtain ⟨t3, t4, h4, c4, hip3, hip4, -, -⟩ := C.scoped hok.1 h
  rw [← hip4]
  exact (ih.ss c4 hok.2 (hm.imp fun b h => by simpa [cleanB] using h) h4
    ((H.enter C.wf hok.1).move hip3.symm)).outer fun _ _ _ _ h => ⟨h.1.outer, h.2⟩

/-! ## Simple statements -/

/-- A statement that is an expression. -/
theorem sim_exprStmt (ih : IH K n) {e : TExpr} (C : Code K a W lp s s') (hok : okE W .stmt e = true)
    (hm : m.okFor (cleanS · (.expr e))) (hne : ∀ l d, e ≠ .iguala l d)
    (h : genExpr a.cm.ctx e s = .ok ((), s')) (H : Here K a st vm s.ip k) :
    Sim K a m lp vm k (sPost K a W s'.ip)
      ((do let _ ← evalE K.cfg K.L n (pos a W) e
           pure none : M F (Option (Val F))) st) := by
  have key : ∀ v st1 vm1 k1, ePost K a e s'.ip v st1 vm1 k1 →
      Here K a st1 vm1 s'.ip k1 ∨ Here K a st1 vm1 s'.ip (k1 ++ [v]) ∧ m = .any := by
    intro v st1 vm1 k1 h
    cases e with
    | assign l id r => exact .inl h.1
    | set l t v => exact .inl h
    | indexSet l t i v => exact .inl h
    | _ => exact .inr ⟨h, hm.any fun b => rfl⟩
  have hm' : m ≠ .any → cleanE e = true := by
    refine hm.use fun b h => ?_
    cases e <;> first | (simp [cleanS] at h; done) | simpa [cleanS, cleanE] using h
  refine Sim.seq (ih.e C hok hm' h H) ?_
  intro v st1 vm1 j hj H1
  rcases key _ _ _ _ H1 with H1 | ⟨H1, rfl⟩
  · exact Sim.done (.refl _) ⟨by simpa using H1, by simp⟩
  · exact ⟨vm1, [v], Or.inl rfl, .refl _, by simpa using H1, by simp⟩

/-- An `iguala` that is a statement. -/
theorem sim_igualaStmt (ih : IH K n) {l : Nat} {d : Decision} (C : Code K a W lp s s')
    (hok : okE W .stmt (.iguala l d) = true) (hm : m.okFor (cleanS · (.expr (.iguala l d))))
    (h : genExpr a.cm.ctx (.iguala l d) s = .ok ((), s')) (H : Here K a st vm s.ip k) :
    Sim K a m lp vm k (sPost K a W s'.ip)
      ((do let _ ← evalD K.cfg K.L n (pos a W) d
           pure none : M F (Option (Val F))) st) := by
  have hany : m = .any := hm.any fun b => rfl
  subst hany
  unfold genExpr at h
  simp only [okE] at hok
  obtain ⟨t, h1, c1, hip, -⟩ := C.atLine h
  refine Sim.seq (ih.d (W := { W with yields := true }) (c1.yields true) hok (by simp) h1 (H.move hip.symm)) ?_
  rintro o st1 vm1 j hj ⟨H1, -⟩
  exact ⟨vm1, o.toList, Or.inl rfl, .refl _, by simpa using H1, by simp⟩

theorem default_const (hK : LinkOk K) {ty : Ty} {v : Val F} (h : constVal (initConst ty) = some v) :
    (defaultVal ty : Option (Val F)) = none ∨ (defaultVal ty : Option (Val F)) = some v := by
  by_cases h1 : ty = .int
  · subst h1; right; exact h
  by_cases h2 : ty = .real
  · subst h2
    have e : initConst .real = .str "0.0" := by decide
    have e2 : parseI64 "0.0" = none := by decide
    rw [e] at h
    simp only [constVal, constOfStr, e2] at h
    simp only [defaultVal]
    cases hp : (FloatOps.parse "0.0" : Option F) with
    | none => left; rfl
    | some x =>
        right
        rw [hp] at h
        simpa using h
  by_cases h3 : ty = .bool
  · subst h3; right; exact h
  by_cases h4 : ty = .texto
  · subst h4
    right
    have e : initConst .texto = .str "''" := by decide
    rw [e] at h
    have h' : (constOfStr "''" : Option (Val F)) = some v := h
    rw [hK.empty] at h'
    exact h'
  · left; simp [defaultVal, h1, h2, h3, h4]

theorem sim_declare (hK : LinkOk K) {name : String} {ty : Ty} (C : Code K a W lp s s')
    (hok : optAll (W.L.env.resolve W.scope name) W.canWrite = true)
    (h : genDeclare a.cm.ctx name ty s = .ok ((), s')) (H : Here K a st vm s.ip k) :
    Sim K a m lp vm k (sPost K a W s'.ip)
      ((do let id ← M.need (K.L.env.resolve W.scope name)
           writeVar K.L id (defaultVal ty)
           pure none : M F (Option (Val F))) st) := by
  unfold genDeclare at h
  gbind h with s0 t0 e0
  obtain ⟨rfl, rfl⟩ := get_ok e0
  obtain ⟨_, t, h1, h2, c1, c2⟩ := C.cut h (by good) (fun _ => by good)
  obtain ⟨v, vm1, hv, r1, H1⟩ := sim_loadConst c1 h1 H
  gbind h2 with sy t1 e1
  obtain ⟨hsy, rfl⟩ := symOf_ok e1
  rw [C.act.mod.env, C.scope] at hsy
  cases hr : K.L.env.resolve W.scope name with
  | none => trivial
  | some id =>
      rw [hr] at hsy
      rw [C.wf.lang, hr] at hok
      refine Sim.runs r1 ?_
      refine Sim.seq1 (o := writeVar K.L id (defaultVal ty)) (sim_setVariable hK c2 hsy hok h2 H1 (default_const hK hv)) ?_
      intro _ st2 vm2 H2
      exact Sim.done (.refl _) ⟨by simpa [Arrived] using H2, by simp⟩

theorem sim_loopCtl {isBreak : Bool} (C : Code K a W lp s s') (hok : W.inLoop = true) (hm : m ≠ .strict)
    (h : genLoopCtl isBreak s = .ok ((), s')) (H : Here K a st vm s.ip k) :
    Sim K a m lp vm k (sPost K a W s'.ip) (.leave (if isBreak then .quebra else .continua) st) := by
  unfold genLoopCtl at h
  gbind h with s0 t0 e0
  obtain ⟨rfl, rfl⟩ := get_ok e0
  gbind h with l t1 e1
  obtain ⟨hl, rfl⟩ := need_ok e1
  obtain ⟨x, hx, hj, -⟩ := emit_jump C.act.mod C.fits h (Or.inr rfl)
  obtain ⟨vm1, r1, H1⟩ := sim_jump C.act.mod hj H
  have hlp := C.loop
  unfold loopOf at hlp
  rw [if_pos hok] at hlp
  cases isBreak with
  | true =>
      rw [if_pos rfl] at hl ⊢
      refine ⟨hm, x, [], vm1, ?_, m.junk_nil, r1, by simpa using H1⟩
      rw [← hlp, hl]; exact hx
  | false =>
      rw [if_neg (by simp)] at hl ⊢
      refine ⟨hm, x, [], vm1, ?_, m.junk_nil, r1, by simpa using H1⟩
      rw [← hlp, hl]; exact hx

theorem sim_retorna (ih : IH K n) {e : TExpr} (C : Code K a W lp s s') (hok : okE W .value e = true)
    (hm : m ≠ .any → cleanE e = true) (hs : m ≠ .strict)
    (h : genRetorna (some (genExpr a.cm.ctx e)) s = .ok ((), s')) (H : Here K a st vm s.ip k) :
    Sim K a m lp vm k (sPost K a W s'.ip)
      ((do let v ← evalE K.cfg K.L n (pos a W) e
           fun st => .leave (.retorna v) st : M F (Option (Val F))) st) := by
  unfold genRetorna at h
  have n1 := nice_expr C hok
  obtain ⟨_, t, h1, h2, c1, c2⟩ := C.cut h (by good) (fun _ => by good)
  refine Sim.seq (ih.value c1 hok hm h1 H) ?_
  intro v st1 vm1 j hj H1
  obtain ⟨hi, -⟩ := c2.ins h2 (by simp)
  exact ⟨hs, t.ip, [], vm1, hi, m.junk_nil, .refl _, by simpa [Pushed] using H1⟩

theorem sim_retornaNone (C : Code K a W lp s s') (hs : m ≠ .strict)
    (h : genRetorna none s = .ok ((), s')) (H : Here K a st vm s.ip k) :
    Sim K a m lp vm k (sPost K a W s'.ip) (.leave (.retorna (.bool false)) st) := by
  unfold genRetorna at h
  obtain ⟨_, t, h1, h2, c1, c2⟩ := C.cut h (by good) (fun _ => by good)
  obtain ⟨v, vm1, hv, r1, H1⟩ := sim_loadConst c1 h1 H
  have hv' : (some (.bool false) : Option (Val F)) = some v := by rw [← hv]; rfl
  cases hv'
  obtain ⟨hi, -⟩ := c2.ins h2 (by simp)
  exact ⟨hs, t.ip, [], vm1, hi, m.junk_nil, r1, by simpa using H1⟩

theorem sim_mostraStmt (ih : IH K n) {e : TExpr} (C : Code K a W lp s s') (hok : okE W .value e = true)
    (hm : m ≠ .any → cleanE e = true)
    (h : genMostra (genExpr a.cm.ctx e) s = .ok ((), s')) (H : Here K a st vm s.ip k) :
    Sim K a m lp vm k (sPost K a W s'.ip)
      ((do let v ← evalE K.cfg K.L n (pos a W) e
           let h ← M.heap
           let s ← M.res (displayVal h v)
           fun st => .done none { st with world := { st.world with out := st.world.out ++ s ++ "\n" } } :
        M F (Option (Val F))) st) := by
  unfold genMostra at h
  have n1 := nice_expr C hok
  obtain ⟨_, t, h1, h2, c1, c2⟩ := C.cut h (by good) (fun _ => by good)
  refine Sim.seq (ih.value c1 hok hm h1 H) ?_
  intro v st1 vm1 j hj H1
  obtain ⟨hi, hip⟩ := c2.ins h2 (by simp)
  have hs := sim_mostra (m := m) (lp := lp) C.act.mod hi H1
  rw [← hip] at hs
  refine Sim.imp2 hs ?_
  intro o st2 vm2 j2 e2 H2
  have : o = none := by
    change (M.res (displayVal st1.world.heap v) st1).next _ = _ at e2
    cases hd : M.res (displayVal st1.world.heap v) st1 with
    | done x st3 => rw [hd] at e2; simp only [Out.next] at e2; cases e2; rfl
    | leave c st => rw [hd] at e2; cases e2
    | fail m w => rw [hd] at e2; cases e2
    | stuck => rw [hd] at e2; cases e2
    | fuel => rw [hd] at e2; cases e2
  subst this
  exact ⟨by simpa [Arrived] using H2, by simp⟩

theorem sim_registo (hK : LinkOk K) {name : String} {fields : List String} (C : Code K a W lp s s')
    (hok : optAll (W.L.env.resolve W.scope name) W.canWrite = true)
    (h : genRegisto a.cm.ctx name fields s = .ok ((), s')) (H : Here K a st vm s.ip k) :
    Sim K a m lp vm k (sPost K a W s'.ip)
      ((do let id ← M.need (K.L.env.resolve W.scope name)
           writeVar K.L id (some (.registo ⟨name, fields⟩))
           pure none : M F (Option (Val F))) st) := by
  unfold genRegisto at h
  gbind h with i t0 e0
  obtain ⟨-, ht0, -⟩ := nameIndex_ok e0
  gbind h with s1 t1 e1
  obtain ⟨hs1, ht1⟩ := get_ok e1
  rw [hs1, ht1] at h
  clear e1 hs1 ht1
  gbind h with u2 t2 e2
  have ht2 := modify_ok e2
  have S : Step 0 s t2 := by
    subst ht2; subst ht0
    refine ⟨List.prefix_rfl, rfl, List.prefix_rfl, tableIndex_prefix _ _, List.prefix_rfl, ⟨_, rfl⟩, Nat.le_refl _,
      fun _ _ _ => rfl, fun _ => List.prefix_rfl⟩
  have hsc : t2.scope = s.scope := by rw [ht2, ht0]
  have C2 : Code K a W lp t2 s' := by
    refine ⟨C.act, C.wf, hsc.trans C.scope, C.fits.right S, ?_⟩
    rw [← C.loop]; unfold loopOf; rw [ht2, ht0]
  have hip2 : t2.ip = s.ip := by rw [ht2, ht0]
  obtain ⟨_, t3, h3, h4, c3, c4⟩ := C2.cut h (by good) (fun _ => by good)
  obtain ⟨hi, hip⟩ := c3.ins h3 (by simp)
  have hreg : a.cm.image.registos[t0.registos.length]? = some ⟨name, fields⟩ := by
    rw [C.act.mod.registos]
    have hp : t3.registos <+: a.cm.fin.registos := c3.fits.registos
    rw [emit_ok h3, ht2] at hp
    obtain ⟨z, hz⟩ := hp
    rw [← hz]
    simp
  obtain ⟨vm1, r1, H1⟩ := sim_loadRegisto C.act.mod hi hreg (H.move hip2.symm)
  rw [← hip] at H1
  gbind h4 with sy t4 e4
  obtain ⟨hsy, rfl⟩ := symOf_ok e4
  have hsc0 : t0.scope = W.scope := by rw [ht0]; exact C.scope
  rw [C.act.mod.env, hsc0] at hsy
  cases hr : K.L.env.resolve W.scope name with
  | none => trivial
  | some id =>
      rw [hr] at hsy
      rw [C.wf.lang, hr] at hok
      refine Sim.runs r1 ?_
      refine Sim.seq1 (o := writeVar K.L id _) (sim_setVariable hK c4 hsy hok h4 H1 (.inr rfl)) ?_
      intro _ st2 vm2 H2
      exact Sim.done (.refl _) ⟨by simpa [Arrived] using H2, by simp⟩

omit [FloatOps F] in
theorem genVariants_ip {vs : List VariantRef} {u : Unit} (h : genVariants vs s = .ok (u, s')) : s'.ip = s.ip := by
  induction vs generalizing s with
  | nil =>
      unfold genVariants at h
      obtain ⟨-, rfl⟩ := pure_ok h
      rfl
  | cons v vs ih =>
      unfold genVariants variantIndex at h
      gbind h with u1 t e
      rw [ih h, modify_ok e]

omit [FloatOps F] in
theorem genUniao_ip {name : String} {vs : List VariantRef} {u : Unit} (h : genUniao name vs s = .ok (u, s')) :
    s'.ip = s.ip := by
  unfold genUniao at h
  gbind h with i t e
  obtain ⟨-, ht, -⟩ := nameIndex_ok e
  rw [genVariants_ip h, ht]

/-! ## Loops -/

/-- One round of a loop. -/
theorem Sim.round {W' : Wf} {o : Out F (Option (Val F))} {again : M F (Option (Val F))} {lp' : Loop} {y : Nat}
    {P : Option (Val F) → St F → VM F → List (Val F) → Prop}
    (h : Sim K a m lp' vm k (sPost K a W' y) o)
    (hd : ∀ st vm j, m.junk j → Here K a st vm y (k ++ j) → Sim K a m lp vm (k ++ j) P (again st))
    (hc : ∀ x st vm j, lp'.1 = some x → m.junk j → Here K a st vm x (k ++ j) →
      Sim K a m lp vm (k ++ j) P (again st))
    (hb : ∀ x st vm j, lp'.2 = some x → m.junk j → Here K a st vm x (k ++ j) → P none st vm (k ++ j)) :
    Sim K a m lp vm k P (endRound again o) := by
  cases o with
  | stuck => trivial
  | fuel => trivial
  | fail msg w => exact h
  | leave c st =>
      cases c with
      | quebra =>
          obtain ⟨-, x, j, vm', h1, h2, h3, h4⟩ := h
          exact ⟨vm', j, h2, h3, hb _ _ _ _ h1 h2 h4⟩
      | continua =>
          obtain ⟨-, x, j, vm', h1, h2, h3, h4⟩ := h
          exact Sim.runs h3 (Sim.keep h2 (hc _ _ _ _ h1 h2 h4))
      | retorna w => exact h
  | done w st =>
      cases w with
      | some w => trivial
      | none =>
          obtain ⟨vm', j, h2, h3, h4, -⟩ := h
          exact Sim.runs h3 (Sim.keep h2 (hd _ _ _ h2 (by simpa using h4)))

theorem sim_while (ih : IH K n) {x : ScopeId} {cond : TExpr} {body : List TStmt} {x0 x1 : Nat} {t1 t2 t3 t4 : Gen}
    (w : WhileCode K a W x cond body x0 x1 t1 t2 t3 t4) (hmc : m ≠ .any → cleanE cond = true)
    (hmb : m.okFor (cleanSs · body)) (H : Here K a st vm x0 k) :
    Sim K a m lp vm k (sPost K a W x1) (evalWhile K.cfg K.L (n + 1) (pos a (W.enter x)) cond body st) := by
  unfold evalWhile
  refine Sim.seq (Sim.loop (ih.value (W := W.paraIn x) w.codec w.okc hmc w.genc (H.move w.ip1.symm))) ?_
  intro v st1 vm1 j1 hj1 H1
  refine sim_test w.codec.act.mod w.test H1 ?_ ?_
  rotate_left
  · intro vm2 H2
    exact Sim.done (.refl _) ⟨by simpa using H2, by simp⟩
  · intro vm2 H2
    rw [← w.ip3] at H2
    refine Sim.round (W' := W.loopIn x) (ih.ss (W := W.loopIn x) w.codeb w.okb hmb w.genb H2) ?_ ?_ ?_
    · intro st3 vm3 j3 hj3 H3
      obtain ⟨vm4, r4, H4⟩ := sim_jump w.codec.act.mod w.back H3
      exact Sim.runs r4 (ih.while' w hmc hmb H4)
    · intro y st3 vm3 j3 hy hj3 H3
      cases hy
      exact ih.while' w hmc hmb H3
    · intro y st3 vm3 j3 hy hj3 H3
      cases hy
      exact ⟨by simpa using H3, by simp⟩

/-- The code of an `enquanto`. -/
theorem while_code {x : ScopeId} {cond : TExpr} {body : List TStmt} (C : Code K a W lp s s')
    (hb : W.block x = true) (hok : okE (W.paraIn x) .value cond = true) (hob : okSs (W.loopIn x) body = true)
    (h : genEnquanto a.cm.ctx x (genExpr a.cm.ctx cond) (genStmts a.cm.ctx body) s = .ok ((), s')) :
    ∃ t1 t2 t3 t4, WhileCode K (a.inner x) W x cond body s.ip s'.ip t1 t2 t3 t4 := by
  unfold genEnquanto at h
  gbind h with l1 r1 e1
  obtain ⟨hl1, hr1⟩ := newLabel_ok e1
  gbind h with g r2 e2
  obtain ⟨hg, hr2⟩ := get_ok e2
  gbind h with l2 r3 e3
  obtain ⟨hl2, hr3⟩ := newLabel_ok e3
  gbind h with u4 r4 e4
  have hr4 := modify_ok e4
  gbind h with u5 r5 e5
  have hr5 := modify_ok h
  have S4 : Step 0 s r4 := by
    rw [hr4, hr3, hr2, hr1]
    refine ⟨List.prefix_rfl, rfl, List.prefix_rfl, List.prefix_rfl, List.prefix_rfl, List.prefix_rfl, ?_, ?_,
      fun _ => List.prefix_rfl⟩
    · simp
    · intro l _ hl
      simp only [List.append_assoc]
      rw [List.getElem?_append_left hl]
  have S5 : Step 0 r5 s' := by subst hr5; exact Step.same rfl rfl rfl rfl rfl rfl rfl rfl
  have X : Codegen.Fits a.cm.fin a.L r4 r5 := (C.fits.right S4).left (S5.mono (Nat.zero_le _))
  rw [genLoopBody_eq] at e5
  obtain ⟨t, t', h1, X1, hsc, hip, hip', hlab, hlab', hst, hex, -, -⟩ := X.scoped e5
  have hl1' : l1 = s.labels.length := hl1
  have hl2' : l2 = s.labels.length + 1 := by rw [hl2, hr2, hr1]; simp
  have hlen : t.labels.length = s.labels.length + 2 := by rw [hlab, hr4, hr3, hr2, hr1]; simp
  have C1 : Code K (a.inner x) (W.paraIn x) (none, none) t t' :=
    C.into hb rfl rfl rfl rfl rfl (.inl rfl) hsc X1 rfl
  have C2 : Code K (a.inner x) (W.loopIn x) (a.cm.fin.labels[l2]?, a.cm.fin.labels[l1]?) t t' := by
    refine C.into hb rfl rfl rfl rfl rfl (.inl rfl) hsc X1 ?_
    show (t.loopStart.bind _, t.loopExit.bind _) = _
    rw [hst, hex, hr4]
    rfl
  have n1 : Nice (W.paraIn x).scope (genExpr a.cm.ctx cond) := nice_expr C1 hok
  have n2 : Nice (W.paraIn x).scope (genStmts a.cm.ctx body) := nice_stmts C2 hob
  have b1 : l1 < t.labels.length := by omega
  have b2 : l2 < t.labels.length := by omega
  obtain ⟨_, t1, p1, k1, c1, d1, -, v1⟩ := C1.split (Nat.le_refl _) (by good) (fun _ => by good) h1
  obtain ⟨_, t2, p2, k2, c2, d2, -, v2⟩ := d1.split v1 (by good) (fun _ => by good) k1
  obtain ⟨_, t3, p3, k3, c3, d3, -, v3⟩ := d2.split v2 (by good) (fun _ => by good) k2
  obtain ⟨_, t4, p4, k4, c4, d4, -, v4⟩ := d3.split v3 (by good) (fun _ => by good) k3
  obtain ⟨_, t5, p5, k5, c5, d5, -, v5⟩ := d4.split v4 (by good) (fun _ => by good) k4
  have q1 : Good1 t.labels.length t t1 := (good_patch b2 : Good _ (W.paraIn x).scope _) t () t1 (Nat.le_refl _) C1.scope p1
  have q2 : Good1 0 t1 t2 := n1.good t1 () t2 (Nat.zero_le _) d1.scope p2
  have q3 : Good1 0 t2 t3 := good_emit _ _ t2 () t3 (Nat.zero_le _) d2.scope p3
  have q4 : Good1 0 t3 t4 := n2.good t3 () t4 (Nat.zero_le _) d3.scope p4
  have q5 : Good1 0 t4 t5 := good_emit _ _ t4 () t5 (Nat.zero_le _) d4.scope p5
  obtain ⟨z1, y1⟩ := patch_end p1 b2
  obtain ⟨z5, y5⟩ := patch_end k5 (Nat.lt_of_lt_of_le b1 v5)
  have hlens : t'.labels.length = t5.labels.length := by rw [patchLabel_ok k5]; simp
  have hlens' : s'.labels = t'.labels := by rw [hlab', hr5]
  have hs'ip : s'.ip = t'.ip := by rw [hip', hr5]
  have hsip : t.ip = s.ip := by rw [hip, hr4, hr3, hr2, hr1]
  have ve1 : t1.labels.length = t.labels.length := by rw [patchLabel_ok p1]; simp
  have f1 : a.cm.fin.labels[l1]? = some s'.ip := by
    rw [C.fits.labels l1 (by omega) (by rw [hlens', hlens]; omega), hlens', z5, hs'ip, y5]
  have f2 : a.cm.fin.labels[l2]? = some s.ip := by
    rw [C.fits.labels l2 (by omega) (by rw [hlens', hlens]; omega), hlens', patchLabel_ok k5]
    show (t5.labels.set l1 t5.ip)[l2]? = _
    rw [List.getElem?_set_ne (by omega), ((q2.trans q3).trans (q4.trans q5)).step.labels l2 (Nat.zero_le _) (by omega), z1, hsip]
  rw [f1, f2] at C2
  have cb : Code K (a.inner x) (W.loopIn x) (some s.ip, some s'.ip) t3 t4 := by
    refine ⟨C2.act, C2.wf, d3.scope, c4.fits, ?_⟩
    rw [← C2.loop]
    unfold loopOf
    have s3 : t3.loopStart = t.loopStart := (q1.start ▸ q2.start ▸ q3.start)
    have x3 : t3.loopExit = t.loopExit := (q1.exit ▸ q2.exit ▸ q3.exit)
    rw [s3, x3]
  obtain ⟨z, hz, hi1, ip3⟩ := emit_jump C.act.mod c3.fits p3 (Or.inl rfl)
  have : z = s'.ip := by rw [f1] at hz; exact (Option.some.inj hz).symm
  subst this
  obtain ⟨z, hz, hi2, -⟩ := emit_jump C.act.mod c5.fits p5 (Or.inr rfl)
  have : z = s.ip := by rw [f2] at hz; exact (Option.some.inj hz).symm
  subst this
  exact ⟨t1, t2, t3, t4, ⟨hok, hob, c2, cb, p2, p4, hi1, hi2, by rw [y1, hsip], ip3⟩⟩

theorem sim_inc (ih : IH K n) {i : Option TExpr} (C : Code K a W lp s s')
    (hok : ∀ e, i = some e → okE W .value e = true) (hm : m ≠ .any → ∀ e, i = some e → cleanE e = true)
    (h : genInc (genOpt a.cm.ctx i) s = .ok ((), s')) (H : Here K a st vm s.ip k) :
    Sim K a m lp vm k (Pushed K a s'.ip) (evalInc K.cfg K.L (n + 1) (pos a W) i st) := by
  cases i with
  | none =>
      unfold genOpt genInc at h
      unfold evalInc
      obtain ⟨v, vm1, hv, r1, H1⟩ := sim_loadConst C h H
      cases hv
      exact Sim.done r1 H1
  | some e =>
      unfold genOpt genInc at h
      unfold evalInc
      exact ih.value C (hok e rfl) (fun q => hm q e rfl) h H

theorem sim_para (ih : IH K n) {x : ScopeId} {id : SymId} {stop : TExpr} {inc : Option TExpr} {body : List TStmt}
    {x0 x1 : Nat} {c : Sym} {t1 t2 t3 t4 t5 t6 t7 t8 : Gen}
    (w : ParaCode K a W lp x id stop inc body x0 x1 c t1 t2 t3 t4 t5 t6 t7 t8)
    (hmi : m ≠ .any → ∀ e, inc = some e → cleanE e = true) (hmb : m.okFor (cleanSs · body))
    (H : Here K a st vm x0 k) :
    Sim K a m lp vm k (sPost K a W x1)
      (evalPara K.cfg K.L (n + 1) (pos a (W.enter x)) id stop inc body st) := by
  unfold evalPara
  refine Sim.seq1 (sim_loadVariable w.codev w.sym w.read w.genv (H.move w.ip1.symm)) ?_
  intro v st1 vm1 H1
  refine Sim.seq1 (ih.strict w.codet w.okt w.cleant w.gent H1) ?_
  intro v2 st2 vm2 H2
  refine Sim.seq (sim_bin w.codet.act.mod w.less (fun _ => rfl) H2) ?_
  intro v3 st3 vm3 j3 hj3 H3
  refine sim_test w.codet.act.mod w.test H3 ?_ ?_
  rotate_left
  · intro vm4 H4
    exact Sim.done (.refl _) ⟨by simpa using H4, by simp⟩
  · intro vm4 H4
    rw [← w.ip4] at H4
    refine Sim.round (W' := W.paraIn x) (ih.ss (W := W.paraIn x) w.codeb w.okb hmb w.genb H4) ?_ ?_ ?_
    · intro st3 vm3 j3 hj3 H3
      exact ih.paraStep w hmi hmb H3
    · intro y st3 vm3 j3 hy hj3 H3
      cases hy
    · intro y st3 vm3 j3 hy hj3 H3
      cases hy

theorem sim_paraStep (hK : LinkOk K) (ih : IH K n) {x : ScopeId} {id : SymId} {stop : TExpr} {inc : Option TExpr}
    {body : List TStmt} {x0 x1 : Nat} {c : Sym} {t1 t2 t3 t4 t5 t6 t7 t8 : Gen}
    (w : ParaCode K a W lp x id stop inc body x0 x1 c t1 t2 t3 t4 t5 t6 t7 t8)
    (hmi : m ≠ .any → ∀ e, inc = some e → cleanE e = true) (hmb : m.okFor (cleanSs · body))
    (H : Here K a st vm t5.ip k) :
    Sim K a m lp vm k (sPost K a W x1)
      (evalParaStep K.cfg K.L (n + 1) (pos a (W.enter x)) id stop inc body st) := by
  unfold evalParaStep
  refine Sim.seq (ih.inc w.codei w.oki hmi w.geni H) ?_
  intro v st1 vm1 j1 hj1 H1
  refine Sim.seq1 (sim_loadVariable w.codew w.sym w.read w.genw H1) ?_
  intro v2 st2 vm2 H2
  refine Sim.seq (sim_bin w.codet.act.mod w.add (fun _ => rfl) H2) ?_
  intro v3 st3 vm3 j3 hj3 H3
  obtain ⟨t9, c9, h9, hi⟩ := w.codes
  rw [← w.ip8] at H3
  refine Sim.seq1 (sim_setVariable hK c9 w.sym w.write h9 H3 (.inr rfl)) ?_
  intro _ st4 vm4 H4
  obtain ⟨vm5, r5, H5⟩ := sim_jump w.codet.act.mod hi H4
  exact Sim.runs r5 (ih.para w hmi hmb H5)

theorem nice_inc {i : Option TExpr} (C : Code K a W lp s s') (hok : ∀ e, i = some e → okE W .value e = true) :
    Nice W.scope (genInc (genOpt a.cm.ctx i)) := by
  cases i with
  | none => unfold genOpt genInc; exact ⟨fun _ => keeps_loadConst _, fr_loadConst _⟩
  | some e => unfold genOpt genInc; exact nice_expr C (hok e rfl)

theorem nice_paraTest {c : SymRef} {stop : TExpr} {l : Nat} (C : Code K a W lp s s')
    (hok : okE W .value stop = true) : Good 0 W.scope (genParaTest a.cm.ctx c (genExpr a.cm.ctx stop) l) := by
  have n1 := nice_expr C hok
  unfold genParaTest
  good

theorem nice_paraStep {c : SymRef} {i : Option TExpr} (C : Code K a W lp s s')
    (hok : ∀ e, i = some e → okE W .value e = true) :
    Good 0 W.scope (genParaStep a.cm.ctx c (genInc (genOpt a.cm.ctx i))) := by
  have n1 := nice_inc C hok
  unfold genParaStep
  good

theorem good_up {α : Type} {g : G α} {sc : Option ScopeId} (h : Good 0 sc g) (b : Nat) : Good b sc g :=
  fun s u s' _ hsc hr => (h s u s' (Nat.zero_le _) hsc hr).mono (Nat.zero_le _)

theorem sim_paraStmt (hK : LinkOk K) (ih : IH K n) {name : String} {start stop : TExpr} {inc : Option TExpr}
    {x : ScopeId} {body : List TStmt} (C : Code K a W lp s s') (hb : W.block x = true)
    (hoks : okE (W.enter x) .value start = true)
    (hw : optAll (W.L.env.resolve (some x) name) (W.enter x).canWrite = true)
    (hr : optAll (W.L.env.resolve (some x) name) (W.enter x).canRead = true)
    (hokt : okE (W.enter x) .value stop = true) (hct : cleanE stop = true)
    (hoki : ∀ e, inc = some e → okE (W.enter x) .value e = true) (hokb : okSs (W.paraIn x) body = true)
    (hms : m ≠ .any → cleanE start = true)
    (hmi : m ≠ .any → ∀ e, inc = some e → cleanE e = true) (hmb : m.okFor (cleanSs · body))
    (h : genPara a.cm.ctx name x (genExpr a.cm.ctx start) (genExpr a.cm.ctx stop)
      (genInc (genOpt a.cm.ctx inc)) (genStmts a.cm.ctx body) s = .ok ((), s'))
    (H : Here K (a.inner x) st vm s.ip k) :
    Sim K (a.inner x) m lp vm k (sPost K (a.inner x) W s'.ip)
      ((do let v ← evalE K.cfg K.L n (pos a (W.enter x)) start
           let id ← M.need (K.L.env.resolve (some x) name)
           writeVar K.L id (some v)
           evalPara K.cfg K.L n (pos a (W.enter x)) id stop inc body : M F (Option (Val F))) st) := by
  rw [genPara_eq] at h
  gbind h with l1 r1 e1
  obtain ⟨hl1, hr1⟩ := newLabel_ok e1
  gbind h with l2 r2 e2
  obtain ⟨hl2, hr2⟩ := newLabel_ok e2
  have S0 : Good1 0 s r1 := good_newLabel s l1 r1 (Nat.zero_le _) C.scope e1
  have S1 : Good1 0 r1 r2 := good_newLabel r1 l2 r2 (Nat.zero_le _) (S0.scope.trans C.scope) e2
  have S := S0.trans S1
  have C0 : Code K a W lp r2 s' := by
    refine ⟨C.act, C.wf, S.scope.trans C.scope, C.fits.right S.step, ?_⟩
    rw [← C.loop]; unfold loopOf; rw [S.start, S.exit]
  obtain ⟨t, t', h1, C1, hip, hip', hlab, hlab'⟩ := C0.scoped hb h
  have hl2' : l2 = s.labels.length + 1 := by rw [hl2, hr1]; simp
  have hlen : t.labels.length = s.labels.length + 2 := by rw [hlab, hr2, hr1]; simp
  have hsip : t.ip = s.ip := by rw [hip, hr2, hr1]
  have b1 : l1 < t.labels.length := by omega
  have b2 : l2 < t.labels.length := by omega
  have n1 := nice_expr C1 hoks
  have C1b : Code K (a.inner x) (W.paraIn x) (none, none) t t' :=
    C.into hb rfl rfl rfl rfl rfl (.inl rfl) C1.scope C1.fits rfl
  have n2 : Nice (W.enter x).scope (genStmts a.cm.ctx body) := nice_stmts C1b hokb
  have n3 : ∀ c l b, Good b (W.enter x).scope (genParaTest a.cm.ctx c (genExpr a.cm.ctx stop) l) :=
    fun c l b => good_up (nice_paraTest C1 hokt) b
  have n4 : ∀ c b, Good b (W.enter x).scope (genParaStep a.cm.ctx c (genInc (genOpt a.cm.ctx inc))) :=
    fun c b => good_up (nice_paraStep C1 hoki) b
  have gpatch : ∀ l, l < t.labels.length → Good t.labels.length (W.enter x).scope (patchLabel l) :=
    fun l hl => good_patch hl
  -- the pieces
  obtain ⟨_, t1, p1, k1, c1, d1, -, v1⟩ := C1.split (Nat.le_refl _) (by good)
    (fun _ => by
      refine good_bind (by good) fun c => good_bind (by good) fun _ => good_bind (gpatch _ b2) fun _ =>
        good_bind (n3 _ _ _) fun _ => good_bind (by good) fun _ => good_bind (n4 _ _) fun _ =>
        good_bind (by good) fun _ => gpatch _ b1) h1
  gbind k1 with c t1' ec
  obtain ⟨hc, rfl⟩ := symOf_ok ec
  obtain ⟨_, t2, p2, k2, c2, d2, -, v2⟩ := d1.split v1 (by good)
    (fun _ => by
      refine good_bind (gpatch _ b2) fun _ =>
        good_bind (n3 _ _ _) fun _ => good_bind (by good) fun _ => good_bind (n4 _ _) fun _ =>
        good_bind (by good) fun _ => gpatch _ b1) k1
  obtain ⟨_, t3, p3, k3, c3, d3, -, v3⟩ := d2.split v2 (gpatch _ b2)
    (fun _ => by
      refine good_bind (n3 _ _ _) fun _ => good_bind (by good) fun _ => good_bind (n4 _ _) fun _ =>
        good_bind (by good) fun _ => gpatch _ b1) k2
  obtain ⟨_, t4, p4, k4, c4, d4, -, v4⟩ := d3.split v3 (n3 _ _ _)
    (fun _ => by
      refine good_bind (by good) fun _ => good_bind (n4 _ _) fun _ =>
        good_bind (by good) fun _ => gpatch _ b1) k3
  obtain ⟨_, t5, p5, k5, c5, d5, -, v5⟩ := d4.split v4 (by good)
    (fun _ => by
      refine good_bind (n4 _ _) fun _ => good_bind (by good) fun _ => gpatch _ b1) k4
  obtain ⟨_, t6, p6, k6, c6, d6, -, v6⟩ := d5.split v5 (n4 _ _)
    (fun _ => by
      refine good_bind (by good) fun _ => gpatch _ b1) k5
  obtain ⟨_, t7, p7, k7, c7, d7, -, v7⟩ := d6.split v6 (by good) (fun _ => gpatch _ b1) k6
  -- labels
  have q4 : Good1 0 t3 t4 := nice_paraTest C1 hokt t3 () t4 (Nat.zero_le _) d3.scope p4
  have q5 : Good1 0 t4 t5 := n2.good t4 () t5 (Nat.zero_le _) d4.scope p5
  have q6 : Good1 0 t5 t6 := nice_paraStep C1 hoki t5 () t6 (Nat.zero_le _) d5.scope p6
  have q7 : Good1 0 t6 t7 := good_emit _ _ t6 () t7 (Nat.zero_le _) d6.scope p7
  obtain ⟨z3, y3⟩ := patch_end p3 (Nat.lt_of_lt_of_le b2 v2)
  obtain ⟨z7, y7⟩ := patch_end k7 (Nat.lt_of_lt_of_le b1 v7)
  have hlens : t'.labels.length = t7.labels.length := by rw [patchLabel_ok k7]; simp
  have f1 : a.cm.fin.labels[l1]? = some s'.ip := by
    rw [C.fits.labels l1 (by omega) (by rw [← hlab', hlens]; omega), ← hlab', z7, ← hip', y7]
  have f2 : a.cm.fin.labels[l2]? = some t3.ip := by
    rw [C.fits.labels l2 (by omega) (by rw [← hlab', hlens]; omega), ← hlab', patchLabel_ok k7]
    show (t7.labels.set l1 t7.ip)[l2]? = _
    rw [List.getElem?_set_ne (by omega), (q4.trans (q5.trans (q6.trans q7))).step.labels l2 (Nat.zero_le _) (by omega),
      z3, y3]
  -- the test
  have m1 := nice_expr C1 hokt
  unfold genParaTest at p4
  obtain ⟨_, w1, a1, p4, ca1, da1⟩ := c4.cut p4 (by good) (fun _ => by good)
  obtain ⟨_, w2, a2, p4, ca2, da2⟩ := da1.cut p4 (by good) (fun _ => by good)
  obtain ⟨_, w3, a3, p4, ca3, da3⟩ := da2.cut p4 (by good) (fun _ => by good)
  obtain ⟨i3, ip3⟩ := ca3.ins a3
  obtain ⟨z, hz, i4, ip4⟩ := emit_jump C.act.mod da3.fits p4 (Or.inl rfl)
  have : z = s'.ip := by rw [f1] at hz; exact (Option.some.inj hz).symm
  subst this
  -- the step
  have m2 := nice_inc C1 hoki
  unfold genParaStep at p6
  obtain ⟨_, u1, g1, p6, cg1, dg1⟩ := c6.cut p6 (by good) (fun _ => by good)
  obtain ⟨_, u2, g2, p6, cg2, dg2⟩ := dg1.cut p6 (by good) (fun _ => by good)
  obtain ⟨_, u3, g3, p6, cg3, dg3⟩ := dg2.cut p6 (by good) (fun _ => by good)
  obtain ⟨i5, ip5⟩ := cg3.ins g3
  obtain ⟨z, hz, i6, ip6⟩ := emit_jump C.act.mod c7.fits p7 (Or.inr rfl)
  have : z = t3.ip := by rw [f2] at hz; exact (Option.some.inj hz).symm
  subst this
  -- run
  refine Sim.seq (ih.value c1 hoks hms p1 (H.move hsip.symm)) ?_
  intro v st1 vm1 j1 hj1 H1
  rw [C.act.mod.env] at hc
  refine Sim.lookup fun id hid => ?_
  rw [hid] at hc
  rw [C.wf.lang, hid] at hw hr
  refine Sim.seq1 (sim_setVariable hK c2 hc hw p2 H1 (.inr rfl)) ?_
  intro _ st2 vm2 H2
  have w : ParaCode K (a.inner x) W lp x id stop inc body t3.ip s'.ip c t3 w1 w2 t4 t5 u1 u2 u3 :=
    { sym := hc, read := hr, write := hw, okt := hokt, cleant := hct, oki := hoki, okb := hokb,
      codev := ca1, genv := a1, codet := ca2, gent := a2, less := i3
      test := by rw [← ip3]; exact i4
      ip4 := by rw [ip4, ip3]
      codeb := C.into hb rfl rfl rfl rfl rfl (.inl rfl) c5.scope c5.fits rfl
      genb := p5, codei := cg1, geni := g1, codew := cg2, genw := g2, add := i5, ip8 := ip5
      codes := ⟨t6, dg3, p6, i6⟩, ip1 := rfl }
  exact ih.para w hmi hmb (Here.move H2 y3.symm)

/-! ## Function declarations -/

/-- The code of a function declaration: a jump over the body. -/
theorem sim_funcStmt {sym : SymId} {x : ScopeId} {body : List TStmt} (C : Code K a W lp s s')
    (hok : Nice W.scope (genFunc a.cm.ctx sym x (genStmts a.cm.ctx body)))
    (h : genFunc a.cm.ctx sym x (genStmts a.cm.ctx body) s = .ok ((), s')) (H : Here K a st vm s.ip k) :
    Sim K a m lp vm k (sPost K a W s'.ip) (.done none st) := by
  have q : Good1 0 s s' := hok.good s () s' (Nat.zero_le _) C.scope h
  unfold genFunc at h
  gbind h with f t0 e0
  obtain ⟨-, ht0⟩ := symOf_ok e0
  rw [ht0] at h
  gbind h with i t1 e1
  obtain ⟨-, ht1, -⟩ := nameIndex_ok e1
  gbind h with fe t2 e2
  obtain ⟨hfe, ht2⟩ := newLabel_ok e2
  gbind h with u3 t3 e3
  have ht3 := emit_ok e3
  have X3 : Ext 0 t3 s' := by
    have hk : Keeps 0 (newLabel >>= fun funcStart => G.get >>= fun s => startLocals a.cm.ctx f.params >>= fun _ =>
        genFuncBody a.cm.ctx f.builtin x (genStmts a.cm.ctx body) >>= fun _ =>
        endFunc a.cm.ctx f fe funcStart s.funcLocals) := by
      have h1 := keeps_genFuncBody (n := 0) a.cm.ctx f.builtin x (keeps_genStmts a.cm.ctx 0 body)
      have h2 := fun st prev => keeps_endFunc (n := 0) a.cm.ctx f fe st prev (Nat.zero_le _)
      repeat first | keep | with_reducible exact h1 | with_reducible exact h2 _ _
    exact hk t3 () s' (Nat.zero_le _) h
  have hend : s'.labels[fe]? = some s'.ip ∧ fe < s'.labels.length := by
    gbind h with fs t4 e4
    gbind h with g t5 e5
    gbind h with u6 t6 e6
    gbind h with u7 t7 e7
    have X6 : Ext 0 t3 t7 := by
      have hk : Keeps 0 (newLabel >>= fun _ => G.get >>= fun _ => startLocals a.cm.ctx f.params >>= fun _ =>
          genFuncBody a.cm.ctx f.builtin x (genStmts a.cm.ctx body)) := by
        have h1 := keeps_genFuncBody (n := 0) a.cm.ctx f.builtin x (keeps_genStmts a.cm.ctx 0 body)
        repeat first | keep | with_reducible exact h1
      refine hk t3 () t7 (Nat.zero_le _) ?_
      exact G.bind_ok.2 ⟨_, _, e4, G.bind_ok.2 ⟨_, _, e5, G.bind_ok.2 ⟨_, _, e6, e7⟩⟩⟩
    unfold endFunc at h
    gbind h with u8 t8 e8
    gbind h with u9 t9 e9
    have X8 : Ext 0 t7 t9 := by
      have hk : Keeps 0 (loadConst (.str "falso") >>= fun _ => emit .ret) := by repeat keep
      exact hk t7 _ t9 (Nat.zero_le _) (G.bind_ok.2 ⟨_, _, e8, e9⟩)
    gbind h with g' t10 e10
    obtain ⟨-, ht10⟩ := get_ok e10
    gbind h with u11 t11 e11
    have ht11 := modify_ok e11
    gbind h with u12 t12 e12
    gbind h with g'' t13 e13
    obtain ⟨-, ht13⟩ := get_ok e13
    gbind h with st14 t14 e14
    obtain ⟨-, ht14⟩ := need_ok e14
    have hs' := modify_ok h
    have hlt : fe < t11.labels.length := by
      have h1 : t3.labels.length = s.labels.length + 1 := by rw [ht3, ht2, ht1]; simp
      have h2 := X6.count
      have h3 := X8.count
      have h4 : t11.labels.length = t9.labels.length := by rw [ht11, ht10]
      have h5 : fe = s.labels.length := by rw [hfe, ht1]
      omega
    obtain ⟨p1, p2⟩ := patch_end e12 hlt
    have hlen : t12.labels.length = t11.labels.length := by rw [patchLabel_ok e12]; simp
    rw [hs', ht14, ht13]
    exact ⟨by rw [p1, p2], by show fe < t12.labels.length; omega⟩
  have hlab : s.labels.length ≤ fe := by rw [hfe, ht1]; exact Nat.le_refl _
  have hfin : a.cm.fin.labels[fe]? = some s'.ip := by
    rw [C.fits.labels fe hlab hend.2, hend.1]
  have hloc : t3.funcLocals <+: a.L := by
    rw [ht3, ht2, ht1]
    exact (q.step.locals (C.fits.dense.prefix C.fits.locals)).trans C.fits.locals
  have X : Codegen.Fits a.cm.fin a.L t2 t3 := by
    refine ⟨X3.ops.trans C.fits.ops, ?_, X3.consts.trans C.fits.consts, X3.names.trans C.fits.names,
      X3.variants.trans C.fits.variants, X3.registos.trans C.fits.registos, ?_, C.fits.dense, hloc⟩
    · rw [ht2, ht1]; exact C.fits.ip
    · intro l h1 h2
      rw [ht3] at h2
      exact absurd h2 (Nat.not_lt.2 h1)
  obtain ⟨z, hz, hi, -⟩ := emit_jump C.act.mod X e3 (Or.inr rfl)
  have : z = s'.ip := by rw [hfin] at hz; exact (Option.some.inj hz).symm
  subst this
  have hip : t2.ip = s.ip := by rw [ht2, ht1]
  obtain ⟨vm1, r1, H1⟩ := sim_jump C.act.mod hi (H.move hip.symm)
  exact ⟨vm1, [], m.junk_nil, r1, by simpa using H1, by simp⟩

/-! ## All statements -/

theorem sim_stmt (hK : LinkOk K) (ih : IH K n) {c : TStmt} (C : Code K a W lp s s') (hok : okS W c = true)
    (hm : m.okFor (cleanS · c)) (h : genStmt a.cm.ctx c s = .ok ((), s')) (H : Here K a st vm s.ip k) :
    Sim K a m lp vm k (sPost K a W s'.ip) (evalS K.cfg K.L (n + 1) (pos a W) c st) := by
  match c, hok, hm, h with
  | .expr (.iguala l d), hok, hm, h =>
      unfold genStmt at h
      unfold evalS
      exact sim_igualaStmt ih C (by simpa [okS] using hok) hm h H
  | .expr e, hok, hm, h =>
      by_cases hi : ∃ l d, e = .iguala l d
      · obtain ⟨l, d, rfl⟩ := hi
        unfold genStmt at h
        unfold evalS
        exact sim_igualaStmt ih C (by simpa [okS] using hok) hm h H
      · unfold genStmt at h
        have hne : ∀ l d, e ≠ .iguala l d := fun l d q => hi ⟨l, d, q⟩
        have he : evalS K.cfg K.L (n + 1) (pos a W) (.expr e) =
            (do let _ ← evalE K.cfg K.L n (pos a W) e
                pure none : M F (Option (Val F))) := by
          cases e <;> first | (exact absurd rfl (hne _ _)) | (unfold evalS; rfl)
        rw [he]
        exact sim_exprStmt ih C (by simpa [okS] using hok) hm hne h H
  | .varDecl l nm ty (some (.mk sym right)), hok, hm, h =>
      unfold genStmt at h
      unfold evalS
      simp only [okS, Bool.and_eq_true] at hok
      obtain ⟨t, h1, c1, hip, -⟩ := C.atLine h
      have hs := sim_assign hK ih c1 hok.2 hok.1 (hm.use fun b h => by simpa [cleanS] using h) h1 (H.move hip.symm)
      have hs' := Sim.bind (f := fun _ st => (Out.done none st : Out F (Option (Val F)))) (Q := sPost K a W s'.ip) hs
        (fun v st1 vm1 j hj H1 => ⟨vm1, [], m.junk_nil, .refl _, by simpa using H1.1, by simp⟩)
      have e1 : ∀ o : Out F (Val F), ∀ f : Val F → M F Unit,
          (o.next fun x st => ((f x) st).next fun _ st => (Out.done x st)).next
            (fun _ st => (Out.done none st : Out F (Option (Val F)))) =
          o.next fun x st => ((f x) st).next fun _ st => Out.done none st := by
        intro o f
        rw [Out.next_assoc]
        congr 1
        funext x st
        exact Out.next_assoc _ _ _
      rw [show ∀ o, (do let v ← evalE K.cfg K.L n (pos a W) right
                        writeVar K.L sym (some v)
                        pure v : M F (Val F)) o = (evalE K.cfg K.L n (pos a W) right o).next fun x st =>
            ((writeVar K.L sym (some x)) st).next fun _ st => (Out.done x st) from fun _ => rfl, e1] at hs'
      exact hs'
  | .varDecl l nm ty none, hok, hm, h =>
      unfold genStmt at h
      unfold evalS
      simp only [okS] at hok
      obtain ⟨t, h1, c1, hip, -⟩ := C.atLine h
      exact sim_declare hK c1 hok h1 (H.move hip.symm)
  | .loopCtl l isBreak, hok, hm, h =>
      unfold genStmt at h
      unfold evalS
      simp only [okS] at hok
      obtain ⟨t, h1, c1, hip, -⟩ := C.atLine h
      exact sim_loopCtl c1 hok (hm.early rfl) h1 (H.move hip.symm)
  | .retorna l (some e), hok, hm, h =>
      unfold genStmt genOpt at h
      unfold evalS
      simp only [okS] at hok
      obtain ⟨t, h1, c1, hip, -⟩ := C.atLine h
      exact sim_retorna ih c1 hok (hm.use fun b h => by simp [cleanS] at h; exact h.2) (hm.early rfl) h1 (H.move hip.symm)
  | .retorna l none, hok, hm, h =>
      unfold genStmt genOpt at h
      unfold evalS
      obtain ⟨t, h1, c1, hip, -⟩ := C.atLine h
      exact sim_retornaNone c1 (hm.early rfl) h1 (H.move hip.symm)
  | .produz l e, hok, hm, h =>
      unfold genStmt at h
      unfold evalS
      simp only [okS, Bool.and_eq_true] at hok
      obtain ⟨t, h1, c1, hip, -⟩ := C.atLine h
      refine Sim.seq (ih.value c1 hok.2 (hm.use fun b h => by simpa [cleanS] using h) h1 (H.move hip.symm)) ?_
      intro v st1 vm1 j hj H1
      exact Sim.done (.refl _) ⟨H1, fun _ => hok.1⟩
  | .mostra l e, hok, hm, h =>
      unfold genStmt at h
      unfold evalS
      simp only [okS] at hok
      obtain ⟨t, h1, c1, hip, -⟩ := C.atLine h
      exact sim_mostraStmt ih c1 hok (hm.use fun b h => by simpa [cleanS] using h) h1 (H.move hip.symm)
  | .se l cond thenB es eb, hok, hm, h =>
      unfold genStmt at h
      unfold evalS
      simp only [okS, Bool.and_eq_true] at hok
      obtain ⟨t, h1, c1, hip, -⟩ := C.atLine h
      exact sim_se ih c1 hok.1.1.1 hok.1.1.2 hok.1.2 hok.2
        (hm.use fun b h => by simp [cleanS] at h; exact h.1.1.1)
        (hm.imp fun b h => by simp [cleanS] at h; exact h.1.1.2)
        (hm.imp fun b h => by simp [cleanS] at h; exact h.1.2)
        (hm.imp fun b h => by simp [cleanS] at h; exact h.2) h1 (H.move hip.symm)
  | .enquanto l cond (.mk x body), hok, hm, h =>
      unfold genStmt at h
      unfold evalS
      simp only [okS, Bool.and_eq_true] at hok
      obtain ⟨t, h1, c1, hip, -⟩ := C.atLine h
      obtain ⟨t1, t2, t3, t4, w⟩ := while_code c1 hok.1.1 hok.1.2 hok.2 h1
      refine Sim.outer (x := x) (P := sPost K (a.inner x) W s'.ip) ?_ (fun _ _ _ _ h => ⟨h.1.outer, h.2⟩)
      exact ih.while' w (hm.use fun b h => by simp [cleanS] at h; exact h.1)
        (hm.imp fun b h => by simp [cleanS, cleanB] at h; exact h.2) ((H.enter C.wf hok.1.1).move hip.symm)
  | .para l name start stop none (.mk x body), hok, hm, h =>
      unfold genStmt at h
      unfold evalS
      simp only [okS, Bool.and_eq_true] at hok
      obtain ⟨⟨⟨⟨⟨⟨o1, o2⟩, o3⟩, o4⟩, o5⟩, o6⟩, o7⟩ := hok
      obtain ⟨t, h1, c1, hip, -⟩ := C.atLine h
      refine Sim.outer (x := x) (P := sPost K (a.inner x) W s'.ip) ?_ (fun _ _ _ _ h => ⟨h.1.outer, h.2⟩)
      exact sim_paraStmt hK ih c1 o1 o2 o3 o4 o5 o6 (by simp) o7
        (hm.use fun b h => by simp [cleanS] at h; exact h.1.1) (by simp)
        (hm.imp fun b h => by simp [cleanS, cleanB] at h; exact h.2) h1 ((H.enter C.wf o1).move hip.symm)
  | .para l name start stop (some i) (.mk x body), hok, hm, h =>
      unfold genStmt at h
      unfold evalS
      simp only [okS, Bool.and_eq_true] at hok
      obtain ⟨⟨⟨⟨⟨⟨⟨o1, o2⟩, o3⟩, o4⟩, o5⟩, o6⟩, o7⟩, o8⟩ := hok
      obtain ⟨t, h1, c1, hip, -⟩ := C.atLine h
      refine Sim.outer (x := x) (P := sPost K (a.inner x) W s'.ip) ?_ (fun _ _ _ _ h => ⟨h.1.outer, h.2⟩)
      exact sim_paraStmt hK ih c1 o1 o2 o3 o4 o5 o6 (by simpa using o7) o8
        (hm.use fun b h => by simp [cleanS] at h; exact h.1.1.1)
        (by intro q e he; cases he; exact (hm.use fun b h => by simp [cleanS] at h; exact h.1.2) q)
        (hm.imp fun b h => by simp [cleanS, cleanB] at h; exact h.2) h1 ((H.enter C.wf o1).move hip.symm)
  | .func l sym (.mk x body), hok, hm, h =>
      have nn := nice_stmt C hok
      unfold genStmt at h
      unfold evalS
      obtain ⟨t, h1, c1, hip, -⟩ := C.atLine h
      refine sim_funcStmt c1 ?_ h1 (H.move hip.symm)
      refine ⟨fun n => keeps_genFunc _ _ _ (keeps_genStmts _ _ _), fr_genFunc _ _ _ fun f hf => ?_⟩
      simp only [okS, Bool.or_eq_true, Bool.and_eq_true] at hok
      unfold genFuncBody
      split
      · exact fr_pure _
      · rename_i hb
        rcases hok.2 with h | h
        · rw [← C.env, hf] at h
          exact absurd h hb
        · exact fr_genScoped _ _ (inside_parent C.env h.1) (fr_genStmts _ (W.funcIn x) C.env body h.2)
  | .registo l name fields, hok, hm, h =>
      unfold genStmt at h
      unfold evalS
      simp only [okS] at hok
      obtain ⟨t, h1, c1, hip, -⟩ := C.atLine h
      exact sim_registo hK c1 hok h1 (H.move hip.symm)
  | .uniao l name vs, hok, hm, h =>
      unfold genStmt at h
      unfold evalS
      obtain ⟨t, h1, c1, hip, -⟩ := C.atLine h
      exact Sim.done (.refl _) ⟨by simpa using H.move ((genUniao_ip h1).trans hip).symm, by simp⟩
  | .noop l, hok, hm, h =>
      unfold genStmt at h
      unfold evalS
      exact Sim.done (.refl _) ⟨by simpa using H.move (show s.ip = s'.ip by rw [modify_ok h]), by simp⟩

end

end Compiled

end Amanda

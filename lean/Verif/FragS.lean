import Verif.FragStep

/-!
# Statements of `Verif.Frag` that the checker accepts keep to the typing rules
-/

namespace Amanda.Check

open Source

/-! ## What is visible -/

theorem Seen.congr {scopes scopes' : List ScopeTab} {n : String}
    (wf : ∀ (k : Nat) (tab : ScopeTab) (p : Nat), scopes[k]? = some tab → tab.parent = some p → p < k) {k i : Nat}
    (h : Seen scopes' n k i) : (∀ (j : Nat) tab, j ≤ k → scopes'[j]? = some tab → scopes[j]? = some tab) → Seen scopes n k i := by
  induction h with
  | @here k tab i hk hl => intro hs; exact .here (hs k tab (Nat.le_refl _) hk) hl
  | @up k tab p i hk hl hp _ ih =>
      intro hs
      have ht := hs k tab (Nat.le_refl _) hk
      have hlt := wf k tab p ht hp
      exact .up ht hl hp (ih fun j tab hj => hs j tab (Nat.le_trans hj (Nat.le_of_lt hlt)))

/-- The variables visible from a scope have a value. -/
structure Vis (X : World) (s : CState) (k : Nat) (Γ : List SymId) : Prop where
  see : ∀ n (i : Nat) x t, Seen s.scopes n k i → s.syms[i]? = some x → x.body = .var t → X.b ≤ i → i ∈ Γ
  old : ∀ i ∈ Γ, i < s.syms.length

/-- The variables that functions need have a value. -/
def Fns (X : World) (s : CState) (Γ : List SymId) : Prop :=
  ∀ (i : Nat) x t ps, X.b ≤ i → s.syms[i]? = some x → x.body = .func t ps → X.needs i ⊆ Γ

/-- The result of the function around. -/
def RetOk (X : World) (s : CState) (ret : Option Ty) : Prop :=
  ∀ i, s.ana.ctxFunc = some i → ∃ x t ps, s.syms[i]? = some x ∧ x.body = .func t ps ∧ exprTy X.K.reals t = true ∧
    ret = some (toTy [] t)

/-- The variables of the module are marked as global. -/
def TopG (X : World) (s : CState) : Prop :=
  ∀ n (i : Nat) x t, lookIn s.scopes X.g n = some i → X.b ≤ i → s.syms[i]? = some x → x.body = .var t → x.isGlobal = true

/-- No scope is changed. -/
def Quiet (s s' : CState) : Prop := ∃ k, s.scopes.length ≤ k ∧ Step k s s'

section
variable {X : World} {s s' : CState}

theorem Quiet.same (h : Quiet s s') {j : Nat} {tab : ScopeTab} (ht : s.scopes[j]? = some tab) : s'.scopes[j]? = some tab := by
  obtain ⟨k, hk, h⟩ := h
  have := (List.getElem?_eq_some_iff.mp ht).1
  exact h.frame j tab (by omega) ht

theorem Quiet.step (h : Quiet s s') (k : Nat) : Step k s s' := by
  obtain ⟨k', hk, h'⟩ := h
  exact ⟨h'.ana, h'.later, h'.vars, fun j tab _ ht => Quiet.same ⟨k', hk, h'⟩ ht, h'.mods, h'.open_⟩

theorem Quiet.later (h : Quiet s s') : Later s s' := (h.step 0).later

theorem Quiet.refl (s : CState) : Quiet s s := ⟨_, Nat.le_refl _, .refl _ s⟩

theorem Quiet.line (s : CState) (l : Nat) : Quiet s (s.atLine l) := ⟨_, Nat.le_refl _, .line _ s l⟩

theorem Quiet.trans {s1 s2 s3 : CState} (h : Quiet s1 s2) (h' : Quiet s2 s3) : Quiet s1 s3 := by
  refine ⟨s1.scopes.length, Nat.le_refl _, ?_⟩
  exact (h.step _).trans (h'.step _)

theorem Quiet.ctx (h : Quiet s s') : s'.ana.ctxScope = s.ana.ctxScope := by
  obtain ⟨l, hl⟩ := (h.step 0).ana
  rw [hl]

theorem StepFrom.ctx {m k : Nat} (h : StepFrom m k s s') : s'.ana.ctxScope = s.ana.ctxScope := by
  obtain ⟨l, hl⟩ := h.ana
  rw [hl]

theorem StepFrom.loop {m k : Nat} (h : StepFrom m k s s') : s'.ana.inLoop = s.ana.inLoop := by
  obtain ⟨l, hl⟩ := h.ana
  rw [hl]

theorem StepFrom.func {m k : Nat} (h : StepFrom m k s s') : s'.ana.ctxFunc = s.ana.ctxFunc := by
  obtain ⟨l, hl⟩ := h.ana
  rw [hl]

theorem Vis.quiet (hi : Inv X s) {k : Nat} (hk : k = X.g ∨ X.sb ≤ k) (hlt : k < s.scopes.length) {Γ : List SymId}
    (h : Vis X s k Γ) (hq : Quiet s s') : Vis X s' k Γ := by
  refine ⟨?_, fun i hi' => Nat.lt_of_lt_of_le (h.old i hi') hq.later.symsLen⟩
  intro n i x t hs hx hb hbi
  have hs' : Seen s.scopes n k i := hs.congr hi.wf fun j tab hj ht => by
    have hlt' : j < s.scopes.length := Nat.lt_of_le_of_lt hj hlt
    have := hq.same (List.getElem?_eq_getElem hlt')
    rw [this] at ht
    cases ht
    exact List.getElem?_eq_getElem hlt'
  obtain ⟨k', hk', hl⟩ := hi.found hk hs'
  obtain ⟨y, hy, _⟩ := hi.new k' n i hk' hl hbi
  obtain ⟨z, hz, e, _⟩ := hq.later.syms i y hy
  rw [hx] at hz
  cases hz
  exact h.see n i y t hs' hy (e.symm.trans hb) hbi

theorem Fns.step {k : Nat} {Γ Γ' : List SymId} (h : Fns X s Γ) (hs : Step k s s') (hsub : Γ ⊆ Γ') : Fns X s' Γ' := by
  intro i x t ps hi hx hb
  cases hy : s.syms[i]? with
  | none =>
      obtain ⟨u, hu⟩ := hs.vars i x hx hy
      rw [hb] at hu
      cases hu
  | some y =>
      obtain ⟨z, hz, e, _⟩ := hs.later.syms i y hy
      rw [hx] at hz
      cases hz
      exact fun j hj => hsub (h i y t ps hi hy (e.symm.trans hb) hj)

theorem RetOk.step {k : Nat} {ret : Option Ty} (h : RetOk X s ret) (hs : Step k s s') : RetOk X s' ret := by
  intro i hi
  rw [hs.func] at hi
  obtain ⟨x, t, ps, hx, hb, ht, hr⟩ := h i hi
  obtain ⟨y, hy, e, _⟩ := hs.later.syms i x hx
  exact ⟨y, t, ps, hy, e.trans hb, ht, hr⟩

theorem TopG.keep (hi : Inv X s) (h : TopG X s) (hl : Later s s')
    (hg : ∀ tab, s.scopes[X.g]? = some tab → s'.scopes[X.g]? = some tab) : TopG X s' := by
  intro n i x t hlk hbi hx hb
  have hlt : X.g < s.scopes.length := Nat.lt_of_lt_of_le hi.gsb hi.sbase
  have hlk' : lookIn s.scopes X.g n = some i := by
    unfold lookIn at hlk ⊢
    rw [hg _ (List.getElem?_eq_getElem hlt)] at hlk
    rw [List.getElem?_eq_getElem hlt]
    exact hlk
  obtain ⟨y, hy, _⟩ := hi.new X.g n i (.inl rfl) hlk' hbi
  obtain ⟨z, hz, e1, _, e2⟩ := hl.syms i y hy
  rw [hx] at hz
  cases hz
  rw [e2]
  exact h n i y t hlk' hbi hy (e1.symm.trans hb)

end

/-! ## Expressions in statements -/

/-- The same with another end. -/
def World.until (X : World) (s : CState) : World := { X with sf := s }

section
variable {F : Type} [FloatOps F] {X : World} {L : Lang} {s s' : CState} {Γ : List SymId}

theorem sit_of (hi : Inv X s) (hl : Later s X.sf) (hv : Vis X s s.ana.ctxScope Γ) (hf : Fns X s Γ) : Sit X s Γ none :=
  ⟨hi, hl.agree, fun n i x t hs _ hx hb hbi => hv.see n i x t hs hx hb hbi, hf⟩

theorem Inv.until (hi : Inv X s) (z : CState) : Inv (X.until z) s :=
  ⟨hi.reg, hi.yield, hi.glob, hi.ctx, hi.ctxLt, hi.top, hi.base, hi.gsb, hi.sbase, hi.wf, hi.root, hi.inner, hi.innerNames, hi.old,
    hi.new, hi.prims, hi.syms, hi.global, hi.bound, hi.once, hi.libs, hi.deep, hi.numbered, hi.away, hi.entry⟩

/-- Expressions change nothing but the line. -/
theorem visitE_line (F : Type) [FloatOps F] [LawfulFloatOps F] [ReadsNumerals F] (hN : X.Names) (hi : Inv X s) {e : Expr} {par : Par}
    {a : AExpr} {w : Use} (hk : okE X.K w e = true)
    (h : visitE X.cfg X.mod par e s = .ok (a, s')) : (∃ l, s' = s.atLine l) ∧ exprTy X.K.reals a.ty = true := by
  have hs : Sit (X.until s) s (List.range s.syms.length) none := by
    refine ⟨hi.until s, (Later.refl s).agree, ?_, ?_⟩
    · intro n i x t _ _ hx _ _
      exact List.mem_range.mpr (List.getElem?_eq_some_iff.mp hx).1
    · intro i x t ps _ hx _ j hj
      unfold World.needs at hj
      have h1 := List.mem_range.mp (List.mem_filter.mp hj).1
      have h2 : i < s.syms.length := (List.getElem?_eq_some_iff.mp hx).1
      exact List.mem_range.mpr (Nat.lt_trans h1 h2)
  obtain ⟨h1, h2⟩ := goodE (F := F) (X := X.until s) (L := ⟨⟨s.syms.map CSym.toSym, s.scopes⟩, "", fun _ _ => none, fun _ _ => none⟩)
    ⟨hN.apart, hN.vars, hN.fns, hN.libs, hN.away⟩ rfl e hk (fun n hn => by cases hn) hs h
  exact ⟨h1, h2.ty⟩

theorem condTag_ok {a : AExpr} {tok : Option Token} {msg : String} {u : Unit} (h : condTag a tok msg s = .ok (u, s')) :
    a.ty = .prim .bool ∧ s' = s := by
  unfold condTag at h
  rw [C.bind_ok] at h
  obtain ⟨tag, s1, h1, h⟩ := h
  have ht : a.ty = .prim tag ∧ s1 = s := by
    cases hty : a.ty with
    | prim q => rw [hty] at h1; simp only [tagOf, C.pure_ok] at h1; exact ⟨by rw [h1.1], h1.2⟩
    | _ => rw [hty] at h1; simp [tagOf, C.raise_ok] at h1
  obtain ⟨ht, rfl⟩ := ht
  split at h
  · rename_i hb
    rw [C.pure_ok] at h
    exact ⟨by rw [ht, hb], h.2⟩
  · cases tok <;> simp [C.bind_ok, C.error_ok] at h

theorem same_bool {a : AExpr} {c : Bool} (hty : exprTy X.K.reals a.ty = true) (h : sameTy a.ty (.prim .bool) s = .ok (c, s')) :
    s' = s ∧ (c = true → a.ty = .prim .bool) := by
  rw [sameTy_ok] at h
  obtain ⟨rfl, rfl⟩ := h
  refine ⟨rfl, fun hc => ?_⟩
  rcases expr_cases hty with hd | hv
  · have := toTy_inj (r := X.K.reals) (t := a.ty) (u := .prim .bool) hd (by simp [exprTy, dataTy]) (by
      rw [toTy_data _ hd] at hc; simpa [toTy] using hc)
    exact this
  · rw [hv] at hc; simp [toTy, Ty.eqv, Ty.eqD] at hc

end

/-! ## Statements -/

/-- The declaration of a variable. -/
def isVar : TStmt → Bool
  | .varDecl .. => true
  | _ => false

section
variable (F : Type) [FloatOps F] (X : World) (L : Lang)

/-- What is shown of a visited statement. -/
def SDone (m : Mode) (st : Stmt) (s s' : CState) (a : AStmt) (Γ : List SymId) : Prop :=
  Inv X s' ∧ Step s.ana.ctxScope s s' ∧ (TopG X s → TopG X s') ∧ ∃ Γ', Γ ⊆ Γ' ∧ Vis X s' s.ana.ctxScope Γ' ∧
    (Later s' X.sf → Fns X s Γ → ∀ ret, RetOk X s ret →
      ∃ ts, toS X.mod X.g true a X.sf = .ok (ts, X.sf) ∧ TS F L X.table ret m Γ (some s.ana.ctxScope) ts Γ' ∧
        mustReturn ts = returnsS st ∧ funcDecls [ts] = [] ∧ isVar ts = isDecl st)

/-- The same for lists. -/
def SsDone (m : Mode) (sts : List Stmt) (s s' : CState) (as : List AStmt) (Γ : List SymId) : Prop :=
  Inv X s' ∧ Step s.ana.ctxScope s s' ∧ (TopG X s → TopG X s') ∧ ∃ Γ', Γ ⊆ Γ' ∧ Vis X s' s.ana.ctxScope Γ' ∧
    (Later s' X.sf → Fns X s Γ → ∀ ret, RetOk X s ret →
      ∃ ts, toSs X.mod X.g true as X.sf = .ok (ts, X.sf) ∧ TSs F L X.table ret m Γ (some s.ana.ctxScope) ts Γ' ∧
        mustReturns ts = returnsSs sts ∧ ts.any isVar = sts.any isDecl)

/-- The same for blocks. -/
def BDone (m : Mode) (sts : List Stmt) (sc : Nat) (s s' : CState) (b : ABlock) (Γ : List SymId) : Prop :=
  Inv X s' ∧ Step sc s s' ∧
    (Later s' X.sf → Fns X s Γ → ∀ ret, RetOk X s ret →
      ∃ body Γ', toB X.mod X.g true b X.sf = .ok (.mk sc body, X.sf) ∧ TSs F L X.table ret m Γ (some sc) body Γ' ∧
        mustReturns body = returnsSs sts ∧ body.any isVar = sts.any isDecl)

/-- Statements are shown this of. -/
def GoodS (st : Stmt) : Prop :=
  ∀ {m : Mode} {Γ : List SymId} {a : AStmt} {s s' : CState}, okS X.K m st = true → Inv X s → Vis X s s.ana.ctxScope Γ →
    visitS X.cfg X.mod false false st s = .ok (a, s') → SDone F X L m st s s' a Γ

end

section
variable {F : Type} [FloatOps F] {X : World} {L : Lang} {s s' : CState} {Γ : List SymId}

theorem GoodS.vacuous {st : Stmt} (h : ∀ m, okS X.K m st = false) : GoodS F X L st := by
  intro m Γ a s s' hk
  rw [h m] at hk
  cases hk

/-- Statements that define nothing. -/
theorem SDone.quiet {m : Mode} {st : Stmt} {a : AStmt} (hi : Inv X s) (hv : Vis X s s.ana.ctxScope Γ) (hi' : Inv X s') (hq : Quiet s s')
    (ht : Later s' X.sf → Fns X s Γ → ∀ ret, RetOk X s ret →
      ∃ ts, toS X.mod X.g true a X.sf = .ok (ts, X.sf) ∧ TS F L X.table ret m Γ (some s.ana.ctxScope) ts Γ ∧
        mustReturn ts = returnsS st ∧ funcDecls [ts] = [] ∧ isVar ts = isDecl st) : SDone F X L m st s s' a Γ :=
  ⟨hi', hq.step _, fun hg => hg.keep hi hq.later fun _ ht => hq.same ht, Γ, fun _ h => h, hv.quiet hi hi.ctx hi.ctxLt hq, ht⟩

theorem good_stmts : ∀ (sts : List Stmt) (_ : ∀ st ∈ sts, GoodS F X L st) {m : Mode} {Γ : List SymId} {as : List AStmt} {s s' : CState},
    okSs X.K m sts = true → Inv X s → Vis X s s.ana.ctxScope Γ →
    visitSs X.cfg X.mod sts s = .ok (as, s') → SsDone F X L m sts s s' as Γ
  | [], _, m, Γ, as, s, s', _, hi, hv, h => by
      simp only [visitSs, C.pure_ok] at h
      obtain ⟨rfl, rfl⟩ := h
      refine ⟨hi, .refl _ _, id, Γ, fun _ h => h, hv, fun _ _ ret _ => ⟨[], ?_, .nil, rfl, rfl⟩⟩
      simp only [toSs, C.pure_ok, and_self]
  | st :: sts, hg, m, Γ, as, s, s', hk, hi, hv, h => by
      simp only [okSs, Bool.and_eq_true] at hk
      simp only [visitSs, C.bind_ok, C.pure_ok] at h
      obtain ⟨a, s1, h1, as', s2, h2, rfl, rfl⟩ := h
      obtain ⟨hi1, st1, tg1, Γ1, hsub1, hv1, ht1⟩ := hg st (by simp) hk.1 hi hv h1
      rw [← st1.ctx] at hv1
      obtain ⟨hi2, st2, tg2, Γ2, hsub2, hv2, ht2⟩ := good_stmts sts (fun x hx => hg x (by simp [hx])) hk.2 hi1 hv1 h2
      rw [st1.ctx] at st2 hv2 ht2
      refine ⟨hi2, st1.trans st2, tg2 ∘ tg1, Γ2, fun _ h => hsub2 (hsub1 h), hv2, fun hl hf ret hr => ?_⟩
      obtain ⟨t1, e1, y1, m1, -, v1⟩ := ht1 (st2.later.trans hl) hf ret hr
      obtain ⟨t2, e2, y2, m2, v2⟩ := ht2 hl (hf.step st1 hsub1) ret (hr.step st1)
      refine ⟨t1 :: t2, ?_, .cons y1 y2, ?_, by simp only [List.any_cons, v1, v2]⟩
      · simp only [toSs]
        exact C.bind_ok.mpr ⟨_, _, e1, C.bind_ok.mpr ⟨_, _, e2, rfl⟩⟩
      · simp only [mustReturns, returnsSs, m1, m2]

/-- Blocks. -/
theorem block_ok {m : Mode} {sts : List Stmt} (hg : ∀ st ∈ sts, GoodS F X L st) (hk : okSs X.K m sts = true) {sc : Nat} {b : ABlock}
    (hi : Inv X s) (hsc : X.sb ≤ sc) (hp : ∃ tab, s.scopes[sc]? = some tab ∧ tab.parent = some s.ana.ctxScope)
    (hv : Vis X s sc Γ) (h : inBlock sc (visitSs X.cfg X.mod sts) s = .ok (b, s')) : BDone F X L m sts sc s s' b Γ := by
  obtain ⟨tab, ht, hpar⟩ := hp
  have hlt : sc < s.scopes.length := (List.getElem?_eq_some_iff.mp ht).1
  have hne : sc ≠ X.g := by have := hi.gsb; omega
  simp only [inBlock, C.bind_ok, C.at_ok, C.pure_ok, enterScope, C.modify_ok] at h
  obtain ⟨_, s1, e1, _, s2, e2, body, s3, h3, _, s4, h4, rfl, rfl⟩ := h
  have hi2 : Inv X s2 := by
    rw [e2, e1]
    exact (hi.line _).move rfl rfl rfl (.inr hsc) hlt ⟨(fun h => by cases h), (fun h => absurd h hne)⟩ (.up ht hpar hi.deep)
  have c2 : s2.ana.ctxScope = sc := by rw [e2]
  have f2 : s2.scopes = s.scopes := by rw [e2, e1]; rfl
  have g2 : s2.syms = s.syms := by rw [e2, e1]; rfl
  have hv2 : Vis X s2 s2.ana.ctxScope Γ := by
    rw [c2]
    refine ⟨?_, by rw [g2]; exact hv.old⟩
    intro n i x t hs hx
    rw [f2] at hs
    rw [g2] at hx
    exact hv.see n i x t hs hx
  obtain ⟨hi3, st3, _, Γ3, hsub3, hv3, ht3⟩ := good_stmts sts hg hk hi2 hv2 h3
  rw [c2] at st3 ht3
  have hs2 : Later s s2 := by
    constructor
    · intro i x hx; exact ⟨x, by rw [g2]; exact hx, rfl, rfl, rfl⟩
    · intro k t ht; exact ⟨t, by rw [f2]; exact ht, rfl, fun _ _ h => h, fun _ h => .inl h⟩
  obtain ⟨tab3, ht3', hp3, _⟩ := (hs2.trans st3.later).scopes sc tab ht
  have hc3 : s3.ana.ctxScope = sc := by rw [st3.ctx, c2]
  unfold leaveScope at h4
  rw [hc3, ht3'] at h4
  simp only [Option.bind_some, hp3, hpar] at h4
  simp only [Except.ok.injEq, Prod.mk.injEq, true_and] at h4
  obtain ⟨l, hl⟩ := st3.ana
  have hd3 : s3.ana.depth = s.ana.depth + 1 := by rw [hl, e2, e1]; rfl
  have hlen : s.scopes.length ≤ s3.scopes.length := (hs2.trans st3.later).scopesLen
  have hi4 : Inv X s' := by
    rw [← h4]
    refine hi3.move rfl rfl rfl hi.ctx (Nat.lt_of_lt_of_le hi.ctxLt hlen) ?_ ?_
    · show s3.ana.depth - 1 = 0 ↔ _
      rw [hd3]
      exact hi.top
    · show Deep s3.scopes s.ana.ctxScope (s3.ana.depth - 1)
      rw [hd3]
      exact hi.deep.mono (hs2.trans st3.later).parents
  have hst : Step sc s s' := by
    rw [← h4]
    refine ⟨⟨l, ?_⟩, ⟨(hs2.trans st3.later).syms, (hs2.trans st3.later).scopes⟩, ?_, ?_, ?_, ?_⟩
    · rw [hl, e2, e1]; rfl
    · intro i y hy hn
      exact st3.vars i y hy (by rw [g2]; exact hn)
    · intro j tb hj htb
      exact st3.frame j tb hj (by rw [f2]; exact htb)
    · show s3.mods = _; rw [st3.mods, e2, e1]; rfl
    · show s3.open_ = _; rw [st3.open_, e2, e1]; rfl
  refine ⟨hi4, hst, fun hlat hf ret hr => ?_⟩
  have hlat3 : Later s3 X.sf := by rw [← h4] at hlat; exact ⟨hlat.syms, hlat.scopes⟩
  obtain ⟨ts, he, hty, hm, hvs⟩ := ht3 hlat3 (fun i x t ps hb hx => hf i x t ps hb (by rw [← g2]; exact hx)) ret
    (fun i hi' => by
      have : s.ana.ctxFunc = some i := by rw [e2, e1] at hi'; exact hi'
      rw [g2]
      exact hr i this)
  refine ⟨ts, Γ3, ?_, hty, hm, hvs⟩
  simp only [toB]
  exact C.bind_ok.mpr ⟨_, _, he, rfl⟩

theorem innerScope_ok {k : ScopeId} (h : innerScope s = .ok (k, s')) :
    k = s.scopes.length ∧ s' = { s with scopes := s.scopes ++ [⟨[], some s.ana.ctxScope⟩] } := by
  unfold innerScope at h
  simp only [C.bind_ok, C.get_ok, newScope_ok] at h
  obtain ⟨_, _, ⟨rfl, rfl⟩, h⟩ := h
  exact h

/-- A new scope changes no other. -/
theorem push_quiet (s : CState) (p : Option ScopeId) : Quiet s { s with scopes := s.scopes ++ [⟨[], p⟩] } := by
  refine ⟨s.scopes.length, Nat.le_refl _, ⟨s.ana.line, rfl⟩, ⟨fun i x hx => ⟨x, hx, rfl, rfl, rfl⟩, fun k tab ht => ⟨tab, ?_, rfl, fun _ _ h => h, fun _ h => .inl h⟩⟩,
    (fun i y hy hn => by rw [show s.syms[i]? = some y from hy] at hn; cases hn), fun j tab _ ht => ?_, rfl, rfl⟩
  · exact (List.getElem?_append_left (List.getElem?_eq_some_iff.mp ht).1).trans ht
  · exact (List.getElem?_append_left (List.getElem?_eq_some_iff.mp ht).1).trans ht

/-- Variables there are already are not declared in a new scope. -/
theorem apart_of (hL : X.Lang L) {k m : Nat} {tab : ScopeTab} (ht : s.scopes[k]? = some tab) (hl : Later s X.sf)
    (hid : ∀ j ∈ ScopeTab.ids tab, m ≤ j) (hm : m ≤ s.syms.length) (hΓ : ∀ i ∈ Γ, i < m) : Apart L k Γ := by
  obtain ⟨tab', ht', -, -, h⟩ := hl.scopes k tab ht
  intro i hi hc
  rw [hL] at hc
  unfold SymEnv.ids at hc
  rw [show (X.sf.scopes)[k]? = some tab' from ht'] at hc
  have hlt := hΓ i hi
  rcases h i hc with h | h
  · exact absurd (hid i h) (Nat.not_le_of_lt hlt)
  · exact absurd (Nat.le_trans hm h) (Nat.not_le_of_lt hlt)

/-- A block stands where it was made. -/
theorem within_of (hL : X.Lang L) {k p : Nat} {tab : ScopeTab} (ht : s.scopes[k]? = some tab) (hp : tab.parent = some p)
    (hl : Later s X.sf) : Within L k (some p) := by
  obtain ⟨tab', ht', e, -⟩ := hl.scopes k tab ht
  unfold Within
  rw [hL, show (X.sf.scopes)[k]? = some tab' from ht', Option.bind_some, e, hp]

/-- A variable belongs in the scope it was defined in. -/
theorem declared_of (hL : X.Lang L) {k i : Nat} {n : String} (hlk : lookIn s.scopes k n = some i) (hl : Later s X.sf) :
    Declared L (some k) i := by
  refine ⟨k, rfl, ?_⟩
  have h := hl.look hlk
  rw [hL]
  unfold SymEnv.ids
  unfold lookIn at h
  cases ht : X.sf.scopes[k]? with
  | none => rw [ht] at h; cases h
  | some tab =>
      rw [ht] at h
      obtain ⟨p, hp, rfl⟩ := Option.map_eq_some_iff.mp (show (tab.symbols.find? _).map _ = some i from h)
      exact List.mem_map.mpr ⟨p, List.mem_of_find?_eq_some hp, rfl⟩

/-- Blocks with a new scope. -/
theorem newBlock_ok {m : Mode} {sts : List Stmt} (hL : X.Lang L) (hg : ∀ st ∈ sts, GoodS F X L st) (hk : okSs X.K m sts = true) {b : ABlock}
    (hi : Inv X s) (hv : Vis X s s.ana.ctxScope Γ) (h : newBlock (visitSs X.cfg X.mod sts) s = .ok (b, s')) :
    Inv X s' ∧ Quiet s s' ∧ X.sb ≤ s.scopes.length ∧ s.scopes.length < s'.scopes.length ∧
    (Later s' X.sf → Fns X s Γ → ∀ ret, RetOk X s ret →
      ∃ body Γ', toB X.mod X.g true b X.sf = .ok (.mk s.scopes.length body, X.sf) ∧
        TSs F L X.table ret m Γ (some s.scopes.length) body Γ' ∧ mustReturns body = returnsSs sts ∧ Apart L s.scopes.length Γ ∧
        Within L s.scopes.length (some s.ana.ctxScope)) := by
  simp only [newBlock, C.bind_ok] at h
  obtain ⟨k, s1, h1, h2⟩ := h
  obtain ⟨rfl, rfl⟩ := innerScope_ok h1
  have hq := push_quiet s (some s.ana.ctxScope)
  have hi1 := hi.push hi.ctx hi.ctxLt
  have htab : (s.scopes ++ [(⟨[], some s.ana.ctxScope⟩ : ScopeTab)])[s.scopes.length]? = some ⟨[], some s.ana.ctxScope⟩ := by simp
  have hv1 : Vis X { s with scopes := s.scopes ++ [⟨[], some s.ana.ctxScope⟩] } s.scopes.length Γ := by
    refine ⟨?_, hv.old⟩
    intro n i x t hs hx hb hbi
    cases hs with
    | here ht hl => rw [htab] at ht; cases ht; simp [look] at hl
    | up ht _ hp hs =>
        rw [htab] at ht
        cases ht
        cases hp
        exact (hv.quiet hi hi.ctx hi.ctxLt hq).see n i x t hs hx hb hbi
  obtain ⟨hi2, st2, ht2⟩ := block_ok hg hk hi1 hi.sbase ⟨_, htab, rfl⟩ hv1 h2
  have hq2 : Quiet s s' := ⟨s.scopes.length, Nat.le_refl _, (hq.step _).trans st2⟩
  refine ⟨hi2, hq2, hi.sbase, ?_, fun hl hf ret hr => ?_⟩
  · have := st2.later.scopesLen
    simp at this
    omega
  · obtain ⟨body, Γ', h1, h2, h3, -⟩ := ht2 hl hf ret hr
    exact ⟨body, Γ', h1, h2, h3, apart_of hL htab (st2.later.trans hl) (fun _ h => by simp [ScopeTab.ids] at h) (Nat.le_refl _) hv.old,
      within_of hL htab rfl (st2.later.trans hl)⟩

/-- Expressions at the place of a statement. -/
theorem expr_ok [LawfulFloatOps F] [ReadsNumerals F] (hN : X.Names) (hL : X.Lang L) {w : Use} {e : Expr} {par : Par} {a : AExpr}
    (hk : okE X.K w e = true) (hi : Inv X s) (hv : Vis X s s.ana.ctxScope Γ) (h : visitE X.cfg X.mod par e s = .ok (a, s')) :
    Inv X s' ∧ Quiet s s' ∧ exprTy X.K.reals a.ty = true ∧ Vis X s' s.ana.ctxScope Γ ∧ (Later s X.sf → Fns X s Γ → EHas F X L w Γ e a) := by
  obtain ⟨⟨l, rfl⟩, hty⟩ := visitE_line F hN hi hk h
  exact ⟨hi.line l, .line s l, hty, ⟨hv.see, hv.old⟩, fun hl hf =>
    (goodE hN hL e hk (fun n hn => by cases hn) (sit_of hi hl hv hf) h).2⟩

theorem here_reach (hN : X.Names) (hL : X.Lang L) (hf : Inv X X.sf) (hi : Inv X s) (hl : Later s X.sf) :
    Reach X L (some s.ana.ctxScope) :=
  reach_of hN hL hf hi.ctx (Nat.lt_of_lt_of_le hi.ctxLt hl.scopesLen)

variable [LawfulFloatOps F] [ReadsNumerals F]

theorem good_expr (hN : X.Names) (hL : X.Lang L) (hf : Inv X X.sf) (e : Expr) : GoodS F X L (.expr e) := by
  intro m Γ a s s' hk hi hv h
  simp only [okS, Bool.and_eq_true, Bool.or_eq_true, Bool.not_eq_true'] at hk
  simp only [visitS, C.bind_ok, C.pure_ok] at h
  obtain ⟨x, s1, h1, rfl, rfl⟩ := h
  obtain ⟨hi1, hq, hty, _, he⟩ := expr_ok (F := F) hN hL hk.1 hi hv h1
  refine .quiet hi hv hi1 hq fun hl hfn ret _ => ?_
  have hl' := hq.later.trans hl
  obtain ⟨y, hy, ty⟩ := (he hl' hfn).self Γ _ (fun _ h => h) (here_reach hN hL hf hi hl')
  refine ⟨.expr y, ?_, .expr ty (fun hm => ?_), (by simp [mustReturn, returnsS]), rfl, rfl⟩
  rotate_left
  · exact (he hl' hfn).chg (hk.2.resolve_left (by simp [hm])) _ _ hy
  simp only [toS]
  exact C.bind_ok.mpr ⟨_, _, hy, rfl⟩

theorem good_mostra (hN : X.Names) (hL : X.Lang L) (hf : Inv X X.sf) (tok : Token) (e : Expr) : GoodS F X L (.mostra tok e) := by
  intro m Γ a s s' hk hi hv h
  simp only [okS] at hk
  simp only [visitS, C.bind_ok, C.pure_ok, C.at_ok] at h
  obtain ⟨_, s0, rfl, x, s1, h1, rfl, rfl⟩ := h
  obtain ⟨hi1, hq, hty, _, he⟩ := expr_ok (F := F) hN hL hk (hi.line tok.line) ⟨hv.see, hv.old⟩ h1
  refine .quiet hi hv hi1 ((Quiet.line s _).trans hq) fun hl hfn ret _ => ?_
  have hl' := hq.later.trans hl
  obtain ⟨y, hy, ty⟩ := (he hl' hfn).self Γ _ (fun _ h => h) (here_reach hN hL hf (hi.line tok.line) hl')
  refine ⟨.mostra tok.line y, ?_, .mostra ty, (by simp [mustReturn, returnsS]), rfl, rfl⟩
  simp only [toS]
  exact C.bind_ok.mpr ⟨_, _, hy, rfl⟩

omit [LawfulFloatOps F] [ReadsNumerals F] in
theorem good_loopCtl (tok : Token) : GoodS F X L (.loopCtl tok) := by
  intro m Γ a s s' hk hi hv h
  simp only [visitS, C.bind_ok, C.at_ok, C.get_ok] at h
  obtain ⟨_, s0, rfl, x, s1, ⟨rfl, rfl⟩, h⟩ := h
  split at h
  · rename_i hin
    rw [C.pure_ok] at h
    obtain ⟨rfl, rfl⟩ := h
    refine .quiet hi hv (hi.line _) (Quiet.line s _) fun hl hfn ret _ => ?_
    have : m.loop = true := by simpa [okS] using hk
    exact ⟨.loopCtl tok.line (tok.tt == .quebra), rfl, .loopCtl this, (by simp [mustReturn, returnsS]), rfl, rfl⟩
  · simp only [C.error_ok] at h

omit [FloatOps F] [LawfulFloatOps F] [ReadsNumerals F] in
theorem retornaTy_ok {tok : Token} {given : Bool} {t : CTy} (hi : Inv X s) (h : retornaTy tok given s = .ok (t, s')) :
    s' = s ∧ ∃ i x, s.ana.ctxFunc = some i ∧ s.syms[i]? = some x ∧ x.ty? = some t ∧
      (toTy s.syms t).eqv .vazio = !given := by
  unfold retornaTy at h
  rw [C.bind_ok] at h
  obtain ⟨_, s1, h1, h⟩ := h
  rw [C.get_ok] at h1
  obtain ⟨e0, e1⟩ := h1
  have := e0.symm; subst this
  have := e1.symm; subst this
  cases hc : s.ana.ctxFunc with
  | none => rw [hc] at h; simp [C.bind_ok, C.error_ok] at h
  | some i =>
      rw [hc] at h
      simp only [C.bind_ok] at h
      obtain ⟨x, s2, h2, h⟩ := h
      rw [symOf_ok] at h2
      obtain ⟨hx, e2⟩ := h2
      have := e2.symm; subst this
      cases hty : x.ty? with
      | none => rw [hty] at h; simp only [C.raise_ok] at h
      | some u =>
          rw [hty] at h
          simp only [C.bind_ok] at h
          obtain ⟨v, s3, h3, h⟩ := h
          rw [sameTy_ok] at h3
          obtain ⟨hv, e3⟩ := h3
          have := e3.symm; subst this
          have hyi := hi.yield
          split at h
          · simp only [C.error_ok] at h
          · rename_i hng
            split at h
            · simp only [C.error_ok] at h
            · rename_i hng2
              simp only [C.bind_ok, C.modify_ok, C.pure_ok] at h
              obtain ⟨_, _, rfl, rfl, rfl⟩ := h
              refine ⟨?_, i, x, rfl, hx, hty, ?_⟩
              · have : Option.map (fun y : YieldCtx => { y with hasReturn := true }) s.ana.yield = s.ana.yield := by
                  rw [hyi]; rfl
                rw [this]
              · show (toTy s.syms t).eqv (toTy s.syms (.prim .vazio)) = _
                rw [← hv]
                cases v <;> cases given <;> simp_all

omit [LawfulFloatOps F] [ReadsNumerals F] in
theorem good_retornaVazio (tok : Token) : GoodS F X L (.retorna tok none) := by
  intro m Γ a s s' hk hi hv h
  simp only [visitS, C.bind_ok, C.at_ok, C.pure_ok] at h
  obtain ⟨_, s0, rfl, t, s1, h1, rfl, rfl⟩ := h
  obtain ⟨rfl, i, x, hc, hx, hty, hev⟩ := retornaTy_ok (hi.line tok.line) h1
  refine .quiet hi hv (hi.line _) (Quiet.line s _) fun hl hfn ret hr => ?_
  obtain ⟨y, u, ps, hy, hb, hu, rfl⟩ := hr i hc
  rw [show s.syms[i]? = some x from hx] at hy
  cases hy
  have : t = u := by
    unfold CSym.ty? at hty
    rw [hb] at hty
    exact (Option.some.inj hty).symm
  subst this
  rw [toTy_expr _ hu] at hev
  have hv' : t = .prim .vazio := by
    rcases expr_cases hu with hd | he
    · exact toTy_inj hd (u := .prim .vazio) (by simp [exprTy]) hev
    · exact he
  subst hv'
  exact ⟨.retorna tok.line none, rfl, .retornaVazio, (by simp [mustReturn, returnsS]), rfl, rfl⟩

theorem good_retorna (hN : X.Names) (hL : X.Lang L) (hf : Inv X X.sf) (tok : Token) (e : Expr) :
    GoodS F X L (.retorna tok (some e)) := by
  intro m Γ a s s' hk hi hv h
  simp only [okS, Bool.and_eq_true] at hk
  simp only [visitS, C.bind_ok, C.at_ok] at h
  obtain ⟨_, s0, rfl, t, s1, h1, x, s2, h2, p, s3, h3, c, s4, h4, h5⟩ := h
  obtain ⟨rfl, i, z, hc, hz, hty, hev⟩ := retornaTy_ok (hi.line tok.line) h1
  obtain ⟨hi2, hq, hxt, _, he⟩ := expr_ok (F := F) hN hL hk.1 (hi.line tok.line) ⟨hv.see, hv.old⟩ h2
  obtain ⟨⟨q, hq', rfl⟩, rfl⟩ := promTy_ok h3
  obtain ⟨hm, rfl⟩ := matchTy_ok h4
  split at h5
  · rename_i hc'
    subst hc'
    rw [C.pure_ok] at h5
    obtain ⟨rfl, rfl⟩ := h5
    refine .quiet hi hv hi2 ((Quiet.line s _).trans hq) fun hl hfn ret hr => ?_
    have hl' := hq.later.trans hl
    obtain ⟨y, u, ps, hy, hb, hu, rfl⟩ := hr i hc
    rw [show s.syms[i]? = some z from hz] at hy
    cases hy
    have : t = u := by
      unfold CSym.ty? at hty
      rw [hb] at hty
      exact (Option.some.inj hty).symm
    subst this
    have hd : dataTy X.K.reals t = true := by
      rcases expr_cases hu with hd | rfl
      · exact hd
      · simp [toTy, Ty.eqv, Ty.eqD] at hev
    rw [toTy_expr _ hxt, toTy_data _ hd] at hq' hm
    obtain ⟨y, hy, ty⟩ := (he hl' hfn).target hk.2 hd hm hq' Γ _ (fun _ h => h) (here_reach hN hL hf (hi.line tok.line) hl')
    refine ⟨.retorna tok.line (some y), ?_, .retorna ty, (by simp [mustReturn, returnsS]), rfl, rfl⟩
    simp only [toS]
    exact C.bind_ok.mpr ⟨_, _, hy, rfl⟩
  · simp only [C.error_ok] at h5

omit [LawfulFloatOps F] [ReadsNumerals F] in
/-- Conditions. -/
theorem cond_has (hN : X.Names) (hL : X.Lang L) (hf : Inv X X.sf) {e : Expr} {a : AExpr} (h : EHas F X L .value Γ e a)
    (ht : a.ty = .prim .bool) {k : Nat} (hk : k = X.g ∨ X.sb ≤ k) (hlt : k < X.sf.scopes.length) :
    ∃ y, toE X.mod X.g true a X.sf = .ok ((y, a.ty), X.sf) ∧ TE F L X.table .value Γ (some k) y .bool := by
  obtain ⟨y, hy, ty⟩ := h.self Γ (some k) (fun _ h => h) (reach_of hN hL hf hk hlt)
  rw [ht] at ty
  exact ⟨y, hy, ty⟩

/-- The branches of `se` after the first. -/
theorem elses_ok (hN : X.Names) (hL : X.Lang L) (hf : Inv X X.sf) :
    ∀ (es : List ElseIf) (_ : ∀ tok c b, ElseIf.mk tok c b ∈ es → ∀ st ∈ b, GoodS F X L st) {m : Mode} {Γ : List SymId} {as : List AElse} {s s' : CState},
      okElses X.K m es = true → Inv X s → Vis X s s.ana.ctxScope Γ → visitElses X.cfg X.mod es s = .ok (as, s') →
      Inv X s' ∧ Quiet s s' ∧
      (Later s' X.sf → Fns X s Γ → ∀ ret, RetOk X s ret →
        ∃ ts, toElses X.mod X.g true as X.sf = .ok (ts, X.sf) ∧
          (∀ d, TElses F L X.table ret m Γ (some s.ana.ctxScope) [] d → TElses F L X.table ret m Γ (some s.ana.ctxScope) ts d) ∧
          mustReturnElses ts = returnsElses es)
  | [], _, m, Γ, as, s, s', _, hi, hv, h => by
      simp only [visitElses, C.pure_ok] at h
      obtain ⟨rfl, rfl⟩ := h
      exact ⟨hi, .refl _, fun _ _ ret _ => ⟨[], rfl, fun d hd => hd, by simp [mustReturnElses, returnsElses]⟩⟩
  | .mk tok c b :: rest, hg, m, Γ, as, s, s', hk, hi, hv, h => by
      simp only [okElses, Bool.and_eq_true] at hk
      simp only [visitElses, C.bind_ok, C.at_ok] at h
      obtain ⟨_, s0, rfl, x, s1, h1, v, s2, h2, h3⟩ := h
      obtain ⟨hi1, hq1, hty, hv1, he⟩ := expr_ok (F := F) hN hL hk.1.1 (hi.line tok.line) ⟨hv.see, hv.old⟩ h1
      obtain ⟨rfl, hbool⟩ := same_bool (X := X) hty h2
      split at h3
      · rename_i hc
        have hxb := hbool hc
        simp only [C.bind_ok, C.pure_ok] at h3
        obtain ⟨bl, s3, h4, es', s4, h5, rfl, rfl⟩ := h3
        rw [← hq1.ctx] at hv1
        obtain ⟨hi3, hq3, hsb, hlt3, ht3⟩ := newBlock_ok hL (hg tok c b (by simp)) hk.1.2 hi1 hv1 h4
        have hv3 := hv1.quiet hi1 hi1.ctx hi1.ctxLt hq3
        rw [← hq3.ctx] at hv3
        obtain ⟨hi4, hq4, ht4⟩ := elses_ok hN hL hf rest (fun t c b hm => hg t c b (by simp [hm])) hk.2 hi3 hv3 h5
        have hq02 := (Quiet.line s tok.line).trans hq1
        have hq03 := hq02.trans hq3
        refine ⟨hi4, hq03.trans hq4, fun hl hfn ret hr => ?_⟩
        have hl3 := hq4.later.trans hl
        have hl1 := hq3.later.trans hl3
        have hl0 := hq1.later.trans hl1
        obtain ⟨y, hy, ty⟩ := cond_has hN hL hf (he hl0 hfn) hxb hi.ctx (Nat.lt_of_lt_of_le hi.ctxLt hl0.scopesLen)
        obtain ⟨body, Γ3, hb, tb, mb, hap, hwi⟩ := ht3 hl3 (hfn.step (hq02.step 0) fun _ h => h) ret (hr.step (hq02.step 0))
        obtain ⟨ts, hts, tts, mts⟩ := ht4 hl (hfn.step (hq03.step 0) fun _ h => h) ret (hr.step (hq03.step 0))
        rw [hq03.ctx] at tts
        refine ⟨.mk y (.mk _ body) :: ts, ?_, fun d hd => .cons ty hap (hq02.ctx ▸ hwi) tb (tts d hd), by simp [mustReturnElses, returnsElses, mb, mts]⟩
        simp only [toElses]
        exact C.bind_ok.mpr ⟨_, _, hy, C.bind_ok.mpr ⟨_, _, hb, C.bind_ok.mpr ⟨_, _, hts, rfl⟩⟩⟩
      · simp only [C.error_ok] at h3

theorem good_se (hN : X.Names) (hL : X.Lang L) (hf : Inv X X.sf) (tok : Token) (c : Expr) (b : List Stmt) (es : List ElseIf)
    (hb : ∀ st ∈ b, GoodS F X L st) (hes : ∀ tok c b, ElseIf.mk tok c b ∈ es → ∀ st ∈ b, GoodS F X L st) :
    GoodS F X L (.se tok c b es none) := by
  intro m Γ a s s' hk hi hv h
  simp only [okS, Bool.and_eq_true] at hk
  simp only [visitS, C.bind_ok, C.at_ok, C.pure_ok] at h
  obtain ⟨_, s0, rfl, x, s1, h1, _, s2, h2, bl, s3, h3, as, s4, h4, rfl, rfl⟩ := h
  obtain ⟨hi1, hq1, hty, hv1, he⟩ := expr_ok (F := F) hN hL hk.1.1 (hi.line tok.line) ⟨hv.see, hv.old⟩ h1
  obtain ⟨hxb, rfl⟩ := condTag_ok h2
  rw [← hq1.ctx] at hv1
  obtain ⟨hi3, hq3, hsb, hlt3, ht3⟩ := newBlock_ok hL hb hk.1.2 hi1 hv1 h3
  have hv3 := hv1.quiet hi1 hi1.ctx hi1.ctxLt hq3
  rw [← hq3.ctx] at hv3
  obtain ⟨hi4, hq4, ht4⟩ := elses_ok hN hL hf es hes hk.2 hi3 hv3 h4
  have hq02 := (Quiet.line s tok.line).trans hq1
  have hq03 := hq02.trans hq3
  refine .quiet hi hv hi4 (hq03.trans hq4) fun hl hfn ret hr => ?_
  have hl3 := hq4.later.trans hl
  have hl1 := hq3.later.trans hl3
  have hl0 := hq1.later.trans hl1
  obtain ⟨y, hy, ty⟩ := cond_has hN hL hf (he hl0 hfn) hxb hi.ctx (Nat.lt_of_lt_of_le hi.ctxLt hl0.scopesLen)
  obtain ⟨body, Γ3, hb, tb, mb, hap, hwi⟩ := ht3 hl3 (hfn.step (hq02.step 0) fun _ h => h) ret (hr.step (hq02.step 0))
  obtain ⟨ts, hts, tts, mts⟩ := ht4 hl (hfn.step (hq03.step 0) fun _ h => h) ret (hr.step (hq03.step 0))
  rw [hq03.ctx] at tts
  refine ⟨.se tok.line y (.mk _ body) ts none, ?_, .se ty hap (hq02.ctx ▸ hwi) tb (tts none .nil), (by simp [mustReturn, returnsS]), rfl, rfl⟩
  simp only [toS]
  exact C.bind_ok.mpr ⟨_, _, hy, C.bind_ok.mpr ⟨_, _, hb, C.bind_ok.mpr ⟨_, _, hts, rfl⟩⟩⟩

theorem good_seSenao (hN : X.Names) (hL : X.Lang L) (hf : Inv X X.sf) (tok : Token) (c : Expr) (b : List Stmt) (es : List ElseIf)
    (d : List Stmt) (hb : ∀ st ∈ b, GoodS F X L st) (hes : ∀ tok c b, ElseIf.mk tok c b ∈ es → ∀ st ∈ b, GoodS F X L st)
    (hd : ∀ st ∈ d, GoodS F X L st) : GoodS F X L (.se tok c b es (some d)) := by
  intro m Γ a s s' hk hi hv h
  simp only [okS, Bool.and_eq_true] at hk
  simp only [visitS, C.bind_ok, C.at_ok, C.pure_ok] at h
  obtain ⟨_, s0, rfl, x, s1, h1, _, s2, h2, bl, s3, h3, as, s4, h4, dl, s5, h5, rfl, rfl⟩ := h
  obtain ⟨hi1, hq1, hty, hv1, he⟩ := expr_ok (F := F) hN hL hk.1.1.1 (hi.line tok.line) ⟨hv.see, hv.old⟩ h1
  obtain ⟨hxb, rfl⟩ := condTag_ok h2
  rw [← hq1.ctx] at hv1
  obtain ⟨hi3, hq3, hsb, hlt3, ht3⟩ := newBlock_ok hL hb hk.1.1.2 hi1 hv1 h3
  have hv3 := hv1.quiet hi1 hi1.ctx hi1.ctxLt hq3
  rw [← hq3.ctx] at hv3
  obtain ⟨hi4, hq4, ht4⟩ := elses_ok hN hL hf es hes hk.1.2 hi3 hv3 h4
  have hv4 := hv3.quiet hi3 hi3.ctx hi3.ctxLt hq4
  rw [← hq4.ctx] at hv4
  obtain ⟨hi5, hq5, _, _, ht5⟩ := newBlock_ok hL hd hk.2 hi4 hv4 h5
  have hq02 := (Quiet.line s tok.line).trans hq1
  have hq03 := hq02.trans hq3
  have hq04 := hq03.trans hq4
  refine .quiet hi hv hi5 (hq04.trans hq5) fun hl hfn ret hr => ?_
  have hl4 := hq5.later.trans hl
  have hl3 := hq4.later.trans hl4
  have hl1 := hq3.later.trans hl3
  have hl0 := hq1.later.trans hl1
  obtain ⟨y, hy, ty⟩ := cond_has hN hL hf (he hl0 hfn) hxb hi.ctx (Nat.lt_of_lt_of_le hi.ctxLt hl0.scopesLen)
  obtain ⟨body, Γ3, hb, tb, mb, hap, hwi⟩ := ht3 hl3 (hfn.step (hq02.step 0) fun _ h => h) ret (hr.step (hq02.step 0))
  obtain ⟨ts, hts, tts, mts⟩ := ht4 hl4 (hfn.step (hq03.step 0) fun _ h => h) ret (hr.step (hq03.step 0))
  obtain ⟨last, Γ5, hld, td, md, hap', hwi'⟩ := ht5 hl (hfn.step (hq04.step 0) fun _ h => h) ret (hr.step (hq04.step 0))
  rw [hq03.ctx] at tts
  refine ⟨.se tok.line y (.mk _ body) ts (some (.mk _ last)), ?_, .se ty hap (hq02.ctx ▸ hwi) tb (tts _ (.senao hap' (hq04.ctx ▸ hwi') td)), (by
    simp [mustReturn, returnsS, mb, mts, md]), rfl, rfl⟩
  simp only [toS]
  exact C.bind_ok.mpr ⟨_, _, hy, C.bind_ok.mpr ⟨_, _, hb, C.bind_ok.mpr ⟨_, _, hts, C.bind_ok.mpr ⟨_, _, hld, rfl⟩⟩⟩⟩

theorem good_enquanto (hN : X.Names) (hL : X.Lang L) (hf : Inv X X.sf) (tok : Token) (c : Expr) (b : List Stmt)
    (hb : ∀ st ∈ b, GoodS F X L st) : GoodS F X L (.enquanto tok c b) := by
  intro m Γ a s s' hk hi hv h
  simp only [okS, Bool.and_eq_true] at hk
  simp only [visitS, C.bind_ok, C.at_ok, C.pure_ok, C.get_ok, C.modify_ok] at h
  obtain ⟨_, s0, rfl, x, s1, h1, _, s2, h2, sv, sg, ⟨eg, eg'⟩, _, s3, rfl, bl, s4, h4, _, s5, rfl, rfl, rfl⟩ := h
  obtain rfl := eg.symm
  obtain rfl := eg'.symm
  obtain ⟨hi1, hq1, hty, hv1, he⟩ := expr_ok (F := F) hN hL hk.1 (hi.line tok.line) ⟨hv.see, hv.old⟩ h1
  obtain ⟨hxb, e2⟩ := condTag_ok h2
  subst e2
  rw [← hq1.ctx] at hv1
  have hi2 : Inv X { s2 with ana := { s2.ana with inLoop := true } } := hi1.move rfl rfl rfl hi1.ctx hi1.ctxLt hi1.top hi1.deep
  obtain ⟨hi4, hq4, hsb, hlt4, ht4⟩ := newBlock_ok (Γ := Γ) hL hb hk.2 hi2 ⟨hv1.see, hv1.old⟩ h4
  have hq02 := (Quiet.line s tok.line).trans hq1
  have hq5 : Quiet s2 { s4 with ana := { s4.ana with inLoop := s2.ana.inLoop } } := by
    obtain ⟨k, hk, hst⟩ := hq4
    obtain ⟨l, hl⟩ := hst.ana
    refine ⟨k, hk, ⟨l, ?_⟩, ⟨hst.later.syms, hst.later.scopes⟩, hst.vars, hst.frame, hst.mods, hst.open_⟩
    show ({ s4.ana with inLoop := s2.ana.inLoop } : Ana) = _
    rw [hl]
  refine .quiet hi hv (hi4.move rfl rfl rfl hi4.ctx hi4.ctxLt hi4.top hi4.deep) (hq02.trans hq5) fun hl hfn ret hr => ?_
  have hl4 : Later s4 X.sf := ⟨hl.syms, hl.scopes⟩
  have hl1 : Later s2 X.sf := hq5.later.trans hl
  have hl0 := hq1.later.trans hl1
  obtain ⟨y, hy, ty⟩ := cond_has hN hL hf (he hl0 hfn) hxb (.inr hsb) (Nat.lt_of_lt_of_le hlt4 hl4.scopesLen)
  obtain ⟨body, Γ3, hb, tb, mb, hap, hwi⟩ := ht4 hl4
    (fun i x t ps hb hx hy => hfn.step (hq02.step 0) (fun _ h => h) i x t ps hb hx hy) ret
    (fun i h => hr.step (hq02.step 0) i h)
  refine ⟨.enquanto tok.line y (.mk _ body), ?_, .enquanto ty hap (hq02.ctx ▸ hwi) tb, (by simp [mustReturn, returnsS]), rfl, rfl⟩
  simp only [toS]
  exact C.bind_ok.mpr ⟨_, _, hy, C.bind_ok.mpr ⟨_, _, hb, rfl⟩⟩

end

/-! ## New variables -/

/-- The state with a new variable. -/
def withVar (s : CState) (k : Nat) (v : CSym) : CState :=
  { s with syms := s.syms ++ [v], scopes := bindIn s.scopes k v.name s.syms.length }

section
variable {X : World} {s s' : CState} {Γ : List SymId} {k : Nat} {v : CSym} {t : CTy}

theorem append_last (l : List CSym) (v : CSym) : (l ++ [v])[l.length]? = some v := by simp

theorem append_cases {l : List CSym} {v x : CSym} {i : Nat} (hx : (l ++ [v])[i]? = some x) :
    l[i]? = some x ∨ (i = l.length ∧ x = v) := by
  by_cases hi : i < l.length
  · rw [List.getElem?_append_left hi] at hx; exact .inl hx
  · have hle := Nat.le_of_not_lt hi
    rw [List.getElem?_append_right hle] at hx
    right
    cases hd : i - l.length with
    | zero => rw [hd] at hx; exact ⟨by omega, by simpa using hx.symm⟩
    | succ m => rw [hd] at hx; simp at hx

theorem append_old {l : List CSym} {v x : CSym} {i : Nat} (hx : l[i]? = some x) : (l ++ [v])[i]? = some x := by
  rw [List.getElem?_append_left (List.getElem?_eq_some_iff.mp hx).1]; exact hx

theorem append_set (l : List CSym) (v w : CSym) : (l ++ [v]).set l.length w = l ++ [w] := by simp

/-- What a name made where one is satisfies. -/
theorem Inv.named {o : String} (hi : Inv X s) (ho : 1 ≤ s.ana.depth → o = innerName s.ana.depth (tabLen s.scopes s.ana.ctxScope)) :
    s.ana.ctxScope ≠ X.g → ∃ d, X.sb ≤ s.ana.ctxScope ∧ Deep s.scopes s.ana.ctxScope d ∧ o = innerName d (tabLen s.scopes s.ana.ctxScope) := fun h =>
  ⟨_, hi.ctx.resolve_left h, hi.deep, ho (Nat.pos_of_ne_zero fun e => h (hi.top.mp e))⟩

theorem withVar_inv (hi : Inv X s) (hm : v.modPath = X.mod) (hbu : v.builtin = false) (hb : v.body = .var t)
    (ht : dataTy X.K.reals t = true) (hn : v.name ∈ X.K.vars) (hfree : lookIn s.scopes k v.name = none)
    (hlt : k < s.scopes.length) (hg : v.isGlobal = true → k = X.g)
    (ho : k ≠ X.g → ∃ d, X.sb ≤ k ∧ Deep s.scopes k d ∧ v.outId = innerName d (tabLen s.scopes k)) : Inv X (withVar s k v) := by
  have h1 := hi.addVar { v with isGlobal := false } hm hbu hb ht hn rfl
  have hx : (s.syms ++ [{ v with isGlobal := false }])[s.syms.length]? = some { v with isGlobal := false } := append_last _ _
  have h2 := h1.bind (k := k) hi.base hx (fun _ => hn) hfree (fun k' tab ht hm => absurd (hi.bound k' tab _ ht hm) (Nat.lt_irrefl _)) ho
  have h3 := h2.setSym (y := v) hi.base hx rfl rfl rfl rfl (by
    by_cases hgl : v.isGlobal = true
    · refine .inr ⟨hgl, ?_⟩
      show lookIn (bindIn s.scopes k v.name s.syms.length) X.g v.name = _
      rw [bindIn_look, if_pos ⟨(hg hgl).symm, rfl, hlt⟩]
    · exact .inl (by simpa using hgl)) (.inl rfl)
  have he := append_set s.syms { v with isGlobal := false } v
  unfold withVar
  rw [← he]
  exact h3

theorem withVar_later (hfree : lookIn s.scopes k v.name = none) : Later s (withVar s k v) := by
  constructor
  · intro i x hx
    exact ⟨x, append_old hx, rfl, rfl, rfl⟩
  · intro j tab ht
    show ∃ tab', (bindIn s.scopes k v.name s.syms.length)[j]? = _ ∧ _
    rw [bindIn_get]
    by_cases hj : j = k
    · subst hj
      rw [if_pos rfl, ht]
      refine ⟨_, rfl, rfl, fun n i hl => ?_, fun i => assign_ids⟩
      unfold lookIn at hfree
      rw [ht] at hfree
      have hne : n ≠ v.name := by
        rintro rfl
        rw [show look tab v.name = none from hfree] at hl
        cases hl
      unfold look at hl ⊢
      simp only
      rw [find_assign, if_neg hne]
      exact hl
    · rw [if_neg hj]
      exact ⟨tab, ht, rfl, fun _ _ h => h, fun _ h => .inl h⟩

theorem withVar_step (hb : v.body = .var t) (hfree : lookIn s.scopes k v.name = none) : Step k s (withVar s k v) := by
  refine ⟨⟨s.ana.line, rfl⟩, withVar_later hfree, fun i y hy hn => ?_, fun j tab hj ht => ?_, rfl, rfl⟩
  · rcases append_cases hy with hy | ⟨_, rfl⟩
    · rw [hn] at hy; cases hy
    · exact ⟨t, hb⟩
  · show (bindIn s.scopes k v.name s.syms.length)[j]? = _
    rw [bindIn_get, if_neg hj]
    exact ht

theorem withVar_look (hlt : k < s.scopes.length) : lookIn (withVar s k v).scopes k v.name = some s.syms.length := by
  show lookIn (bindIn s.scopes k v.name s.syms.length) k v.name = _
  rw [bindIn_look, if_pos ⟨rfl, rfl, hlt⟩]

theorem seen_of_look {scopes : List ScopeTab} {n : String} {i : Nat} (h : lookIn scopes k n = some i) : Seen scopes n k i := by
  unfold lookIn at h
  cases ht : scopes[k]? with
  | none => rw [ht] at h; cases h
  | some tab => rw [ht] at h; exact .here ht h

/-- What is seen after a definition. -/
theorem withVar_seen (hi : Inv X s) (hlt : k < s.scopes.length) {n : String} {j : Nat} (h : Seen (withVar s k v).scopes n k j) :
    (n = v.name ∧ j = s.syms.length) ∨ (n ≠ v.name ∧ Seen s.scopes n k j) := by
  by_cases hn : n = v.name
  · subst hn
    exact .inl ⟨rfl, h.unique (seen_of_look (withVar_look hlt))⟩
  · refine .inr ⟨hn, ?_⟩
    have hl := bindIn_look s.scopes k v.name s.syms.length k n
    rw [if_neg (by simp [hn])] at hl
    cases h with
    | @here _ tab _ ht hlk =>
        refine seen_of_look (hl.symm.trans ?_)
        unfold lookIn
        rw [show (bindIn s.scopes k v.name s.syms.length)[k]? = some tab from ht]
        exact hlk
    | @up _ tab p _ ht hlk hp hs =>
        obtain ⟨tab', ht', hp'⟩ := bindIn_parent ht
        have hpk := hi.wf k tab' p ht' (hp'.trans hp)
        refine .up ht' ?_ (hp'.trans hp) (hs.congr hi.wf fun j tb hj htb => ?_)
        · unfold lookIn at hl
          rw [show (bindIn s.scopes k v.name s.syms.length)[k]? = some tab from ht, ht'] at hl
          exact hl.symm.trans hlk
        · have htb' : (bindIn s.scopes k v.name s.syms.length)[j]? = some tb := htb
          have hpk' : p < k := hpk
          rw [bindIn_get, if_neg (by omega)] at htb'
          exact htb'

theorem withVar_vis (hi : Inv X s) (hk : k = X.g ∨ X.sb ≤ k) (hlt : k < s.scopes.length) (hv : Vis X s k Γ) :
    Vis X (withVar s k v) k (s.syms.length :: Γ) ∧
    ∀ n (i : Nat) x t, Seen (withVar s k v).scopes n k i → n ≠ v.name → (withVar s k v).syms[i]? = some x → x.body = .var t →
      X.b ≤ i → i ∈ Γ := by
  have key : ∀ n (i : Nat) x t, Seen (withVar s k v).scopes n k i → n ≠ v.name → (withVar s k v).syms[i]? = some x → x.body = .var t →
      X.b ≤ i → i ∈ Γ := by
    intro n i x t hs hn hx hb hbi
    rcases withVar_seen hi hlt hs with ⟨h, _⟩ | ⟨_, hs'⟩
    · exact absurd h hn
    · obtain ⟨k', hk', hl⟩ := hi.found hk hs'
      obtain ⟨y, hy, _⟩ := hi.new k' n i hk' hl hbi
      have : (s.syms ++ [v])[i]? = some y := append_old hy
      rw [show (s.syms ++ [v])[i]? = some x from hx] at this
      cases this
      exact hv.see n i x t hs' hy hb hbi
  refine ⟨⟨fun n i x t hs hx hb hbi => ?_, fun i hi' => ?_⟩, key⟩
  rotate_left
  · have : (withVar s k v).syms.length = s.syms.length + 1 := by simp [withVar]
    rw [this]
    rcases List.mem_cons.mp hi' with rfl | hi'
    · exact Nat.lt_succ_self _
    · exact Nat.lt_succ_of_lt (hv.old i hi')
  by_cases hn : n = v.name
  · rcases withVar_seen hi hlt hs with ⟨_, rfl⟩ | ⟨h, _⟩
    · simp
    · exact absurd hn h
  · exact List.mem_cons_of_mem _ (key n i x t hs hn hx hb hbi)

theorem withVar_vty (hb : v.body = .var t) (hbase : X.b ≤ s.syms.length) (hl : Agree X (withVar s k v)) :
    X.vty s.syms.length = some (toTy [] t) := by
  obtain ⟨y, hy, e, _⟩ := hl.syms s.syms.length v (append_last _ _)
  unfold World.vty
  rw [if_pos hbase, hy]
  simp only [Option.map_some, e, hb]

theorem push_vis (hi : Inv X s) (hv : Vis X s s.ana.ctxScope Γ) :
    Vis X { s with scopes := s.scopes ++ [⟨[], some s.ana.ctxScope⟩] } s.scopes.length Γ := by
  have htab : (s.scopes ++ [(⟨[], some s.ana.ctxScope⟩ : ScopeTab)])[s.scopes.length]? = some ⟨[], some s.ana.ctxScope⟩ := by simp
  refine ⟨?_, hv.old⟩
  intro n i x t hs hx hb hbi
  cases hs with
  | here ht hl => rw [htab] at ht; cases ht; simp [look] at hl
  | up ht _ hp hs =>
      rw [htab] at ht
      cases ht
      cases hp
      exact (hv.quiet hi hi.ctx hi.ctxLt (push_quiet s _)).see n i x t hs hx hb hbi

/-- A variable is made and defined. -/
theorem newVar_define {cfg : CCfg} {mod name : String} {i : SymId} {d : Nat} {u : Unit} {s1 : CState}
    (h1 : newVar mod name t s = .ok (i, s1)) (h2 : defineSymbol cfg i d k s1 = .ok (u, s')) :
    i = s.syms.length ∧ ∃ o, s' = withVar s k { name := name, outId := o, modPath := mod, body := .var t } ∧
      (1 ≤ d → o = innerName d (tabLen s.scopes k)) := by
  unfold newVar at h1
  rw [newSym_ok] at h1
  obtain ⟨rfl, rfl⟩ := h1
  obtain ⟨x, o, hx, rfl, ho⟩ := defineSymbol_ok h2
  rw [append_last] at hx
  cases hx
  refine ⟨rfl, o, ?_, ho⟩
  unfold withVar
  simp only [append_set]

theorem assertFree_ok {tok : Token} {name : String} {u : Unit} (h : assertFree tok name s = .ok (u, s')) :
    lookIn s.scopes s.ana.ctxScope name = none ∧ s' = s := by
  unfold assertFree at h
  rw [C.bind_ok] at h
  obtain ⟨_, s1, h1, h⟩ := h
  rw [C.get_ok] at h1
  obtain ⟨e0, e1⟩ := h1
  obtain rfl := e0.symm
  obtain rfl := e1.symm
  rw [C.bind_ok] at h
  obtain ⟨r, s2, h2, h⟩ := h
  rw [getIn_ok] at h2
  obtain ⟨e2, e3⟩ := h2
  obtain rfl := e3.symm
  cases r with
  | none =>
      rw [C.pure_ok] at h
      exact ⟨e2.symm, h.2⟩
  | some j =>
      simp only at h
      split at h <;> simp [C.bind_ok, C.error_ok] at h

theorem declaredVar_ok {i : SymId} {x : CSym} {u : Unit} (hx : s.syms[i]? = some x) (h : declaredVar i s = .ok (u, s')) :
    s' = { s with syms := s.syms.set i (if s.ana.depth = 0 then { x with isGlobal := true } else x) } := by
  unfold declaredVar at h
  rw [C.bind_ok] at h
  obtain ⟨_, s1, h1, h⟩ := h
  rw [C.get_ok] at h1
  obtain ⟨e0, e1⟩ := h1
  obtain rfl := e0.symm
  obtain rfl := e1.symm
  split at h
  · rename_i hd
    rw [updSym_ok hx] at h
    rw [h, if_pos hd]
  · rename_i hd
    rw [C.pure_ok] at h
    rw [h.2, if_neg hd, set_same hx]

/-- Declarations up to the initial value. -/
theorem declareVar_ok (hN : X.Names) (hi : Inv X s) {cfg : CCfg} {mod : String} {tok name : Token} {ty : TyExpr} {init : Option Expr} {i : SymId}
    (hp : plainTy X.K.reals ty = true) (h : declareVar cfg mod tok name ty init s = .ok ((i, t), s')) :
    dataTy X.K.reals t = true ∧ lookIn s.scopes s.ana.ctxScope name.str = none ∧ i = s.syms.length ∧
    (init = none → (toTy [] t).zeroInitialized = true) ∧
    ∃ o, s' = withVar s s.ana.ctxScope { name := name.str, outId := o, modPath := mod, body := .var t } ∧
      (1 ≤ s.ana.depth → o = innerName s.ana.depth (tabLen s.scopes s.ana.ctxScope)) := by
  unfold declareVar at h
  rw [C.bind_ok] at h
  obtain ⟨_, s1, h1, h⟩ := h
  obtain ⟨hfree, e1⟩ := assertFree_ok h1
  obtain rfl := e1.symm
  rw [C.bind_ok] at h
  obtain ⟨u, s2, h2, h⟩ := h
  obtain ⟨hd, e2, _⟩ := getTy_ok hN hi hp h2
  obtain rfl := e2.symm
  rw [C.bind_ok] at h
  obtain ⟨j, s3, h3, h⟩ := h
  rw [C.bind_ok] at h
  obtain ⟨_, _, h4, h⟩ := h
  rw [C.get_ok] at h4
  obtain ⟨e0, e4⟩ := h4
  obtain rfl := e0.symm
  obtain rfl := e4.symm
  rw [C.bind_ok] at h
  obtain ⟨_, s5, h5, h⟩ := h
  have hctx : s3.ana = s.ana := by
    unfold newVar at h3
    rw [newSym_ok] at h3
    rw [h3.2]
  rw [hctx] at h5 h
  obtain ⟨hj, o, e5, ho⟩ := newVar_define h3 h5
  have fin : ((i, t), s') = ((j, u), s5) → (init = none → (toTy [] t).zeroInitialized = true) →
      dataTy X.K.reals t = true ∧ lookIn s.scopes s.ana.ctxScope name.str = none ∧ i = s.syms.length ∧
      (init = none → (toTy [] t).zeroInitialized = true) ∧
      ∃ o, s' = withVar s s.ana.ctxScope { name := name.str, outId := o, modPath := mod, body := .var t } ∧
        (1 ≤ s.ana.depth → o = innerName s.ana.depth (tabLen s.scopes s.ana.ctxScope)) := by
    rintro e hz
    cases e
    exact ⟨hd, hfree, hj, hz, o, e5, ho⟩
  cases init with
  | none =>
      simp only [C.bind_ok, view_ok] at h
      rw [hi.reg] at h
      simp only [Bool.not_false, Bool.true_and] at h
      obtain ⟨w, s6, ⟨rfl, e6⟩, h⟩ := h
      obtain rfl := e6.symm
      split at h
      · simp only [C.error_ok] at h
      · rename_i hz
        rw [C.pure_ok] at h
        refine fin (by rw [h.1, h.2]) fun _ => ?_
        have : t = u := by have := h.1; simp at this; exact this.2
        subst this
        rw [toTy_data _ hd] at hz
        simpa using hz
  | some e =>
      have triv : (some e = none → (toTy [] t).zeroInitialized = true) := fun h => by cases h
      cases e with
      | assign a b r =>
          simp only at h
          split at h
          · simp only [C.error_ok] at h
          · rw [C.pure_ok] at h
            exact fin (by rw [h.1, h.2]) triv
      | _ =>
          rw [C.pure_ok] at h
          exact fin (by rw [h.1, h.2]) triv

/-- The symbol of a declared variable. -/
def declSym (name o mod : String) (t : CTy) (g : Bool) : CSym :=
  { name := name, outId := o, modPath := mod, isGlobal := g, body := .var t }

theorem declared_eq {s1 s2 : CState} {name o mod : String} {k l : Nat} (h1 : s1 = withVar s k (declSym name o mod t false))
    (h2 : s2 = s1.atLine l)
    (h3 : s' = { s2 with syms := s2.syms.set s.syms.length (if s2.ana.depth = 0 then
      { declSym name o mod t false with isGlobal := true } else declSym name o mod t false) }) :
    s' = (withVar s k (declSym name o mod t (decide (s.ana.depth = 0)))).atLine l := by
  subst h3 h2 h1
  have he : ∀ w, (s.syms ++ [declSym name o mod t false]).set s.syms.length w = s.syms ++ [w] := append_set _ _
  have hw : (if s.ana.depth = 0 then { declSym name o mod t false with isGlobal := true } else declSym name o mod t false) =
      declSym name o mod t (decide (s.ana.depth = 0)) := by
    by_cases hc : s.ana.depth = 0 <;> simp [declSym, hc]
  show CState.mk ((s.syms ++ [declSym name o mod t false]).set s.syms.length (if s.ana.depth = 0 then
      { declSym name o mod t false with isGlobal := true } else declSym name o mod t false)) _ _ _ _ _ _ _ = _
  rw [he, hw]
  rfl

theorem declared_ok (hi : Inv X s) {name o : String} {g : Bool} {l : Nat} (ht : dataTy X.K.reals t = true) (hn : name ∈ X.K.vars)
    (hfree : lookIn s.scopes s.ana.ctxScope name = none) (hg : g = decide (s.ana.depth = 0)) (hv : Vis X s s.ana.ctxScope Γ)
    (ho : 1 ≤ s.ana.depth → o = innerName s.ana.depth (tabLen s.scopes s.ana.ctxScope))
    (he : s' = (withVar s s.ana.ctxScope (declSym name o X.mod t g)).atLine l) :
    Inv X s' ∧ Step s.ana.ctxScope s s' ∧ (TopG X s → TopG X s') ∧ Vis X s' s.ana.ctxScope (s.syms.length :: Γ) := by
  subst he
  have hgl : g = true → s.ana.ctxScope = X.g := fun h => by
    rw [hg] at h
    exact hi.top.mp (of_decide_eq_true h)
  refine ⟨(withVar_inv hi (v := declSym name o X.mod t g) rfl rfl rfl ht hn hfree hi.ctxLt hgl (hi.named ho)).line l,
    (withVar_step (v := declSym name o X.mod t g) rfl hfree).trans (Step.line _ _ _), fun htg => ?_, ?_⟩
  rotate_left
  · have h := (withVar_vis (v := declSym name o X.mod t g) hi hi.ctx hi.ctxLt hv).1
    exact ⟨h.see, h.old⟩
  intro n i x u hl hbi hx hb
  change lookIn (bindIn s.scopes s.ana.ctxScope name s.syms.length) X.g n = some i at hl
  rw [bindIn_look] at hl
  split at hl
  · rename_i hc
    cases hl
    have : (s.syms ++ [declSym name o X.mod t g])[s.syms.length]? = some x := hx
    rw [append_last] at this
    cases this
    show g = true
    rw [hg]
    exact decide_eq_true (hi.top.mpr hc.1.symm)
  · obtain ⟨y, hy, _⟩ := hi.new X.g n i (.inl rfl) hl hbi
    have : (s.syms ++ [declSym name o X.mod t g])[i]? = some y := append_old hy
    rw [show (s.syms ++ [declSym name o X.mod t g])[i]? = some x from hx] at this
    cases this
    exact htg n i x u hl hbi hy hb

end

section
variable {F : Type} [FloatOps F] {X : World} {L : Lang} {s s' : CState} {Γ : List SymId} {t : CTy}

theorem default_ok [ReadsNumerals F] {r : Bool} (ht : dataTy r t = true) (hz : (toTy [] t).zeroInitialized = true) :
    ∃ v : Val F, defaultVal (toTy [] t) = some v ∧ HasTy (fun _ => none) (toTy [] t) v := by
  rcases data_cases ht with rfl | rfl | rfl | ⟨_, rfl⟩ | ⟨u, rfl, _⟩
  · exact ⟨.int 0, rfl, .int 0 (by decide)⟩
  · exact ⟨.bool false, rfl, .bool false⟩
  · exact ⟨.str "", rfl, .texto ""⟩
  · obtain ⟨x, hx⟩ := Option.isSome_iff_exists.mp (ReadsNumerals.parse_numeral (F := F) "0.0" (by decide +kernel))
    refine ⟨.f64 x, ?_, .real x⟩
    simp [toTy, defaultVal, hx]
  · simp [toTy, Ty.zeroInitialized] at hz

variable [ReadsNumerals F]

theorem good_decl (hN : X.Names) (hL : X.Lang L) (hf : Inv X X.sf) (tok name : Token) (ty : TyExpr) :
    GoodS F X L (.varDecl tok name ty none) := by
  intro m Γ a s s' hk hi hv h
  simp only [okS, Bool.and_eq_true, List.contains_iff_mem] at hk
  simp only [visitS, C.bind_ok, C.at_ok, C.pure_ok] at h
  obtain ⟨_, s0, e0, ⟨i, t⟩, s1, h1, _, s2, h2, rfl, rfl⟩ := h
  have hi0 : Inv X s0 := by rw [e0]; exact hi.line _
  obtain ⟨hd, hfree, hii, hz, o, e1, ho⟩ := declareVar_ok hN hi0 hk.2 h1
  subst hii
  have hx : s1.syms[s0.syms.length]? = some (declSym name.str o X.mod t false) := by rw [e1]; exact append_last _ _
  have e2 := declaredVar_ok hx h2
  have e2' := declared_eq e1 (show s1 = s1.atLine s1.ana.line from rfl) e2
  have hc0 : s0.ana.ctxScope = s.ana.ctxScope := by rw [e0]; rfl
  have hv0 : Vis X s0 s0.ana.ctxScope Γ := by rw [e0]; exact ⟨hv.see, hv.old⟩
  obtain ⟨hi', hst, htg, hv'⟩ := declared_ok hi0 hd hk.1 hfree rfl hv0 ho e2'
  rw [hc0] at hst hv'
  have hst' : Step s.ana.ctxScope s s' := by
    refine StepFrom.trans (s2 := s0) ?_ hst
    rw [e0]
    exact Step.line _ _ _
  refine ⟨hi', hst', fun h => htg (by rw [e0]; exact h), _, fun _ h => List.mem_cons_of_mem _ h, hv', fun hl hfn ret hr => ?_⟩
  obtain ⟨v, hv1, hv2⟩ := default_ok (F := F) hd (hz rfl)
  have hag : Agree X (withVar s0 s0.ana.ctxScope (declSym name.str o X.mod t (decide (s0.ana.depth = 0)))) := by
    rw [e2'] at hl
    exact LaterFrom.agree ⟨hl.syms, hl.scopes⟩
  have hvty := withVar_vty (t := t) rfl hi0.base hag
  have hlk : lookIn s'.scopes s.ana.ctxScope name.str = some s0.syms.length := by
    rw [e2', ← hc0]
    exact withVar_look hi0.ctxLt
  have hres : L.env.resolve (some s.ana.ctxScope) name.str = some s0.syms.length := by
    rw [hL]
    refine resolve_of_seen hf.wf (seen_of_look (hl.look hlk)) (Nat.lt_succ_of_lt ?_)
    exact Nat.lt_of_lt_of_le hi.ctxLt (hst'.later.trans hl).scopesLen
  refine ⟨.varDecl tok.line name.str (toTy [] t) none, ?_, .default _ v hres (declared_of hL hlk hl) hvty hv1 hv2, (by simp [mustReturn, returnsS]), rfl, rfl⟩
  simp only [toS]
  refine C.bind_ok.mpr ⟨_, _, view_ok.mpr ⟨rfl, rfl⟩, ?_⟩
  rw [toTy_data _ hd]
  rfl

variable [LawfulFloatOps F]

theorem good_declInit (hN : X.Names) (hL : X.Lang L) (hf : Inv X X.sf) (tok name : Token) (ty : TyExpr) (tk tv : Token) (e : Expr) :
    GoodS F X L (.varDecl tok name ty (some (.assign tk (.var tv) e))) := by
  intro m Γ a s s' hk hi hv h
  simp only [okS, Bool.and_eq_true, List.contains_iff_mem, beq_iff_eq, Bool.not_eq_true'] at hk
  obtain ⟨⟨⟨⟨⟨hname, hty⟩, htv⟩, hke⟩, htar⟩, huse⟩ := hk
  simp only [visitS, C.bind_ok, C.at_ok, C.pure_ok] at h
  obtain ⟨_, s0, e0, ⟨i, t⟩, s1, h1, x, s2, h2, _, s3, h3, rfl, rfl⟩ := h
  have hi0 : Inv X s0 := by rw [e0]; exact hi.line _
  have hc0 : s0.ana.ctxScope = s.ana.ctxScope := by rw [e0]; rfl
  have hv0 : Vis X s0 s0.ana.ctxScope Γ := by rw [e0]; exact ⟨hv.see, hv.old⟩
  obtain ⟨hd, hfree, hii, -, o, e1, ho⟩ := declareVar_ok hN hi0 hty h1
  subst hii
  have hi1 : Inv X s1 := by
    rw [e1]
    exact withVar_inv hi0 rfl rfl rfl hd hname hfree hi0.ctxLt (fun h => by cases h) (hi0.named ho)
  have hc1 : s1.ana.ctxScope = s0.ana.ctxScope := by rw [e1]; rfl
  obtain ⟨⟨l, e2⟩, -⟩ := visitE_line F hN hi1 (e := .assign tk (.var tv) e) (w := .rhs) (by
    simp only [okE, Bool.and_eq_true, List.contains_iff_mem]
    exact ⟨⟨⟨by decide, htv ▸ hname⟩, hke⟩, htar⟩) h2
  have hx : s2.syms[s0.syms.length]? = some (declSym name.str o X.mod t false) := by
    rw [e2, e1]; exact append_last _ _
  have e3 := declaredVar_ok hx h3
  have e3' := declared_eq e1 e2 e3
  obtain ⟨hi', hst, htg, hv'⟩ := declared_ok hi0 hd hname hfree rfl hv0 ho e3'
  rw [hc0] at hst hv'
  have hst' : Step s.ana.ctxScope s s' := by
    refine StepFrom.trans (s2 := s0) ?_ hst
    rw [e0]
    exact Step.line _ _ _
  refine ⟨hi', hst', fun h => htg (by rw [e0]; exact h), _, fun _ h => List.mem_cons_of_mem _ h, hv', fun hl hfn ret hr => ?_⟩
  have hag : Agree X s1 := by
    rw [e1]
    have hfin : Agree X (withVar s0 s0.ana.ctxScope (declSym name.str o X.mod t (decide (s0.ana.depth = 0)))) := by
      rw [e3'] at hl
      exact LaterFrom.agree ⟨hl.syms, hl.scopes⟩
    refine ⟨fun j y hy => ?_, hfin.glob⟩
    rcases append_cases hy with hy | ⟨rfl, rfl⟩
    · exact hfin.syms j y (append_old hy)
    · exact hfin.syms _ (declSym name.str o X.mod t (decide (s0.ana.depth = 0))) (append_last _ _)
  have hvty : X.vty s0.syms.length = some (toTy [] t) := withVar_vty (t := t) rfl hi0.base (e1 ▸ hag)
  have hlk : lookIn s'.scopes s.ana.ctxScope name.str = some s0.syms.length := by
    rw [e3', ← hc0]
    exact withVar_look hi0.ctxLt
  have hfn1 : Fns X s1 Γ := by
    have hfn0 : Fns X s0 Γ := by rw [e0]; exact hfn
    have : Step s0.ana.ctxScope s0 s1 := by rw [e1]; exact withVar_step rfl hfree
    exact hfn0.step this fun _ h => h
  have hvis := withVar_vis (v := declSym name.str o X.mod t false) hi0 hi0.ctx hi0.ctxLt hv0
  have hsit1 : Sit X s1 Γ (some name.str) := by
    refine ⟨hi1, hag, fun n i x u hs hn hx hb hbi => ?_, hfn1⟩
    rw [hc1] at hs
    rw [e1] at hs hx
    exact hvis.2 n i x u hs (fun h => hn (by rw [h]; rfl)) hx hb hbi
  have hsit2 : Sit X s1 (s0.syms.length :: Γ) none := by
    refine ⟨hi1, hag, fun n i x u hs hn hx hb hbi => ?_, fun i x u ps hb hx hy => ?_⟩
    · rw [hc1] at hs
      rw [e1] at hs hx
      exact hvis.1.see n i x u hs hx hb hbi
    · exact fun j hj => List.mem_cons_of_mem _ (hfn1 i x u ps hb hx hy hj)
  simp only [visitE, C.bind_ok, C.at_ok, C.pure_ok] at h2
  obtain ⟨_, s4, rfl, y, s5, h4, z, s6, ⟨_, _, rfl, ⟨w, j⟩, _, h5, rfl, rfl⟩, h6⟩ := h2
  obtain ⟨⟨l5, rfl⟩, hy⟩ := goodE (F := F) hN hL e hke (fun n hn => by cases hn; exact huse) (hsit1.line tk.line) h4
  obtain ⟨rfl, hdw, -, hvw, hsee, -⟩ := useVar_ok (((hsit2.line tk.line).line l5).line tv.line) (by simp) h5
  have hj : j = s0.syms.length := by
    have h1' : Seen s1.scopes tv.str s1.ana.ctxScope j := hsee
    rw [htv, hc1, e1] at h1'
    rcases withVar_seen hi0 hi0.ctxLt h1' with ⟨_, h⟩ | ⟨h, _⟩
    · exact h
    · exact absurd rfl h
  subst hj
  have hwt : toTy [] w = toTy [] t := by rw [hvty] at hvw; exact (Option.some.inj hvw).symm
  simp only [assignTy, C.bind_ok, Expr.token] at h6
  obtain ⟨r, s7, h7, h8⟩ := h6
  obtain ⟨rfl, hr'⟩ := resolve_ok h7
  cases r with
  | none => simp only [C.raise_ok] at h8
  | some j =>
      simp only [C.bind_ok, symOf_ok] at h8
      obtain ⟨q, _, ⟨hq, rfl⟩, h8⟩ := h8
      split at h8
      · simp only [C.error_ok] at h8
      · split at h8
        · simp only [C.error_ok] at h8
        · simp only [C.bind_ok] at h8
          obtain ⟨p, _, h9, c, _, h10, h11⟩ := h8
          obtain ⟨⟨q, hq, rfl⟩, rfl⟩ := promTy_ok h9
          obtain ⟨hm, rfl⟩ := matchTy_ok h10
          simp only [AExpr.ty] at hq hm h11
          change Ty.promote (toTy _ y.ty) _ = _ at hq
          change Ty.typesMatch _ (toTy _ y.ty) = _ at hm
          rw [toTy_expr _ hy.ty, toTy_data _ hdw] at hq hm
          split at h11
          · rename_i hc
            subst hc
            simp only [C.pure_ok] at h11
            obtain ⟨rfl, -⟩ := h11
            have hreach : Reach X L (some s.ana.ctxScope) :=
              here_reach hN hL hf hi (hst'.later.trans hl)
            obtain ⟨r, hr1, hr2⟩ := hy.target htar hdw hm hq Γ _ (fun _ h => h) hreach
            rw [hwt] at hr2
            refine ⟨.varDecl tok.line name.str (toTy [] t) (some (.mk _ r)), ?_, .decl hvty (declared_of hL hlk hl) hr2, (by simp [mustReturn, returnsS]), rfl, rfl⟩
            simp only [toS]
            refine C.bind_ok.mpr ⟨_, _, hr1, C.bind_ok.mpr ⟨_, _, view_ok.mpr ⟨rfl, rfl⟩, ?_⟩⟩
            rw [toTy_data _ hd]
            rfl
          · simp [C.bind_ok, C.error_ok] at h11

omit [FloatOps F] [ReadsNumerals F] [LawfulFloatOps F] in
theorem checkRange_ok : ∀ {es : List AExpr} {u : Unit}, (∀ a ∈ es, exprTy X.K.reals a.ty = true) →
    checkRange es s = .ok (u, s') → s' = s ∧ ∀ a ∈ es, a.ty = .prim .int
  | [], _, _, h => by
      simp only [checkRange, C.pure_ok] at h
      exact ⟨h.2, by simp⟩
  | a :: es, _, ht, h => by
      simp only [checkRange, C.bind_ok] at h
      obtain ⟨c, s1, h1, h⟩ := h
      rw [sameTy_ok] at h1
      obtain ⟨hc, e1⟩ := h1
      obtain rfl := e1.symm
      split at h
      · rename_i hct
        obtain ⟨h2, h3⟩ := checkRange_ok (fun b hb => ht b (by simp [hb])) h
        refine ⟨h2, fun b hb => ?_⟩
        rcases List.mem_cons.mp hb with rfl | hb
        · have hb' := ht b (by simp)
          rw [hct] at hc
          rcases expr_cases hb' with hd | hv
          · rw [toTy_data _ hd] at hc
            exact toTy_inj (r := X.K.reals) hd (u := .prim .int) (by simp [exprTy, dataTy]) (by simpa [toTy] using hc.symm)
          · rw [hv] at hc; simp [toTy, Ty.eqv, Ty.eqD] at hc
        · exact h3 b hb
      · simp only [C.error_ok] at h

omit [FloatOps F] [ReadsNumerals F] [LawfulFloatOps F] in
theorem paraScope_ok (hN : X.Names) (hi : Inv X s) (hv : Vis X s s.ana.ctxScope Γ) {name : Token} {sc : ScopeId}
    (hn : name.str ∈ X.K.vars) (h : paraScope X.cfg X.mod name s = .ok (sc, s')) :
    sc = s.scopes.length ∧ Inv X s' ∧ Quiet s s' ∧ X.sb ≤ sc ∧
      (∃ tab, s'.scopes[sc]? = some tab ∧ tab.parent = some s'.ana.ctxScope) ∧ Vis X s' sc (s.syms.length :: Γ) ∧
      lookIn s'.scopes sc name.str = some s.syms.length ∧
      (Agree X s' → X.vty s.syms.length = some .int) ∧
      ∀ tab, s'.scopes[sc]? = some tab → ∀ j ∈ ScopeTab.ids tab, s.syms.length ≤ j := by
  unfold paraScope at h
  rw [C.bind_ok] at h
  obtain ⟨t, s1, h1, h⟩ := h
  obtain ⟨rfl, e1⟩ := namedTy_ok hN hi (tag := .int) (by simp [words]) h1
  obtain rfl := e1.symm
  rw [C.bind_ok] at h
  obtain ⟨i, s2, h2, h⟩ := h
  rw [C.bind_ok] at h
  obtain ⟨k, s3, h3, h⟩ := h
  simp only [C.bind_ok, C.get_ok, C.pure_ok] at h
  obtain ⟨_, _, ⟨e4, e4'⟩, _, s5, h5, rfl, rfl⟩ := h
  obtain rfl := e4.symm
  obtain rfl := e4'.symm
  obtain ⟨rfl, e3⟩ := innerScope_ok h3
  unfold newVar at h2
  rw [newSym_ok] at h2
  obtain ⟨rfl, rfl⟩ := h2
  obtain ⟨x, o, hx, e5, ho⟩ := defineSymbol_ok h5
  rw [e3] at hx e5 ho
  rw [show (s.syms ++ [_])[s.syms.length]? = _ from append_last _ _] at hx
  cases hx
  have e5' : s' = withVar { s with scopes := s.scopes ++ [⟨[], some s.ana.ctxScope⟩] } s.scopes.length
      (declSym name.str o X.mod (.prim .int) false) := by
    rw [e5]
    unfold withVar
    simp only [append_set]
    rfl
  have hp := hi.push hi.ctx hi.ctxLt
  have hlt : s.scopes.length < (s.scopes ++ [(⟨[], some s.ana.ctxScope⟩ : ScopeTab)]).length := by simp
  have hfree : lookIn (s.scopes ++ [(⟨[], some s.ana.ctxScope⟩ : ScopeTab)]) s.scopes.length name.str = none := by
    rw [push_look]
    unfold lookIn
    rw [List.getElem?_eq_none (Nat.le_refl _)]
    rfl
  have hv1 := push_vis hi hv
  refine ⟨rfl, ?_, ?_, hi.sbase, ?_, ?_, ?_, ?_, ?_⟩
  · rw [e5']
    refine withVar_inv hp rfl rfl rfl (by simp [dataTy]) hn hfree hlt (fun h => by cases h) fun _ => ⟨s.ana.depth + 1, hi.sbase, ?_, ho (by simp)⟩
    exact .up (by simp; rfl) rfl (hi.deep.mono fun k tab hk => ⟨tab, push_kept hk, rfl⟩)
  · rw [e5']
    exact ⟨s.scopes.length, Nat.le_refl _, ((push_quiet s _).step _).trans (withVar_step rfl hfree)⟩
  · rw [e5']
    show ∃ tab, (bindIn (s.scopes ++ [(⟨[], some s.ana.ctxScope⟩ : ScopeTab)]) s.scopes.length name.str s.syms.length)[s.scopes.length]? = _ ∧ _
    rw [bindIn_get, if_pos rfl]
    refine ⟨_, by simp; rfl, rfl⟩
  · rw [e5']
    exact (withVar_vis hp (.inr hi.sbase) hlt hv1).1
  · rw [e5']
    exact withVar_look (v := declSym name.str o X.mod (.prim .int) false) hlt
  · rw [e5']
    intro hag
    exact withVar_vty (t := .prim .int) (s := { s with scopes := s.scopes ++ [⟨[], some s.ana.ctxScope⟩] }) rfl hi.base hag
  · rw [e5']
    intro tab ht j hj
    change (bindIn (s.scopes ++ [(⟨[], some s.ana.ctxScope⟩ : ScopeTab)]) s.scopes.length name.str s.syms.length)[s.scopes.length]? = _ at ht
    rw [bindIn_get, if_pos rfl] at ht
    simp only [List.getElem?_concat_length, Option.map_some, Option.some.injEq] at ht
    rw [← ht] at hj
    rcases assign_ids (tab := ⟨[], some s.ana.ctxScope⟩) hj with h | h
    · simp [ScopeTab.ids] at h
    · exact h

theorem good_para (hN : X.Names) (hL : X.Lang L) (hf : Inv X X.sf) (tok name : Token) (a b : Expr) (body : List Stmt)
    (hb : ∀ st ∈ body, GoodS F X L st) : GoodS F X L (.para tok name a b none body) := by
  intro m Γ as s s' hk hi hv h
  simp only [okS, Bool.and_eq_true, List.contains_iff_mem] at hk
  obtain ⟨⟨⟨hname, hka⟩, hkb⟩, hks⟩ := hk
  simp only [visitS, C.bind_ok, C.at_ok, C.pure_ok] at h
  obtain ⟨_, s0, rfl, x, s1, h1, y, s2, h2, _, s3, h3, sc, s4, h4, bl, s5, h5, rfl, rfl⟩ := h
  obtain ⟨hi1, hq1, hxt, hv1, hex⟩ := expr_ok (F := F) hN hL hka (hi.line tok.line) ⟨hv.see, hv.old⟩ h1
  rw [← hq1.ctx] at hv1
  obtain ⟨hi2, hq2, hyt, hv2, hey⟩ := expr_ok (F := F) hN hL hkb hi1 hv1 h2
  rw [← hq2.ctx] at hv2
  obtain ⟨rfl, hints⟩ := checkRange_ok (X := X) (by
    intro c hc
    simp only [List.mem_cons, List.not_mem_nil, or_false] at hc
    rcases hc with rfl | rfl <;> assumption) h3
  obtain ⟨hsc, hi4, hq4, hsb, hpar, hv4, hlk, hvty, hids⟩ := paraScope_ok hN hi2 hv2 hname h4
  obtain ⟨hi5, hst5, ht5⟩ := block_ok hb hks hi4 hsb hpar hv4 h5
  have hq01 := (Quiet.line s tok.line).trans hq1
  have hq02 := hq01.trans hq2
  have hq04 := hq02.trans hq4
  have hlt4 : sc < s4.scopes.length := (List.getElem?_eq_some_iff.mp hpar.choose_spec.1).1
  have hq05 : Quiet s s' := by
    refine ⟨s.scopes.length, Nat.le_refl _, ?_⟩
    have hle := hq02.later.scopesLen
    refine ⟨?_, hq04.later.trans hst5.later, ?_, fun j tab _ ht => ?_, ?_, ?_⟩
    · exact ((hq04.step sc).trans hst5).ana
    · exact ((hq04.step sc).trans hst5).vars
    · have hj : j < s.scopes.length := (List.getElem?_eq_some_iff.mp ht).1
      refine hst5.frame j tab (fun e => ?_) (hq04.same ht)
      have : sc < s.scopes.length := e ▸ hj
      rw [hsc] at this
      exact absurd hle (Nat.not_le_of_lt this)
    · exact ((hq04.step sc).trans hst5).mods
    · exact ((hq04.step sc).trans hst5).open_
  refine .quiet hi hv hi5 hq05 fun hl hfn ret hr => ?_
  have hl4 := hst5.later.trans hl
  have hl2 := hq4.later.trans hl4
  have hl1 := hq2.later.trans hl2
  have hl0 := hq1.later.trans hl1
  have hlt : sc < X.sf.scopes.length := Nat.lt_of_lt_of_le hlt4 hl4.scopesLen
  have hreach := reach_of hN hL hf (.inr hsb) hlt
  obtain ⟨ex, hx, tx⟩ := (hex hl0 hfn).self Γ _ (fun _ h => h) hreach
  rw [hints x (by simp)] at tx
  obtain ⟨ey, hy, ty⟩ := (hey hl1 (hfn.step (hq01.step 0) fun _ h => h)).self (_ :: Γ) _ (fun _ h => List.mem_cons_of_mem _ h) hreach
  rw [hints y (by simp)] at ty
  obtain ⟨ts, Γ5, htb, tts, -⟩ := ht5 hl (hfn.step (hq04.step 0) fun _ h => List.mem_cons_of_mem _ h) ret (hr.step (hq04.step 0))
  have hres : L.env.resolve (some sc) name.str = some s3.syms.length := by
    rw [hL]
    exact resolve_of_seen hf.wf (seen_of_look (hl4.look hlk)) (Nat.lt_succ_of_lt hlt)
  refine ⟨.para tok.line name.str ex ey none (.mk sc ts), ?_,
    .para _ (apart_of hL hpar.choose_spec.1 hl4 (hids _ hpar.choose_spec.1) hq4.later.symsLen hv2.old) (hq04.ctx ▸ within_of hL hpar.choose_spec.1 hpar.choose_spec.2 hl4) tx hres
      (declared_of hL hlk hl4) (hvty hl4.agree) ty .none tts, (by simp [mustReturn, returnsS]), rfl, rfl⟩
  simp only [toS]
  exact C.bind_ok.mpr ⟨_, _, hx, C.bind_ok.mpr ⟨_, _, hy, C.bind_ok.mpr ⟨_, _, htb, rfl⟩⟩⟩

theorem good_paraInc (hN : X.Names) (hL : X.Lang L) (hf : Inv X X.sf) (tok name : Token) (a b c : Expr) (body : List Stmt)
    (hb : ∀ st ∈ body, GoodS F X L st) : GoodS F X L (.para tok name a b (some c) body) := by
  intro m Γ as s s' hk hi hv h
  simp only [okS, Bool.and_eq_true, List.contains_iff_mem] at hk
  obtain ⟨⟨⟨⟨hname, hka⟩, hkb⟩, hkc⟩, hks⟩ := hk
  simp only [visitS, C.bind_ok, C.at_ok, C.pure_ok] at h
  obtain ⟨_, s0, rfl, x, s1, h1, y, s2, h2, z, s2', h2', _, s3, h3, sc, s4, h4, bl, s5, h5, rfl, rfl⟩ := h
  obtain ⟨hi1, hq1, hxt, hv1, hex⟩ := expr_ok (F := F) hN hL hka (hi.line tok.line) ⟨hv.see, hv.old⟩ h1
  rw [← hq1.ctx] at hv1
  obtain ⟨hi2', hq2', hyt, hv2', hey⟩ := expr_ok (F := F) hN hL hkb hi1 hv1 h2
  rw [← hq2'.ctx] at hv2'
  obtain ⟨hi2, hq2, hzt, hv2, hez⟩ := expr_ok (F := F) hN hL hkc hi2' hv2' h2'
  rw [← hq2.ctx] at hv2
  obtain ⟨rfl, hints⟩ := checkRange_ok (X := X) (by
    intro c hc
    simp only [List.mem_cons, List.not_mem_nil, or_false] at hc
    rcases hc with rfl | rfl | rfl <;> assumption) h3
  obtain ⟨hsc, hi4, hq4, hsb, hpar, hv4, hlk, hvty, hids⟩ := paraScope_ok hN hi2 hv2 hname h4
  obtain ⟨hi5, hst5, ht5⟩ := block_ok hb hks hi4 hsb hpar hv4 h5
  have hq01 := (Quiet.line s tok.line).trans hq1
  have hq02' := hq01.trans hq2'
  have hq02 := hq02'.trans hq2
  have hq04 := hq02.trans hq4
  have hlt4 : sc < s4.scopes.length := (List.getElem?_eq_some_iff.mp hpar.choose_spec.1).1
  have hq05 : Quiet s s' := by
    refine ⟨s.scopes.length, Nat.le_refl _, ?_⟩
    have hle := hq02.later.scopesLen
    refine ⟨?_, hq04.later.trans hst5.later, ?_, fun j tab _ ht => ?_, ?_, ?_⟩
    · exact ((hq04.step sc).trans hst5).ana
    · exact ((hq04.step sc).trans hst5).vars
    · have hj : j < s.scopes.length := (List.getElem?_eq_some_iff.mp ht).1
      refine hst5.frame j tab (fun e => ?_) (hq04.same ht)
      have : sc < s.scopes.length := e ▸ hj
      rw [hsc] at this
      exact absurd hle (Nat.not_le_of_lt this)
    · exact ((hq04.step sc).trans hst5).mods
    · exact ((hq04.step sc).trans hst5).open_
  refine .quiet hi hv hi5 hq05 fun hl hfn ret hr => ?_
  have hl4 := hst5.later.trans hl
  have hl2 := hq4.later.trans hl4
  have hl2' := hq2.later.trans hl2
  have hl1 := hq2'.later.trans hl2'
  have hl0 := hq1.later.trans hl1
  have hlt : sc < X.sf.scopes.length := Nat.lt_of_lt_of_le hlt4 hl4.scopesLen
  have hreach := reach_of hN hL hf (.inr hsb) hlt
  obtain ⟨ex, hx, tx⟩ := (hex hl0 hfn).self Γ _ (fun _ h => h) hreach
  rw [hints x (by simp)] at tx
  obtain ⟨ey, hy, ty⟩ := (hey hl1 (hfn.step (hq01.step 0) fun _ h => h)).self (_ :: Γ) _ (fun _ h => List.mem_cons_of_mem _ h) hreach
  rw [hints y (by simp)] at ty
  obtain ⟨ez, hz, tz⟩ := (hez hl2' (hfn.step (hq02'.step 0) fun _ h => h)).self (_ :: Γ) _ (fun _ h => List.mem_cons_of_mem _ h) hreach
  rw [hints z (by simp)] at tz
  obtain ⟨ts, Γ5, htb, tts, -⟩ := ht5 hl (hfn.step (hq04.step 0) fun _ h => List.mem_cons_of_mem _ h) ret (hr.step (hq04.step 0))
  have hres : L.env.resolve (some sc) name.str = some s3.syms.length := by
    rw [hL]
    exact resolve_of_seen hf.wf (seen_of_look (hl4.look hlk)) (Nat.lt_succ_of_lt hlt)
  refine ⟨.para tok.line name.str ex ey (some ez) (.mk sc ts), ?_,
    .para _ (apart_of hL hpar.choose_spec.1 hl4 (hids _ hpar.choose_spec.1) hq4.later.symsLen hv2.old) (hq04.ctx ▸ within_of hL hpar.choose_spec.1 hpar.choose_spec.2 hl4) tx hres
      (declared_of hL hlk hl4) (hvty hl4.agree) ty (.some _ tz) tts, (by simp [mustReturn, returnsS]), rfl, rfl⟩
  simp only [toS]
  exact C.bind_ok.mpr ⟨_, _, hx, C.bind_ok.mpr ⟨_, _, hy, C.bind_ok.mpr ⟨_, _, hz, C.bind_ok.mpr ⟨_, _, htb, rfl⟩⟩⟩⟩

/-- Statements that are accepted keep to the rules. -/
theorem goodS (hN : X.Names) (hL : X.Lang L) (hf : Inv X X.sf) (st : Stmt) : GoodS F X L st := by
  cases st with
  | expr e => exact good_expr hN hL hf e
  | varDecl tok name ty init =>
      cases init with
      | none => exact good_decl hN hL hf tok name ty
      | some e =>
          cases e with
          | assign tk l r =>
              cases l with
              | var tv => exact good_declInit hN hL hf tok name ty tk tv r
              | _ => exact GoodS.vacuous (by simp [okS])
          | _ => exact GoodS.vacuous (by simp [okS])
  | loopCtl tok => exact good_loopCtl tok
  | retorna tok e =>
      cases e with
      | none => exact good_retornaVazio tok
      | some e => exact good_retorna hN hL hf tok e
  | mostra tok e => exact good_mostra hN hL hf tok e
  | se tok c b es d =>
      have hb : ∀ st ∈ b, GoodS F X L st := fun st _ => goodS hN hL hf st
      have hes : ∀ tok c b, ElseIf.mk tok c b ∈ es → ∀ st ∈ b, GoodS F X L st := fun _ _ _ hm st hs => goodS hN hL hf st
      cases d with
      | none => intro m Γ a s s'; exact good_se hN hL hf tok c b es hb hes
      | some d => intro m Γ a s s'; exact good_seSenao hN hL hf tok c b es d hb hes fun st _ => goodS hN hL hf st
  | enquanto tok c b => exact good_enquanto hN hL hf tok c b fun st _ => goodS hN hL hf st
  | para tok name a b inc body =>
      cases inc with
      | none => exact good_para hN hL hf tok name a b body fun st _ => goodS hN hL hf st
      | some c => exact good_paraInc hN hL hf tok name a b c body fun st _ => goodS hN hL hf st
  | _ => exact GoodS.vacuous (by simp [okS])
termination_by sizeOf st
decreasing_by
  all_goals
    subst_vars
    first
    | (have h1 := List.sizeOf_lt_of_mem ‹_ ∈ _›; simp; omega)
    | (have h1 := List.sizeOf_lt_of_mem hs; have h2 := List.sizeOf_lt_of_mem hm; simp at h2 ⊢; omega)

end

end Amanda.Check

import Verif.FragCalm
import Verif.Library

/-!
# Functions and modules of `Verif.Frag` make the checker report errors, not fail
-/

namespace Amanda.Check

open Source Imports

/-! ## Functions -/

section
variable {X : World} {b : Bool} {s s' : CState}

theorem Safe.getTy? (hN : X.Names) (hi : Inv X s) {ret : Option TyExpr} (hr : okRet X.K.reals ret = true) :
    Safe b (getTy? ret) s := by
  cases ret with
  | none => exact Safe.namedTy hN hi (tag := .vazio) (by simp [words])
  | some ty => exact Safe.getTy hN hi hr

theorem Safe.validateDecl {n m1 m2 : String} : Safe b (validateDecl n m1 m2) s := by
  refine Safe.then Safe.get fun _ _ => ?_
  split
  · exact Safe.error
  · refine Safe.then Safe.getIn fun r _ => ?_
    cases r with
    | none => exact Safe.pure
    | some j => exact Safe.error

theorem Safe.checkNumParams {m : Bool} {ps : List Param} : Safe b (checkNumParams m ps) s := by
  unfold Check.checkNumParams
  split
  · exact Safe.error
  · exact Safe.pure

theorem Safe.paramSyms (hN : X.Names) : ∀ {ps : List Param} {acc : List (String × SymId)} {s : CState},
    (∀ p ∈ ps, p.name.str ∈ X.K.vars ∧ plainTy X.K.reals p.ty = true) → Inv X s → Safe b (paramSyms X.mod ps acc) s
  | [], acc, s, _, _ => by simp only [Check.paramSyms]; exact Safe.pure
  | p :: ps, acc, s, hps, hi => by
      obtain ⟨hv, hpl⟩ := hps p (by simp)
      simp only [Check.paramSyms]
      split
      · exact Safe.error
      · refine Safe.next (a := ()) (C.at_ok.mpr rfl) (Safe.bind (Safe.getTy hN (hi.line _) hpl) fun t s2 h2 => ?_)
        obtain ⟨hd, rfl, _⟩ := getTy_ok hN (hi.line _) hpl h2
        refine Safe.bind Safe.newSym fun i s3 h3 => ?_
        unfold newVar at h3
        rw [newSym_ok] at h3
        obtain ⟨rfl, rfl⟩ := h3
        exact Safe.paramSyms hN (fun q hq => hps q (by simp [hq])) ((hi.line p.name.line).addVar
          { name := p.name.str, outId := p.name.str, modPath := X.mod, body := .var t } rfl rfl rfl hd hv rfl)

theorem Safe.defineParams {cfg : CCfg} {d : Nat} {sc : ScopeId} : ∀ {ps : List (String × SymId)} {s : CState},
    (∀ p ∈ ps, ∃ y, s.syms[p.2]? = some y) → Safe b (defineParams cfg d sc ps) s
  | [], s, _ => by simp only [Check.defineParams]; exact Safe.pure
  | (n, i) :: ps, s, h => by
      obtain ⟨y, hy⟩ := h (n, i) (by simp)
      simp only [Check.defineParams]
      refine Safe.bind (Safe.defineSymbol hy) fun _ s1 h1 => ?_
      obtain ⟨x, o, hx, rfl, -⟩ := defineSymbol_ok h1
      refine Safe.defineParams fun p hp => ?_
      obtain ⟨z, hz⟩ := h p (by simp [hp])
      show ∃ y, (s.syms.set i _)[p.2]? = some y
      rw [set_get hx]
      split
      · exact ⟨_, rfl⟩
      · exact ⟨z, hz⟩

theorem Safe.declareFunc (hN : X.Names) (hi : Inv X s) {name : Token} {params : List Param} {ret : Option TyExpr}
    {body : Option (List Stmt)} {as : List Annotation} (hn : name.str ∈ X.K.fns) (hb : builtinAnn as = false)
    (hps : ∀ p ∈ params, p.name.str ∈ X.K.vars ∧ plainTy X.K.reals p.ty = true) (hr : okRet X.K.reals ret = true) :
    Safe b (declareFunc X.cfg X.mod name params ret body false as) s := by
  unfold Check.declareFunc
  refine Safe.bind Safe.validateDecl fun _ s1 h1 => ?_
  obtain ⟨e1, hd, hfree⟩ := validateDecl_ok h1
  obtain rfl := e1.symm
  have hctx : s.ana.ctxScope = X.g := hi.top.mp hd
  rw [hctx] at hfree
  refine Safe.bind Safe.checkNumParams fun _ s2 h2 => ?_
  have e2 : s2 = s := by
    unfold Check.checkNumParams at h2
    split at h2
    · simp only [C.error_ok] at h2
    · exact (C.pure_ok.mp h2).2
  obtain rfl := e2.symm
  refine Safe.bind (Safe.getTy? hN hi hr) fun t s3 h3 => ?_
  obtain ⟨e3, htt, -⟩ := getTy?_ok hN hi hr h3
  obtain rfl := e3.symm
  refine Safe.bind Safe.newSym fun i s4 h4 => ?_
  rw [newSym_ok] at h4
  obtain ⟨rfl, rfl⟩ := h4
  refine Safe.then ?_ fun sc _ => ?_
  · unfold makeFunc
    refine Safe.bind Safe.updSym fun _ s6 h6 => Safe.bind Safe.get fun _ s7 h7 => ?_
    rw [updSym_ok (append_last _ _)] at h6
    rw [C.get_ok] at h7
    obtain ⟨e7, e7'⟩ := h7
    obtain rfl := e7.symm
    obtain rfl := e7'.symm
    rw [append_set] at h6
    have hx6 : s6.syms[s.syms.length]? = some { name := name.str, outId := name.str, modPath := X.mod, builtin := builtinAnn as, isGlobal := true, body := .func t [] } := by
      rw [h6]; exact append_last _ _
    refine Safe.bind (Safe.defineSymbol hx6) fun _ s8 h8 => ?_
    obtain ⟨x, o, hx, e8, -⟩ := defineSymbol_ok h8
    rw [h6] at hx e8
    rw [append_last] at hx
    cases hx
    simp only [append_set, hctx] at e8
    have hw : s8 = withVar s X.g { name := name.str, outId := o, modPath := X.mod, builtin := false, isGlobal := true, body := .func t [] } := by
      rw [e8, hb]; rfl
    have hi8 : Inv X s8 := by
      rw [hw]
      exact withFn_inv hi rfl rfl rfl htt hn rfl hfree
    refine Safe.bind (Safe.paramSyms hN hps hi8) fun ps s9 h9 => ?_
    obtain ⟨hi9, hq9, hsc9, hnd, new, hnew, hlen9, hndi, hps9⟩ := paramSyms_ok hN hps hi8 (by simp) h9
    simp only [List.nil_append] at hnew
    subst hnew
    refine Safe.bind Safe.innerScope fun k s10 h10 => ?_
    obtain ⟨rfl, rfl⟩ := innerScope_ok h10
    refine Safe.then (Safe.defineParams fun p hp => ?_) fun _ _ => Safe.then Safe.updSym fun _ _ => Safe.pure
    obtain ⟨q1, q2, y, u, q3, -⟩ := hps9 p hp
    exact ⟨y, q3⟩
  · rw [hb]
    simp only [Bool.or_self, Bool.false_eq_true, if_false]
    refine Safe.then Safe.sameTy fun _ _ => ?_
    split
    · exact Safe.pure
    · exact Safe.then Safe.at fun _ _ => Safe.error

end

section
variable (F : Type) [FloatOps F] [LawfulFloatOps F] [ReadsNumerals F] {X : World} {b : Bool} {s : CState}
include F

theorem safe_func (hN : X.Names) {name : Token} {params : List Param} {ret : Option TyExpr} {body : List Stmt}
    {as : List Annotation} (hk : okTop X.K (.func name params ret (some body) false as) = true)
    (hbare : bareSs body = true → b = true) (hi : Inv X s) :
    Safe b (visitS X.cfg X.mod false false (.func name params ret (some body) false as)) s := by
  simp only [okTop, Bool.and_eq_true, Bool.or_eq_true, Bool.not_eq_true', List.contains_iff_mem, List.all_eq_true] at hk
  obtain ⟨⟨⟨⟨⟨hname, hbu⟩, hps⟩, hret⟩, hbody⟩, -⟩ := hk
  rw [visitS]
  refine Safe.next (a := ()) (C.at_ok.mpr rfl) (Safe.bind (Safe.declareFunc hN (hi.line _) hname hbu hps hret) fun ⟨i, sc⟩ s1 h1 => ?_)
  obtain ⟨-, ps, t, hm, -⟩ := declareFunc_ok hN (hi.line _) hname hbu hps hret h1
  obtain ⟨l1, hana1⟩ := hm.ana
  simp only [hbu, Bool.or_self, Bool.false_eq_true, if_false]
  refine Safe.then ?_ fun _ _ => Safe.pure
  unfold inFunction
  refine Safe.next (C.get_ok.mpr ⟨rfl, rfl⟩) (Safe.next (a := ()) (C.modify_ok.mpr rfl) ?_)
  refine Safe.then (safe_block F hN (fun st _ => safeS F hN st) hbody hbare hm.move ⟨some (toTy [] t), fun j hj => ?_⟩ hm.scope ?_)
    fun _ _ => Safe.then Safe.modify fun _ _ => Safe.pure
  · cases hj
    obtain ⟨x, hx, hxb⟩ := hm.sym
    exact ⟨x, t, ps, hx, hxb, hm.ty, rfl⟩
  · obtain ⟨tab, ht, hp⟩ := hm.tab
    refine ⟨tab, ht, ?_⟩
    rw [hp]
    show some s.ana.ctxScope = some s1.ana.ctxScope
    rw [hana1]
    rfl

theorem safe_top (hN : X.Names) {st : Stmt} (hk : okTop X.K st = true) (hb : bareS st = true → b = true) (hi : Inv X s)
    (hf : s.ana.ctxFunc = none) : Safe b (visitS X.cfg X.mod false false st) s := by
  have hfo : FuncOk X s := ⟨none, fun i h => by rw [hf] at h; cases h⟩
  cases st with
  | func name params ret body native as =>
      cases body with
      | none => simp [okTop, okS] at hk
      | some body =>
          cases native with
          | true => simp [okTop, okS] at hk
          | false => exact safe_func F hN hk (by simpa only [bareS] using hb) hi
  | _ => exact safeS F hN _ (by simpa only [okTop] using hk) hb hi hfo

/-! ## Modules -/

variable {py : PyCfg} {files : Files} {load : Path → Token → UsaMode → LState CState → Except LErr (LState CState)}

omit F [FloatOps F] [LawfulFloatOps F] [ReadsNumerals F] in
theorem liftE_error {α : Type} {f : Path} {x : Except PyErr α} {e : LErr} (h : liftE f x = .error e) : ∃ e', e = .py f e' ∧ x = .error e' := by
  cases x with
  | ok a => cases h
  | error e' => exact ⟨e', by cases h; rfl, rfl⟩

theorem safe_children (hN : X.Names) : ∀ {sts : List Stmt} {ls : LState CState} {e : LErr},
    (∀ st ∈ sts, okTop X.K st = true) → (sts.any bareS = true → b = true) → Inv X ls.rest → ls.rest.ana.ctxScope = X.g →
    ls.rest.ana.ctxFunc = none → pstr ls.ctx = X.mod → visitChildren (icfg X.cfg py files) load sts ls = .error e →
    ∃ f e', e = .py f e' ∧ Mild b e'
  | [], ls, e, _, _, _, _, _, _, h => by simp [visitChildren] at h
  | st :: sts, ls, e, hk, hb, hi, hctx, hfun, hp, h => by
      simp only [List.any_cons, Bool.or_eq_true] at hb
      rw [visitChildren_other (okTop_usa (hk st (by simp)))] at h
      have hs : Safe b (visitS X.cfg X.mod false false st) ls.rest := safe_top F hN (hk st (by simp)) (fun h => hb (.inl h)) hi hfun
      cases hr : (visitChild X.cfg ls.ctx st).run ls.rest with
      | error e' =>
          rw [show (icfg X.cfg py files).hooks.stmt ls.ctx st ls.rest = .error e' from hr] at h
          cases h
          refine ⟨_, e', rfl, ?_⟩
          unfold C.run at hr
          split at hr
          · cases hr
          · rename_i e'' he
            cases hr
            have : Safe b (visitChild X.cfg ls.ctx st) ls.rest := by
              unfold visitChild
              rw [hp]
              exact Safe.then hs fun _ _ => Safe.modify
            exact this _ he
      | ok r =>
          rw [show (icfg X.cfg py files).hooks.stmt ls.ctx st ls.rest = .ok r from hr] at h
          obtain ⟨a, s1, h1, rfl⟩ := visitChild_ok hr
          rw [hp] at h1
          obtain ⟨k1, -⟩ := top_kept F hN (hk st (by simp)) hi hctx h1
          obtain ⟨l, hl⟩ := k1.ana
          refine safe_children hN (ls := { ls with rest := pushed s1 a }) (fun x hx => hk x (by simp [hx])) (fun h => hb (.inr h))
            (k1.inv.pushed a) ?_ ?_ hp h
          · show s1.ana.ctxScope = X.g
            rw [hl]; exact hctx
          · show s1.ana.ctxFunc = none
            rw [hl]; exact hfun

/-- On a program of the fragment `visit_module` ends with the program, with an error that is reported, or where `b`
allows it with an `AttributeError`. -/
theorem safe_tree {K : Frag} {cfg : CCfg} {t : Tree} {ls : LState CState} {main : Path} {e : LErr}
    (hctx : ls.ctx = main) (hk : okTree K t = true) (hb : t.stmts.any bareS = true → b = true)
    (ha : builtinAnn t.annotations = false) {lp : String} (hs : startOk K lp ls.rest = true)
    (h : visitTree (icfg cfg py files) load t ls = .error e) : ∃ f e', e = .py f e' ∧ Mild b e' := by
  simp only [visitTree] at h
  cases h0 : liftE ls.ctx ((icfg cfg py files).hooks.annotations ls.ctx t.annotations ls.rest) with
  | error e0 =>
      obtain ⟨e', rfl, he⟩ := liftE_error h0
      exfalso
      change (openModule cfg ls.ctx t.annotations).run ls.rest = _ at he
      unfold openModule at he
      rw [show t.annotations.find? (fun a => String.ofList a.name == "embutido") = none from
        List.find?_eq_none.mpr fun a ham hc => by
          unfold builtinAnn at ha
          rw [List.any_eq_false] at ha
          exact ha a ham hc] at he
      cases he
  | ok r0 =>
  rw [h0] at h
  change (visitChildren _ _ _ _ >>= _) = _ at h
  have e0 := openModule_ok ha (liftE_ok h0)
  cases h1 : visitChildren (icfg cfg py files) load t.stmts { ls with log := ls.log ++ [ls.ctx], rest := r0 } with
  | error e1 =>
      rw [h1] at h
      cases h
      obtain ⟨hN, htop⟩ := names_of (s := ls.rest) (cfg := cfg) (mod := pstr main) (lp := lp) (sf := ls.rest) hk
      obtain ⟨hi, hc, hloop, hfun, htg, hv⟩ := start_inv (cfg := cfg) (mod := pstr main) (lp := lp) (sf := ls.rest) hs
      have hi0 : Inv (worldOf K cfg (pstr main) lp ls.rest ls.rest) r0 := by rw [e0]; exact hi.reopen _
      exact safe_children F hN (X := worldOf K cfg (pstr main) lp ls.rest ls.rest) htop hb hi0 (by show r0.ana.ctxScope = _; rw [e0]; exact hc)
        (by show r0.ana.ctxFunc = _; rw [e0]; exact hfun) (by rw [← hctx]; rfl) h1
  | ok ls1 =>
  exfalso
  rw [h1] at h
  change (liftE _ _ >>= _) = _ at h
  obtain ⟨hN, htop⟩ := names_of (s := ls.rest) (cfg := cfg) (mod := pstr main) (lp := lp) (sf := ls1.rest) hk
  obtain ⟨hi, hc, hloop, hfun, htg, hv⟩ := start_inv (cfg := cfg) (mod := pstr main) (lp := lp) (sf := ls1.rest) hs
  have hi0 : Inv (worldOf K cfg (pstr main) lp ls.rest ls1.rest) r0 := by rw [e0]; exact hi.reopen _
  have hc0 : r0.ana.ctxScope = (worldOf K cfg (pstr main) lp ls.rest ls1.rest).g := by rw [e0]; exact hc
  obtain ⟨⟨himp, hctx1⟩, hkept⟩ := children_kept F hN (ls := { ls with log := ls.log ++ [ls.ctx], rest := r0 }) htop hi0 hc0
    (by rw [← hctx]; rfl) h1
  have hf := hkept.inv
  obtain ⟨l1, hana1⟩ := hkept.ana
  have hg1 : ls1.rest.ana.globalScope = ls.rest.ana.globalScope := by rw [hana1]; show r0.ana.globalScope = _; rw [e0]
  obtain ⟨as, ts, -, ho, hlen, hts, -⟩ := children_typed (F := F)
      (L := ⟨⟨ls1.rest.syms.map CSym.toSym, ls1.rest.scopes⟩, "", fun _ _ => none, fun _ _ => none⟩)
      hN rfl hf (ls := { ls with log := ls.log ++ [ls.ctx], rest := r0 }) (Γ := []) (bn := false) (xs := [])
      (os := ls.rest.open_) htop hi0 hc0 (by rw [← hctx]; rfl) h1 (Later.refl _) (by rw [e0]; exact htg) (by rw [e0]; exact hloop)
      (by rw [e0]; exact hfun) (by rw [e0]; exact ⟨hv.see, hv.old⟩) (by rw [e0])
  have hu : withUsa t.stmts as = as := withUsa_none (fun st hst => okTop_usa (htop st hst)) hlen
  have hctx1' : ls1.ctx = main := hctx1.trans hctx
  have hclose : ∃ r2, closeModule ls1.ctx t ls1.rest = .ok ((), r2) := by
    unfold closeModule
    refine ⟨{ ls1.rest with open_ := ls.rest.open_, mods := ls1.rest.mods.filter (·.path != pstr ls1.ctx) ++
      [⟨pstr ls1.ctx, false, ls1.rest.ana.globalScope, ts⟩] }, C.bind_ok.mpr ⟨_, _, C.get_ok.mpr ⟨rfl, rfl⟩, ?_⟩⟩
    rw [ho]
    refine C.bind_ok.mpr ⟨ts, ls1.rest, ?_, C.modify_ok.mpr rfl⟩
    rw [List.nil_append, hu, hctx1', hg1]
    exact hts
  obtain ⟨r2, hclose⟩ := hclose
  have : (icfg cfg py files).hooks.finish ls1.ctx t ls1.rest = .ok r2 := by
    show (closeModule ls1.ctx t).run ls1.rest = _
    unfold C.run
    rw [hclose]
  rw [this] at h
  cases h

end

end Amanda.Check

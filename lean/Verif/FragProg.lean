import Verif.FragTop
import Verif.ImportsLemmas
import Verif.TypedProg

/-!
# Programs of `Verif.Frag` that the checker accepts keep to the typing rules
-/

namespace Amanda.Check

open Source Imports

section
variable {F : Type} [FloatOps F] {X : World} {L : Lang} {s s' : CState} {Γ : List SymId}

/-! ## One statement -/

section
variable [LawfulFloatOps F] [ReadsNumerals F]

theorem top_any (hN : X.Names) (hL : X.Lang L) (hf : Inv X X.sf) {st : Stmt} {a : AStmt} (hk : okTop X.K st = true)
    (hi : Inv X s) (hctx : s.ana.ctxScope = X.g) (h : visitS X.cfg X.mod false false st s = .ok (a, s')) :
    TopDone F X L s s' a := by
  cases st with
  | func name params ret body native as =>
      cases body with
      | none => simp [okTop, okS] at hk
      | some body =>
          cases native with
          | true => simp [okTop, okS] at hk
          | false => exact top_func hN hL hf hk hi hctx h
  | _ => exact top_stmt hN hL hf (by simpa only [okTop] using hk) hi hctx h

end

/-- What is kept by statements of a module. -/
structure Kept (X : World) (s s' : CState) : Prop where
  inv : Inv X s'
  ana : ∃ l, s'.ana = { s.ana with line := l }
  later : Later s s'
  top : TopG X s → TopG X s'
  mods : s'.mods = s.mods

omit [FloatOps F] in
theorem Kept.refl (hi : Inv X s) : Kept X s s := ⟨hi, ⟨s.ana.line, rfl⟩, .refl s, id, rfl⟩

omit [FloatOps F] in
theorem Kept.trans {s1 s2 s3 : CState} (h : Kept X s1 s2) (h' : Kept X s2 s3) : Kept X s1 s3 := by
  refine ⟨h'.inv, ?_, h.later.trans h'.later, h'.top ∘ h.top, h'.mods.trans h.mods⟩
  obtain ⟨l, hl⟩ := h.ana
  obtain ⟨m, hm⟩ := h'.ana
  exact ⟨m, by rw [hm, hl]⟩

/-- The state with a visited statement. -/
def pushed (s : CState) (a : AStmt) : CState :=
  { s with open_ := match s.open_ with
    | (b, xs) :: rest => (b, xs ++ [a]) :: rest
    | [] => [] }

omit [FloatOps F] in
theorem Inv.pushed (h : Inv X s) (a : AStmt) : Inv X (pushed s a) :=
  ⟨h.reg, h.yield, h.glob, h.ctx, h.ctxLt, h.top, h.base, h.gsb, h.sbase, h.wf, h.root, h.inner, h.innerNames, h.old,
    h.new, h.prims, h.syms, h.global, h.bound, h.once, h.libs, h.deep, h.numbered, h.away, h.entry⟩

omit [FloatOps F] in
theorem Inv.reopen (h : Inv X s) (o : List (Bool × List AStmt)) : Inv X { s with open_ := o } :=
  ⟨h.reg, h.yield, h.glob, h.ctx, h.ctxLt, h.top, h.base, h.gsb, h.sbase, h.wf, h.root, h.inner, h.innerNames, h.old,
    h.new, h.prims, h.syms, h.global, h.bound, h.once, h.libs, h.deep, h.numbered, h.away, h.entry⟩

omit [FloatOps F] in
theorem Later.pushed (s : CState) (a : AStmt) : Later s (pushed s a) := ⟨(Later.refl s).syms, (Later.refl s).scopes⟩

omit [FloatOps F] in
theorem Later.unpushed (s : CState) (a : AStmt) : Later (Check.pushed s a) s := ⟨(Later.refl s).syms, (Later.refl s).scopes⟩

omit [FloatOps F] in
theorem visitChild_ok {cfg : CCfg} {p : Path} {st : Stmt} {r : CState} (h : (visitChild cfg p st).run s = .ok r) :
    ∃ a s1, visitS cfg (pstr p) false false st s = .ok (a, s1) ∧ r = pushed s1 a := by
  unfold C.run at h
  split at h
  · rename_i u s2 hv
    cases h
    simp only [visitChild, C.bind_ok, C.modify_ok] at hv
    obtain ⟨a, s1, h1, h2⟩ := hv
    exact ⟨a, s1, h1, h2⟩
  · cases h

omit [FloatOps F] in
theorem okTop_usa {K : Frag} {st : Stmt} (h : okTop K st = true) : ¬ ∃ a b c, st = Stmt.usa a b c := by
  rintro ⟨a, b, c, rfl⟩
  simp [okTop, okS] at h

variable (F) in
theorem top_kept [LawfulFloatOps F] [ReadsNumerals F] (hN : X.Names) {st : Stmt} {a : AStmt} (hk : okTop X.K st = true)
    (hi : Inv X s) (hctx : s.ana.ctxScope = X.g) (h : visitS X.cfg X.mod false false st s = .ok (a, s')) :
    Kept X s s' ∧ s'.open_ = s.open_ := by
  obtain ⟨h1, h2, h3, h4, h5, h6, -⟩ := top_any (F := F) (X := X.until s)
    (L := ⟨⟨s.syms.map CSym.toSym, s.scopes⟩, "", fun _ _ => none, fun _ _ => none⟩)
    ⟨hN.apart, hN.vars, hN.fns, hN.libs, hN.away⟩ rfl (hi.until s) hk (hi.until s) hctx h
  exact ⟨⟨h1.until X.sf, h2, h3, h4, h5⟩, h6⟩

/-! ## Lists of statements -/

variable {py : PyCfg} {files : Files} {load : Path → Token → UsaMode → LState CState → Except LErr (LState CState)}

/-- A run of the statements of a module, one at a time. -/
theorem children_cons {cfg : CCfg} {st : Stmt} {sts : List Stmt} {ls ls' : LState CState} (hu : ¬ ∃ a b c, st = Stmt.usa a b c)
    (h : visitChildren (icfg cfg py files) load (st :: sts) ls = .ok ls') :
    ∃ a s1, visitS cfg (pstr ls.ctx) false false st ls.rest = .ok (a, s1) ∧
      visitChildren (icfg cfg py files) load sts { ls with rest := pushed s1 a } = .ok ls' := by
  rw [visitChildren_other hu] at h
  cases hr : (visitChild cfg ls.ctx st).run ls.rest with
  | error e =>
      rw [show (icfg cfg py files).hooks.stmt ls.ctx st ls.rest = .error e from hr] at h
      cases h
  | ok r =>
      rw [show (icfg cfg py files).hooks.stmt ls.ctx st ls.rest = .ok r from hr] at h
      obtain ⟨a, s1, h1, rfl⟩ := visitChild_ok hr
      exact ⟨a, s1, h1, h⟩

variable (F) in
theorem children_kept [LawfulFloatOps F] [ReadsNumerals F] (hN : X.Names) : ∀ {sts : List Stmt} {ls ls' : LState CState},
    (∀ st ∈ sts, okTop X.K st = true) → Inv X ls.rest → ls.rest.ana.ctxScope = X.g → pstr ls.ctx = X.mod →
    visitChildren (icfg X.cfg py files) load sts ls = .ok ls' →
    (ls'.imports = ls.imports ∧ ls'.ctx = ls.ctx) ∧ Kept X ls.rest ls'.rest
  | [], ls, ls', _, hi, _, _, h => by
      simp only [visitChildren, Except.ok.injEq] at h
      subst h
      exact ⟨⟨rfl, rfl⟩, .refl hi⟩
  | st :: sts, ls, ls', hk, hi, hctx, hp, h => by
      obtain ⟨a, s1, h1, h2⟩ := children_cons (okTop_usa (hk st (by simp))) h
      rw [hp] at h1
      obtain ⟨k1, ho⟩ := top_kept F hN (hk st (by simp)) hi hctx h1
      have hctx1 : s1.ana.ctxScope = X.g := by
        obtain ⟨l, hl⟩ := k1.ana
        rw [hl]; exact hctx
      obtain ⟨h3, k2⟩ := children_kept hN (ls := { ls with rest := pushed s1 a }) (fun x hx => hk x (by simp [hx]))
        (k1.inv.pushed a) hctx1 hp h2
      refine ⟨h3, k1.trans ⟨k2.inv, k2.ana, ⟨k2.later.syms, k2.later.scopes⟩, k2.top, k2.mods⟩⟩

omit [FloatOps F] in
theorem funcDecls_cons (t : TStmt) (ts : List TStmt) : funcDecls (t :: ts) = funcDecls [t] ++ funcDecls ts := by
  cases t with
  | func l i b => cases b; rfl
  | _ => rfl

theorem children_typed [LawfulFloatOps F] [ReadsNumerals F] (hN : X.Names) (hL : X.Lang L) (hf : Inv X X.sf) :
    ∀ {sts : List Stmt} {ls ls' : LState CState} {Γ : List SymId} {bn : Bool} {xs : List AStmt} {os : List (Bool × List AStmt)},
    (∀ st ∈ sts, okTop X.K st = true) → Inv X ls.rest → ls.rest.ana.ctxScope = X.g → pstr ls.ctx = X.mod →
    visitChildren (icfg X.cfg py files) load sts ls = .ok ls' → Later ls'.rest X.sf → TopG X ls.rest →
    ls.rest.ana.inLoop = false → ls.rest.ana.ctxFunc = none → Vis X ls.rest X.g Γ → ls.rest.open_ = (bn, xs) :: os →
    ∃ as ts Γ', ls'.rest.open_ = (bn, xs ++ as) :: os ∧ as.length = sts.length ∧
      toSs X.mod X.g true as X.sf = .ok (ts, X.sf) ∧ TSs F L X.table none X.K.top Γ (some X.g) ts Γ' ∧
      (∀ d ∈ funcDecls ts, FnGood F X L d) ∧
      (((funcDecls ts).map (·.1)).Nodup ∧ ∀ d ∈ funcDecls ts, ls.rest.syms.length ≤ d.1) ∧ Vis X ls'.rest X.g Γ' ∧
      (∀ (j : Nat) y t ps, ls'.rest.syms[j]? = some y → ls.rest.syms[j]? = none → y.body = .func t ps → ∃ d ∈ funcDecls ts, d.1 = j)
  | [], ls, ls', Γ, bn, xs, os, _, hi, _, _, h, _, _, _, _, hv, ho => by
      simp only [visitChildren, Except.ok.injEq] at h
      subst h
      refine ⟨[], [], Γ, by simpa using ho, rfl, by simp [toSs, C.pure_ok], .nil, by simp [funcDecls], by simp [funcDecls], hv, fun j y t ps hy hn => ?_⟩
      rw [hn] at hy; cases hy
  | st :: sts, ls, ls', Γ, bn, xs, os, hk, hi, hctx, hp, h, hl, htg, hloop, hfun, hv, ho => by
      obtain ⟨a, s1, h1, h2⟩ := children_cons (okTop_usa (hk st (by simp))) h
      rw [hp] at h1
      obtain ⟨hi1, ⟨l1, ha1⟩, hl1, htg1, hm1, ho1, hd1⟩ := top_any (F := F) hN hL hf (hk st (by simp)) hi hctx h1
      have hctx1 : s1.ana.ctxScope = X.g := by rw [ha1]; exact hctx
      obtain ⟨-, k2⟩ := children_kept F hN (ls := { ls with rest := pushed s1 a }) (fun x hx => hk x (by simp [hx]))
        (hi1.pushed a) hctx1 hp h2
      have hl1' : Later s1 X.sf := by
        have := k2.later.trans hl
        exact ⟨this.syms, this.scopes⟩
      obtain ⟨Γ1, hsub, hv1, ht1⟩ := hd1 Γ hv
      obtain ⟨t1, e1, y1, g1, n1, c1⟩ := ht1 hl1' htg hloop hfun
      obtain ⟨as, ts, Γ2, e2, l2, e3, y2, g2, ⟨n2, b2⟩, v2, c2⟩ := children_typed hN hL hf (ls := { ls with rest := pushed s1 a }) (Γ := Γ1) (bn := bn)
        (xs := xs ++ [a]) (os := os) (fun x hx => hk x (by simp [hx])) (hi1.pushed a) hctx1 hp h2 hl (htg1 htg)
        (by show s1.ana.inLoop = _; rw [ha1]; exact hloop) (by show s1.ana.ctxFunc = _; rw [ha1]; exact hfun) ⟨hv1.see, hv1.old⟩
        (by show (pushed s1 a).open_ = _; unfold pushed; rw [ho1, ho])
      refine ⟨a :: as, t1 :: ts, Γ2, by rw [e2]; simp, by simp [l2], ?_, .cons y1 y2, ?_, ?_, v2, ?_⟩
      · simp only [toSs]
        exact C.bind_ok.mpr ⟨_, _, e1, C.bind_ok.mpr ⟨_, _, e3, rfl⟩⟩
      · intro d hd
        rw [funcDecls_cons, List.mem_append] at hd
        rcases hd with hd | hd
        · exact g1 d hd
        · exact g2 d hd
      · have hlen : ls.rest.syms.length ≤ s1.syms.length := hl1.symsLen
        rw [funcDecls_cons]
        rcases n1 with e | ⟨d, e, hlo, hhi⟩ <;> rw [e]
        · exact ⟨n2, fun x hx => Nat.le_trans hlen (b2 x hx)⟩
        · refine ⟨?_, fun x hx => ?_⟩
          · rw [List.map_append, List.map_cons, List.map_nil, List.singleton_append, List.nodup_cons]
            refine ⟨fun hm => ?_, n2⟩
            obtain ⟨d', hd', e'⟩ := List.mem_map.mp hm
            exact absurd (e' ▸ b2 d' hd' : s1.syms.length ≤ d.1) (Nat.not_le_of_lt hhi)
          · rcases List.mem_append.mp hx with hx | hx
            · rw [List.mem_singleton.mp hx]; exact hlo
            · exact Nat.le_trans hlen (b2 x hx)
      · intro j y t ps hy hn hb
        rw [funcDecls_cons]
        cases h3 : s1.syms[j]? with
        | none =>
            obtain ⟨d, hd, e⟩ := c2 j y t ps hy h3 hb
            exact ⟨d, List.mem_append_right _ hd, e⟩
        | some z =>
            obtain ⟨w, hw, e, _⟩ := k2.later.syms j z h3
            rw [hy] at hw
            cases hw
            obtain ⟨d, hd, e'⟩ := c1 j z t ps h3 hn (e.symm.trans hb)
            exact ⟨d, List.mem_append_left _ hd, e'⟩

/-! ## Declarations -/

/-- The type that is written. -/
def denote : TyExpr → CTy
  | .name tok _ _ => .prim (if tok.str = "int" then .int else if tok.str = "real" then .real else
      if tok.str = "bool" then .bool else .texto)
  | .array el _ => .vec (denote el)
  | .path .. => .prim .texto

omit [FloatOps F] in
theorem getTy_exact (hN : X.Names) (h : Inv X s) :
    ∀ {ty : TyExpr} {t : CTy} {s' : CState}, plainTy X.K.reals ty = true → getTy ty s = .ok (t, s') → t = denote ty
  | .name tok false none, t, s', hp, ht => by
      simp only [plainTy] at hp
      have hw : ∃ tag, (tok.str, tag) ∈ words ∧ denote (.name tok false none) = .prim tag := by
        unfold typeWord at hp
        simp only [Bool.or_eq_true, Bool.and_eq_true, beq_iff_eq] at hp
        rcases hp with ((e | e) | e) | ⟨-, e⟩ <;> rw [e] <;> simp [words, denote, e]
      obtain ⟨tag, hw, hd⟩ := hw
      unfold getTy at ht
      simp only [C.bind_ok] at ht
      obtain ⟨i, s1, h1, u, s2, h2, h3⟩ := ht
      obtain ⟨⟨x, hx, hb⟩, rfl⟩ := typeSym_ok hN h hw h1
      obtain ⟨rfl, rfl⟩ := symTy_prim hx hb h2
      simp only [constructTy, Bool.false_eq_true, if_false, C.pure_ok] at h3
      rw [hd, h3.1]
  | .array el false, t, s', hp, ht => by
      simp only [plainTy] at hp
      unfold getTy at ht
      simp only [C.bind_ok] at ht
      obtain ⟨u, s1, h1, h2⟩ := ht
      simp only [Bool.false_eq_true, if_false, C.pure_ok] at h2
      rw [h2.1, getTy_exact hN h hp h1]
      rfl
  | .name _ true _, _, _, hp, _ | .name _ false (some _), _, _, hp, _ | .array _ true, _, _, hp, _
  | .path .., _, _, hp, _ => by simp [plainTy] at hp

omit [FloatOps F] in
theorem declareVar_exact (hN : X.Names) (hi : Inv X s) {cfg : CCfg} {mod : String} {tok name : Token} {ty : TyExpr} {init : Option Expr}
    {i : SymId} {t : CTy} (hp : plainTy X.K.reals ty = true) (h : declareVar cfg mod tok name ty init s = .ok ((i, t), s')) :
    t = denote ty := by
  unfold declareVar at h
  rw [C.bind_ok] at h
  obtain ⟨_, s1, h1, h⟩ := h
  obtain ⟨hfree, e1⟩ := assertFree_ok h1
  obtain rfl := e1.symm
  rw [C.bind_ok] at h
  obtain ⟨u, s2, h2, h⟩ := h
  have hu := getTy_exact hN hi hp h2
  rw [← hu]
  rw [C.bind_ok] at h
  obtain ⟨_, _, _, h⟩ := h
  rw [C.bind_ok] at h
  obtain ⟨_, _, _, h⟩ := h
  rw [C.bind_ok] at h
  obtain ⟨_, _, _, h⟩ := h
  cases init with
  | none =>
      simp only [C.bind_ok] at h
      obtain ⟨_, _, _, h⟩ := h
      split at h
      · simp only [C.error_ok] at h
      · rw [C.pure_ok] at h
        have := h.1; simp at this; exact this.2
  | some e =>
      cases e with
      | assign a b r =>
          simp only at h
          split at h
          · simp only [C.error_ok] at h
          · rw [C.pure_ok] at h
            have := h.1; simp at this; exact this.2
      | _ =>
          rw [C.pure_ok] at h
          have := h.1; simp at this; exact this.2

variable (F) in
/-- A declaration makes a variable of the type that is written. -/
theorem top_decl [LawfulFloatOps F] [ReadsNumerals F] (hN : X.Names) {tok name : Token} {ty : TyExpr} {init : Option Expr} {a : AStmt}
    (hk : okTop X.K (.varDecl tok name ty init) = true) (hi : Inv X s) (hctx : s.ana.ctxScope = X.g)
    (h : visitS X.cfg X.mod false false (.varDecl tok name ty init) s = .ok (a, s')) :
    ∃ (i : Nat) (x : CSym), X.b ≤ i ∧ s'.syms[i]? = some x ∧ x.body = .var (denote ty) ∧ x.name = name.str ∧ x.isGlobal = true ∧
      lookIn s'.scopes X.g name.str = some i := by
  have fin : ∀ {s0 : CState} {o : String} {l : Nat}, Inv X s0 → s0.ana = { s.ana with line := l } →
      s' = (withVar s0 s0.ana.ctxScope (declSym name.str o X.mod (denote ty) (decide (s0.ana.depth = 0)))).atLine s'.ana.line →
      ∃ (i : Nat) (x : CSym), X.b ≤ i ∧ s'.syms[i]? = some x ∧ x.body = .var (denote ty) ∧ x.name = name.str ∧ x.isGlobal = true ∧
        lookIn s'.scopes X.g name.str = some i := by
    intro s0 o l hi0 hana e
    have hc : s0.ana.ctxScope = X.g := by rw [hana]; exact hctx
    have hd : s0.ana.depth = 0 := hi0.top.mpr hc
    refine ⟨s0.syms.length, declSym name.str o X.mod (denote ty) (decide (s0.ana.depth = 0)), hi0.base, ?_, rfl, rfl, by simp [declSym, hd], ?_⟩
    · rw [e]; exact append_last _ _
    · rw [e, ← hc]; exact withVar_look hi0.ctxLt
  simp only [okTop] at hk
  cases init with
  | none =>
      simp only [okS, Bool.and_eq_true, List.contains_iff_mem] at hk
      simp only [visitS, C.bind_ok, C.at_ok, C.pure_ok] at h
      obtain ⟨_, s0, e0, ⟨i, t⟩, s1, h1, _, s2, h2, rfl, rfl⟩ := h
      have hi0 : Inv X s0 := by rw [e0]; exact hi.line _
      have ht := declareVar_exact hN hi0 hk.2 h1
      obtain ⟨hd, hfree, hii, hz, o, e1, ho⟩ := declareVar_ok hN hi0 hk.2 h1
      subst hii ht
      have hx : s1.syms[s0.syms.length]? = some (declSym name.str o X.mod (denote ty) false) := by rw [e1]; exact append_last _ _
      have e2 := declaredVar_ok hx h2
      have e2' := declared_eq e1 (show s1 = s1.atLine s1.ana.line from rfl) e2
      exact fin (l := tok.line) hi0 (by rw [e0]; rfl) (by rw [e2']; rfl)
  | some e =>
      cases e with
      | assign tk l r =>
          cases l with
          | var tv =>
              simp only [okS, Bool.and_eq_true, List.contains_iff_mem, beq_iff_eq, Bool.not_eq_true'] at hk
              obtain ⟨⟨⟨⟨⟨hname, hty⟩, htv⟩, hke⟩, htar⟩, huse⟩ := hk
              simp only [visitS, C.bind_ok, C.at_ok, C.pure_ok] at h
              obtain ⟨_, s0, e0, ⟨i, t⟩, s1, h1, x, s2, h2, _, s3, h3, rfl, rfl⟩ := h
              have hi0 : Inv X s0 := by rw [e0]; exact hi.line _
              have ht := declareVar_exact hN hi0 hty h1
              obtain ⟨hd, hfree, hii, -, o, e1, ho⟩ := declareVar_ok hN hi0 hty h1
              subst hii ht
              have hi1 : Inv X s1 := by
                rw [e1]
                exact withVar_inv hi0 rfl rfl rfl hd hname hfree hi0.ctxLt (fun h => by cases h) (hi0.named ho)
              obtain ⟨⟨l, e2⟩, -⟩ := visitE_line F hN hi1 (w := .rhs) (e := .assign tk (.var tv) r) (by
                simp only [okE, Bool.and_eq_true, List.contains_iff_mem]
                exact ⟨⟨⟨by decide, htv ▸ hname⟩, hke⟩, htar⟩) h2
              have hx : s2.syms[s0.syms.length]? = some (declSym name.str o X.mod (denote ty) false) := by
                rw [e2, e1]; exact append_last _ _
              have e3 := declaredVar_ok hx h3
              have e3' := declared_eq e1 e2 e3
              exact fin (l := tok.line) hi0 (by rw [e0]; rfl) (by rw [e3']; rfl)
          | _ => simp [okS] at hk
      | _ => simp [okS] at hk

variable (F) in
theorem children_decl [LawfulFloatOps F] [ReadsNumerals F] (hN : X.Names) : ∀ {sts : List Stmt} {ls ls' : LState CState},
    (∀ st ∈ sts, okTop X.K st = true) → Inv X ls.rest → ls.rest.ana.ctxScope = X.g → pstr ls.ctx = X.mod →
    visitChildren (icfg X.cfg py files) load sts ls = .ok ls' →
    ∀ {tok name : Token} {ty : TyExpr} {init : Option Expr}, .varDecl tok name ty init ∈ sts →
    ∃ (i : Nat) (x : CSym), X.b ≤ i ∧ ls'.rest.syms[i]? = some x ∧ x.body = .var (denote ty) ∧ x.name = name.str ∧ x.isGlobal = true ∧
      lookIn ls'.rest.scopes X.g name.str = some i
  | [], _, _, _, _, _, _, _, _, _, _, _, hm => by cases hm
  | st :: sts, ls, ls', hk, hi, hctx, hp, h, tok, name, ty, init, hm => by
      obtain ⟨a, s1, h1, h2⟩ := children_cons (okTop_usa (hk st (by simp))) h
      rw [hp] at h1
      obtain ⟨k1, ho⟩ := top_kept F hN (hk st (by simp)) hi hctx h1
      have hctx1 : s1.ana.ctxScope = X.g := by
        obtain ⟨l, hl⟩ := k1.ana
        rw [hl]; exact hctx
      rcases List.mem_cons.mp hm with rfl | hm
      · obtain ⟨i, x, hb, hx, hbody, hname, hglob, hlook⟩ := top_decl F hN (hk _ (by simp)) hi hctx h1
        obtain ⟨-, k2⟩ := children_kept F hN (ls := { ls with rest := pushed s1 a }) (fun x hx => hk x (by simp [hx]))
          (k1.inv.pushed a) hctx1 hp h2
        obtain ⟨y, hy, e1, e2, e3⟩ := k2.later.syms i x hx
        exact ⟨i, y, hb, hy, e1.trans hbody, e2.trans hname, e3.trans hglob, k2.later.look hlook⟩
      · exact children_decl hN (ls := { ls with rest := pushed s1 a }) (fun x hx => hk x (by simp [hx]))
          (k1.inv.pushed a) hctx1 hp h2 hm

/-! ## The beginning -/

/-- The tables hold a function of the library, from the module with path `lp`. -/
def libOk (lp : String) (s : CState) (n : String) : Bool :=
  match libSig n, (lookIn s.scopes s.ana.globalScope n).bind fun i => s.syms[i]? with
  | some (tags, t), some x => decide (x.name = n) && x.isGlobal && x.builtin && decide (x.modPath = lp) &&
      decide (x.body = .func (.prim t) x.params) && decide (x.params.length = tags.length) &&
      (x.params.zip tags).all fun p => match s.syms[p.1.2]? with
        | some y => decide (y.body = .var (.prim p.2))
        | none => false
  | _, _ => false

/-- The tables hold the types of the language and nothing that a program could mention, all of it from the module
with path `lp`. -/
def startOk (K : Frag) (lp : String) (s : CState) : Bool :=
  (s.syms.all fun x => decide (x.modPath = lp)) && !s.ana.ctxReg && s.ana.yield.isNone && s.ana.ctxScope == s.ana.globalScope && s.ana.depth == 0 && !s.ana.inLoop &&
  s.ana.ctxFunc.isNone && decide (s.ana.globalScope < s.scopes.length) &&
  (s.scopes.zipIdx.all fun p => match p.1.parent with
    | some q => decide (q < p.2)
    | none => true) &&
  (match s.scopes[s.ana.globalScope]? with
    | some tab => tab.parent.isNone && tab.symbols.all fun p => !K.fns.contains p.1 && (match s.syms[p.2]? with
      | some x => !x.canEvaluate
      | none => false)
    | none => false) &&
  (s.scopes.all fun tab => tab.symbols.all fun p => decide (p.2 < s.syms.length)) &&
  (words.all fun w => match (lookIn s.scopes s.ana.globalScope w.1).bind fun i => s.syms[i]? with
    | some x => decide (x.body = .prim w.2)
    | none => false) &&
  K.libs.all (libOk lp s)

/-- The world of a program: what is there before it, and the state in the end. -/
def worldOf (K : Frag) (cfg : CCfg) (mod lp : String) (s sf : CState) : World :=
  ⟨K, cfg, mod, s.ana.globalScope, s.syms.length, s.scopes.length, sf, lp⟩

omit [FloatOps F] in
theorem forall₂_zip {α β : Type} {R : α → β → Prop} : ∀ {xs : List α} {ys : List β}, xs.length = ys.length →
    (∀ p ∈ xs.zip ys, R p.1 p.2) → List.Forall₂ R xs ys
  | [], [], _, _ => .nil
  | [], _ :: _, h, _ => by simp at h
  | _ :: _, [], h, _ => by simp at h
  | x :: xs, y :: ys, h, hr =>
      .cons (hr (x, y) (by simp)) (forall₂_zip (by simpa using h) fun p hp => hr p (by simp [hp]))

omit [FloatOps F] in
theorem libOk_provided {K : Frag} {cfg : CCfg} {mod lp : String} {sf : CState} {n : String} (h : libOk lp s n = true) :
    ∃ i, lookIn s.scopes s.ana.globalScope n = some i ∧ Provided (worldOf K cfg mod lp s sf) s n i := by
  unfold libOk at h
  split at h
  · rename_i tags t x hs hx
    obtain ⟨i, hi, hx⟩ := Option.bind_eq_some_iff.mp hx
    simp only [Bool.and_eq_true, decide_eq_true_eq, List.all_eq_true] at h
    obtain ⟨⟨⟨⟨⟨⟨h1, h2⟩, h3⟩, h4⟩, h5⟩, h6⟩, h7⟩ := h
    refine ⟨i, hi, (List.getElem?_eq_some_iff.mp hx).1, x, x.params, tags, t, hx, h1, h2, h3, h4, hs, h5, forall₂_zip h6 fun p hp => ?_⟩
    have := h7 p hp
    cases hy : s.syms[p.1.2]? with
    | none => rw [hy] at this; cases this
    | some y =>
        rw [hy] at this
        exact ⟨(List.getElem?_eq_some_iff.mp hy).1, y, rfl, of_decide_eq_true this⟩
  · cases h

omit [FloatOps F] in
theorem start_inv {K : Frag} {cfg : CCfg} {mod lp : String} {sf : CState} (h : startOk K lp s = true) :
    Inv (worldOf K cfg mod lp s sf) s ∧ s.ana.ctxScope = s.ana.globalScope ∧ s.ana.inLoop = false ∧ s.ana.ctxFunc = none ∧
      TopG (worldOf K cfg mod lp s sf) s ∧ Vis (worldOf K cfg mod lp s sf) s s.ana.globalScope [] := by
  simp only [startOk, Bool.and_eq_true, Bool.not_eq_true', Option.isNone_iff_eq_none, beq_iff_eq, decide_eq_true_eq,
    List.all_eq_true] at h
  obtain ⟨⟨⟨⟨⟨⟨⟨⟨⟨⟨⟨⟨h0, h1⟩, h2⟩, h3⟩, h4⟩, h5⟩, h6⟩, h7⟩, h8⟩, h9⟩, h11⟩, h10⟩, h12⟩ := h
  have hbound : ∀ (k : Nat) tab (i : Nat), s.scopes[k]? = some tab → i ∈ ScopeTab.ids tab → i < s.syms.length := by
    intro k tab i hk hm
    obtain ⟨p, hp, rfl⟩ := List.mem_map.mp hm
    exact h11 tab (List.mem_of_getElem? hk) p hp
  have hno : ∀ (k : Nat) n, s.scopes.length ≤ k → lookIn s.scopes k n = none := by
    intro k n hk
    unfold lookIn
    rw [List.getElem?_eq_none hk]
    rfl
  have htab : s.scopes[s.ana.globalScope]? = some s.scopes[s.ana.globalScope] := List.getElem?_eq_getElem h7
  rw [htab] at h9
  simp only [Bool.and_eq_true, Option.isNone_iff_eq_none, List.all_eq_true, Bool.not_eq_true', List.contains_eq_mem,
    decide_eq_false_iff_not] at h9
  have hg : ∀ n (i : Nat), lookIn s.scopes s.ana.globalScope n = some i → n ∉ K.fns ∧ ∃ x, s.syms[i]? = some x ∧ x.canEvaluate = false := by
    intro n i hl
    unfold lookIn at hl
    rw [htab] at hl
    simp only [Option.bind_some] at hl
    unfold look at hl
    cases hfd : (s.scopes[s.ana.globalScope].symbols).find? (·.1 == n) with
    | none => rw [hfd] at hl; cases hl
    | some p =>
        rw [hfd] at hl
        cases hl
        have hm := List.mem_of_find?_eq_some hfd
        have hpn := List.find?_some hfd
        simp only [beq_iff_eq] at hpn
        subst hpn
        obtain ⟨q1, q2⟩ := h9.2 p hm
        refine ⟨q1, ?_⟩
        cases hx : s.syms[p.2]? with
        | none => rw [hx] at q2; cases q2
        | some x => rw [hx] at q2; exact ⟨x, rfl, by simpa using q2⟩
  have hlt : ∀ n (i : Nat), lookIn s.scopes s.ana.globalScope n = some i → i < s.syms.length := by
    intro n i hl
    obtain ⟨_, x, hx, _⟩ := hg n i hl
    exact (List.getElem?_eq_some_iff.mp hx).1
  refine ⟨?_, h3, h5, h6, ?_, ?_⟩
  · refine { reg := h1, yield := h2, glob := rfl, ctx := .inl h3, ctxLt := by rw [h3]; exact h7, top := ⟨fun _ => h3, fun _ => h4⟩,
             base := Nat.le_refl _, gsb := h7, sbase := Nat.le_refl _, wf := ?_, root := ?_, inner := ?_, innerNames := ?_, old := ?_,
             new := ?_, prims := ?_, syms := ?_, global := ?_, bound := hbound, once := ?_,
             libs := fun n hn => libOk_provided (h12 n hn), deep := ?_, numbered := ?_,
             away := fun i x _ hx => h0 x (List.mem_of_getElem? hx), entry := ?_ }
    · intro k tab p hk hp
      have := h8 (tab, k) (List.mem_zipIdx_iff_getElem?.mpr hk)
      simp only [hp, decide_eq_true_eq] at this
      exact this
    · intro tab ht
      rw [show s.scopes[s.ana.globalScope]? = some tab from ht] at htab
      cases htab
      exact h9.1
    · intro k tab hk hs
      exact absurd (List.getElem?_eq_some_iff.mp hk).1 (Nat.not_lt_of_le hs)
    · intro k n i hk hl
      rw [hno k n hk] at hl
      cases hl
    · intro n i hl _
      exact hg n i hl
    · intro k n i hk hl hb
      rcases hk with rfl | hk
      · exact absurd (hlt n i hl) (Nat.not_lt_of_le hb)
      · rw [hno k n hk] at hl; cases hl
    · intro w t hw
      have := h10 (w, t) hw
      show ∃ (i : Nat) (x : CSym), lookIn s.scopes s.ana.globalScope w = some i ∧ s.syms[i]? = some x ∧ x.body = .prim t
      cases hl : lookIn s.scopes s.ana.globalScope w with
      | none => rw [hl] at this; cases this
      | some i =>
          rw [hl] at this
          simp only [Option.bind_some] at this
          cases hx : s.syms[i]? with
          | none => rw [hx] at this; cases this
          | some x => rw [hx] at this; exact ⟨i, x, rfl, hx, of_decide_eq_true this⟩
    · intro i x hb hx
      exact absurd (List.getElem?_eq_some_iff.mp hx).1 (Nat.not_lt_of_le hb)
    · intro i x hb hx
      exact absurd (List.getElem?_eq_some_iff.mp hx).1 (Nat.not_lt_of_le hb)
    · intro k k' tab tab' i hb hk hm _ _
      exact absurd (hbound k tab i hk hm) (Nat.not_lt_of_le hb)
    · rw [h3, h4]
      exact .root htab h9.1
    · intro k m tab n i x _ hb ht he
      exact absurd (hbound k tab i ht (List.mem_map.mpr ⟨_, List.mem_of_getElem? he, rfl⟩)) (Nat.not_lt_of_le hb)
    · intro k tab n i hb ht he
      exact absurd (hbound k tab i ht (List.mem_map.mpr ⟨_, he, rfl⟩)) (Nat.not_lt_of_le hb)
  · intro n i x t _ hb hx
    exact absurd (List.getElem?_eq_some_iff.mp hx).1 (Nat.not_lt_of_le hb)
  · refine ⟨fun n i x t _ hx _ hb => ?_, fun i hi => by cases hi⟩
    exact absurd (List.getElem?_eq_some_iff.mp hx).1 (Nat.not_lt_of_le hb)

/-- The modules loaded before the program are those of the library. -/
def importsOk (main : Path) (imports : List (Path × Bool)) (mods : List ModInfo) : Bool :=
  imports.all fun i => pstr i.1 != pstr main && (match mods.find? (·.path == pstr i.1) with
    | some m => m.builtin && Codegen.moduleName m.path == "embutidos" && m.body.isEmpty
    | none => false)

omit [FloatOps F] in
theorem names_of {K : Frag} {t : Tree} {cfg : CCfg} {mod lp : String} {sf : CState} (h : okTree K t = true) :
    (worldOf K cfg mod lp s sf).Names ∧ ∀ st ∈ t.stmts, okTop K st = true := by
  simp only [okTree, Bool.and_eq_true, List.all_eq_true, Bool.not_eq_true', List.contains_eq_mem, decide_eq_false_iff_not] at h
  obtain ⟨⟨⟨⟨h1, h2⟩, h3⟩, h4⟩, h5⟩ := h
  exact ⟨⟨fun n hn => (h2 n hn).1, fun n hn => (h2 n hn).2, fun n hn => h3 n hn,
    fun n hn => ⟨(h4 n hn).1, fun e => by simpa [e, worldOf] using (h4 n hn).2⟩, fun n hn => h5 n hn⟩, h1⟩

omit [FloatOps F] in
theorem withUsa_none : ∀ {sts : List Stmt} {xs : List AStmt}, (∀ st ∈ sts, ¬ ∃ a b c, st = Stmt.usa a b c) →
    xs.length = sts.length → withUsa sts xs = xs
  | [], [], _, _ => by simp [withUsa]
  | [], _ :: _, _, h => by simp at h
  | _ :: _, [], _, h => by simp at h
  | st :: sts, x :: xs, hu, hl => by
      have := withUsa_none (sts := sts) (xs := xs) (fun y hy => hu y (by simp [hy])) (by simpa using hl)
      cases st with
      | usa a b c => exact absurd ⟨a, b, c, rfl⟩ (hu _ (by simp))
      | _ => simp only [withUsa, this]

omit [FloatOps F] in
theorem openModule_ok {cfg : CCfg} {p : Path} {as : List Annotation} {r : CState} (ha : builtinAnn as = false)
    (h : (openModule cfg p as).run s = .ok r) : r = { s with open_ := (false, []) :: s.open_ } := by
  unfold C.run at h
  split at h
  · rename_i u s2 hv
    cases h
    unfold openModule at hv
    have hn : (as.find? fun a => String.ofList a.name == "embutido") = none := by
      rw [List.find?_eq_none]
      intro a hm hc
      unfold builtinAnn at ha
      rw [List.any_eq_false] at ha
      exact ha a hm hc
    rw [hn] at hv
    simpa only [C.modify_ok] using hv
  · cases h

omit [FloatOps F] in
theorem closeModule_ok {p : Path} {t : Tree} {r : CState} {bn : Bool} {xs : List AStmt} {os : List (Bool × List AStmt)} {body : List TStmt}
    (ho : s.open_ = (bn, xs) :: os) (hb : toSs (pstr p) s.ana.globalScope true (withUsa t.stmts xs) s = .ok (body, s))
    (h : (closeModule p t).run s = .ok r) :
    r = { s with open_ := os, mods := s.mods.filter (·.path != pstr p) ++ [⟨pstr p, bn, s.ana.globalScope, if bn then [] else body⟩] } := by
  unfold C.run at h
  split at h
  · rename_i u s2 hv
    cases h
    unfold closeModule at hv
    rw [C.bind_ok] at hv
    obtain ⟨_, s1, h1, hv⟩ := hv
    rw [C.get_ok] at h1
    obtain ⟨e0, e1⟩ := h1
    obtain rfl := e0.symm
    obtain rfl := e1.symm
    rw [ho] at hv
    simp only [C.bind_ok, C.modify_ok] at hv
    obtain ⟨b', s3, h3, h4⟩ := hv
    rw [hb] at h3
    cases h3
    exact h4
  · cases h

omit [FloatOps F] in
theorem liftE_ok {α : Type} {f : Path} {r : Except PyErr α} {a : α} (h : liftE f r = .ok a) : r = .ok a := by
  unfold liftE at h
  split at h
  · cases h; rfl
  · cases h

omit [FloatOps F] in
/-- The symbols of the functions of the library. -/
theorem lib_some (hf : Inv X X.sf) {i : SymId} {nm : String} (h : X.lib i = some nm) :
    ∃ x, X.sf.syms[i]? = some x ∧ x.isGlobal = true ∧ x.modPath = X.home ∧ x.name = nm ∧ nm ∈ X.K.libs ∧ i < X.b ∧
      x.builtin = true ∧ (libSig nm).isSome = true ∧ lookIn X.sf.scopes X.g nm = some i := by
  unfold World.lib at h
  cases hx : X.sf.syms[i]? with
  | none => rw [hx] at h; cases h
  | some x =>
      rw [hx] at h
      simp only at h
      split at h
      · rename_i hc
        cases h
        have hm : x.name ∈ X.K.libs := by simpa using hc.1
        obtain ⟨j, hj, hlt, y, ps, tags, t, hy, hn, hgl, hb, hp, hsig, _⟩ := hf.libs _ hm
        rw [hc.2] at hj
        cases hj
        rw [hx] at hy
        cases hy
        exact ⟨x, rfl, hgl, hp, rfl, hm, hlt, hb, by rw [hsig]; rfl, hc.2⟩
      · cases h

theorem table_ok {ts : List TStmt} (hf : Inv X X.sf) (hL : X.Lang L)
    (hfuns : ∀ n, L.funs X.mod n = (funcDecls ts).findSome? (declOf L.env n)) (hgood : ∀ d ∈ funcDecls ts, FnGood F X L d)
    (hall : ∀ (j : Nat) y t ps, X.b ≤ j → X.sf.syms[j]? = some y → y.body = .func t ps → ∃ d ∈ funcDecls ts, d.1 = j) :
    X.home ≠ X.mod → (∀ n, L.funs X.home n = none) → X.table.Ok F L := by
  intro hhome hnone
  have hsym : ∀ i : Nat, L.env.syms[i]? = (X.sf.syms[i]?).map CSym.toSym := by
    intro i
    rw [hL]
    exact List.getElem?_map
  have hvty : ∀ i u, X.vty i = some u → X.b ≤ i ∧ ∃ x t, X.sf.syms[i]? = some x ∧ x.body = .var t ∧ u = toTy [] t := by
    intro i u hu
    unfold World.vty at hu
    split at hu
    · rename_i hb
      refine ⟨hb, ?_⟩
      cases hx : X.sf.syms[i]? with
      | none => rw [hx] at hu; cases hu
      | some x =>
          rw [hx] at hu
          simp only [Option.map_some] at hu
          cases hxb : x.body with
          | var t => rw [hxb] at hu; cases hu; exact ⟨x, t, rfl, hxb, rfl⟩
          | _ => rw [hxb] at hu; cases hu
    · cases hu
  have hfn : ∀ i f, X.fn i = some f → X.b ≤ i ∧ ∃ x t ps, X.sf.syms[i]? = some x ∧ x.body = .func t ps := by
    intro i u hu
    unfold World.fn at hu
    split at hu
    · rename_i hb
      refine ⟨hb, ?_⟩
      cases hx : X.sf.syms[i]? with
      | none => rw [hx] at hu; cases hu
      | some x =>
          rw [hx] at hu
          simp only [Option.map_some] at hu
          cases hxb : x.body with
          | func t ps => exact ⟨x, t, ps, rfl, hxb⟩
          | _ => rw [hxb] at hu; cases hu
    · cases hu
  refine ⟨fun i u hu => ?_, fun i j u v x y hu hv hx hy hgx hgy hmp hnm => ?_, fun i f hf' => ?_, fun i nm hi => ?_⟩
  rotate_right
  · obtain ⟨x, hx, hgl, hp, hn, _⟩ := lib_some hf hi
    refine ⟨x.toSym, by rw [hsym, hx]; rfl, hgl, ?_, ?_⟩
    · show L.funs x.modPath _ = none
      rw [hp]
      exact hnone _
    · rintro j u y hu hy - ⟨hmp, -⟩
      obtain ⟨hbj, y', t, hy', _, rfl⟩ := hvty j u hu
      rw [hsym, hy'] at hy
      cases hy
      have := (hf.syms j y' hbj hy').1
      exact hhome ((hp.symm.trans (show x.modPath = y'.modPath from hmp)).trans this)
  · obtain ⟨_, x, _, hx, _⟩ := hvty i u hu
    exact ⟨x.toSym, by rw [hsym, hx]; rfl⟩
  · obtain ⟨hbi, x', t, hx', _, rfl⟩ := hvty i u hu
    obtain ⟨hbj, y', t', hy', _, rfl⟩ := hvty j v hv
    rw [hsym, hx'] at hx
    rw [hsym, hy'] at hy
    cases hx
    cases hy
    have h1 := hf.global i x' hbi hx' hgx
    have h2 := hf.global j y' hbj hy' hgy
    rw [show x'.name = y'.name from hnm, h2] at h1
    cases h1
    rw [hx'] at hy'
    cases hy'
    rw [hu] at hv
    exact Option.some.inj hv
  · obtain ⟨hbi, x, t, ps, hx, hxb⟩ := hfn i f hf'
    obtain ⟨d, hd, hdi⟩ := hall i x t ps hbi hx hxb
    have hmine := hf.syms i x hbi hx
    have hglob : ∀ (j : Nat) y u qs, X.b ≤ j → X.sf.syms[j]? = some y → y.body = .func u qs → y.isGlobal = true ∧ y.builtin = false := by
      intro j y u qs hbj hy hyb
      obtain ⟨_, h2, ⟨_, h3, _⟩ | ⟨_, _, _, _, _, h6, _⟩⟩ := hf.syms j y hbj hy
      · rw [hyb] at h3; cases h3
      · exact ⟨h6, h2⟩
    obtain ⟨hgx, hbx⟩ := hglob i x t ps hbi hx hxb
    have hsome : ((funcDecls ts).findSome? (declOf L.env x.name)).isSome = true := by
      rw [List.findSome?_isSome_iff]
      refine ⟨d, hd, ?_⟩
      unfold declOf
      rw [hdi, hsym, hx]
      simp [CSym.toSym, hbx]
    obtain ⟨fd, hfd⟩ := Option.isSome_iff_exists.mp hsome
    obtain ⟨d', hd', hdecl⟩ := List.exists_of_findSome?_eq_some hfd
    obtain ⟨hb', y, u, qs, hy, hyb, hok, -⟩ := hgood d' hd'
    unfold declOf at hdecl
    rw [hsym, hy] at hdecl
    simp only [Option.map_some] at hdecl
    split at hdecl
    · rename_i hc
      have h1 := hf.global i x hbi hx hgx
      have h2 := hf.global d'.1 y hb' hy (hglob d'.1 y u qs hb' hy hyb).1
      rw [show y.name = x.name from hc.1, h1] at h2
      have hdi' : i = d'.1 := Option.some.inj h2
      cases hdecl
      refine ⟨x.toSym, ⟨y.toSym.params, d'.2.1, d'.2.2⟩, by rw [hsym, hx]; rfl, ?_, ?_⟩
      · show L.funs x.modPath x.name = _
        rw [hmine.1, hfuns, hfd]
      · have := hok f (by rw [← hdi']; exact hf')
        have hp : y.toSym.params = qs.map (·.2) := by
          simp [CSym.toSym, CSym.params, hyb]
        rw [hp]
        exact this
    · cases hdecl

/-- The module of the library has its functions. -/
theorem defs_lib : ∃ defs, builtinDefs (F := F) "embutidos" = some defs ∧
    ∀ n, (libSig n).isSome = true → assocGet defs n = some (.nativeFn "embutidos" n) := by
  refine ⟨_, rfl, fun n hn => ?_⟩
  unfold libSig at hn
  split at hn
  all_goals first
    | (cases hn; done)
    | simp [assocGet]

/-- Modules of the library come first. -/
theorem lib_mods {P : Prog} {T : Table} {Δ : List SymId} {m : Codegen.ModuleIn} {lp : String}
    (hlib : ∀ i nm s, T.lib i = some nm → P.env.syms[i]? = some s → s.modPath = lp ∧ s.name = nm ∧ (libSig nm).isSome = true) :
    ∀ {ms : List Codegen.ModuleIn} {r : Bool},
    (∀ m ∈ ms, m.builtin = true ∧ P.library m.path = "embutidos" ∧
      ∀ i t s, T.vty i = some t → P.env.syms[i]? = some s → s.isGlobal = true → s.modPath ≠ m.path) →
    (r = true ∨ lp ∈ ms.map (·.path)) → TMods F P T true [] [m] Δ → TMods F P T r [] (ms ++ [m]) Δ
  | [], r, _, hr, h => by
      have : r = true := by simpa using hr
      rw [this]
      exact h
  | m' :: ms, r, hl, hr, h => by
      obtain ⟨h1, h2, h3⟩ := hl m' (by simp)
      obtain ⟨defs, hd, hn⟩ := defs_lib (F := F)
      refine .builtin (r' := decide (r = true ∨ m'.path = lp)) h1 (by rw [h2]; exact hd) (by simp) h3 ?_
        (lib_mods hlib (fun x hx => hl x (by simp [hx])) ?_ h)
      · intro hr' i nm s hi hs
        obtain ⟨e1, e2, e3⟩ := hlib i nm s hi hs
        by_cases hp : m'.path = lp
        · exact .inl ⟨e1.trans hp.symm, by rw [e2]; exact hn nm e3⟩
        · refine .inr ⟨?_, by rw [e1]; exact fun e => hp e.symm⟩
          simpa [hp] using hr'
      · rcases hr with hr | hr
        · exact .inl (by simp [hr])
        · rcases List.mem_cons.mp hr with e | hr
          · exact .inl (by simp [e])
          · exact .inr hr

omit [FloatOps F] in
theorem modIn_path (s : CState) (p : Path) : (modIn s p).path = pstr p := by
  unfold modIn
  cases h : s.mods.find? (·.path == pstr p) with
  | none => rfl
  | some m => simpa using List.find?_some h

/-- What is known of an accepted program, beside its typing. -/
structure Facts (F : Type) [FloatOps F] (K : Frag) (paths : List (Path × Bool)) (file : Path) (X : World) (P : Prog) : Prop where
  frag : X.K = K
  mod : X.mod = pstr file
  names : X.Names
  inv : Inv X X.sf
  lang : X.Lang P.lang
  statements : ∃ ts Γ', P.main = ⟨pstr file, false, X.g, ts⟩ ∧ TSs F P.lang X.table none X.K.top [] (some X.g) ts Γ' ∧
    (∀ d ∈ funcDecls ts, FnGood F X P.lang d) ∧ ((funcDecls ts).map (·.1)).Nodup ∧
    ∀ n, P.lang.funs (pstr file) n = (funcDecls ts).findSome? (declOf P.lang.env n)
  imports : ∀ m ∈ P.imports, m.builtin = true ∧ m.path ≠ pstr file ∧ Codegen.moduleName m.path = "embutidos" ∧ m.body = []
  library : P.library = Codegen.moduleName
  order : P.imports.map (·.path) = paths.map fun i => pstr i.1
  home : X.home ∈ paths.map fun i => pstr i.1
  globals : TopG X X.sf

/-- What `visit_module` leaves of a program. -/
theorem tree_typed [LawfulFloatOps F] [ReadsNumerals F] {K : Frag} {cfg : CCfg} {t : Tree} {ls ls' : LState CState} {main : Path}
    (hctx : ls.ctx = main) (hk : okTree K t = true) (ha : builtinAnn t.annotations = false) 
    {lp : String} (hs : startOk K lp ls.rest = true) (hlp : lp ∈ ls.imports.map fun i => pstr i.1)
    (hm : importsOk main ls.imports ls.rest.mods = true)
    (h : visitTree (icfg cfg py files) load t ls = .ok ls') (P : Prog)
    (hP : P = { env := ⟨ls'.rest.syms.map CSym.toSym, ls'.rest.scopes⟩, builtinPath := pstr (builtinPath files),
                main := modIn ls'.rest main, imports := ls'.imports.map fun i => modIn ls'.rest i.1, library := Codegen.moduleName }) :
    ∃ X Δ, P.Typed F X.table Δ ∧ (∀ tok name ty init, .varDecl tok name ty init ∈ t.stmts →
      ∃ i x, P.env.syms[i]? = some x ∧ x.isGlobal = true ∧ x.modPath = pstr main ∧ x.name = name.str ∧
        X.table.vty i = some (toTy [] (denote ty)) ∧ i ∈ Δ) ∧ Facts F K ls.imports main X P ∧
      ∃ ls1, X = worldOf K cfg (pstr main) lp ls.rest ls1.rest ∧ visitChildren (icfg cfg py files) load t.stmts
        { ls with log := ls.log ++ [ls.ctx], rest := { ls.rest with open_ := (false, []) :: ls.rest.open_ } } = .ok ls1 := by
  simp only [visitTree] at h
  obtain ⟨r0, h0, h⟩ := except_bind_eq_ok.mp h
  obtain ⟨ls1, h1, h⟩ := except_bind_eq_ok.mp h
  obtain ⟨r2, h2, h⟩ := except_bind_eq_ok.mp h
  cases h
  have e0 := openModule_ok ha (liftE_ok h0)
  obtain ⟨hN, htop⟩ := names_of (s := ls.rest) (cfg := cfg) (mod := pstr main) (lp := lp) (sf := ls1.rest) hk
  obtain ⟨hi, hc, hloop, hfun, htg, hv⟩ := start_inv (cfg := cfg) (mod := pstr main) (lp := lp) (sf := ls1.rest) hs
  have hi0 : Inv (worldOf K cfg (pstr main) lp ls.rest ls1.rest) r0 := by rw [e0]; exact hi.reopen _
  have hl0 : Later ls.rest r0 := by rw [e0]; exact ⟨(Later.refl _).syms, (Later.refl _).scopes⟩
  have hc0 : r0.ana.ctxScope = (worldOf K cfg (pstr main) lp ls.rest ls1.rest).g := by rw [e0]; exact hc
  obtain ⟨⟨himp, hctx1⟩, hkept⟩ := children_kept F hN (ls := { ls with log := ls.log ++ [ls.ctx], rest := r0 }) htop hi0 hc0
    (by rw [← hctx]; rfl) h1
  have hf := hkept.inv
  obtain ⟨l1, hana1⟩ := hkept.ana
  have hg1 : ls1.rest.ana.globalScope = ls.rest.ana.globalScope := by rw [hana1]; show r0.ana.globalScope = _; rw [e0]
  have typed : ∀ {L : Lang}, (worldOf K cfg (pstr main) lp ls.rest ls1.rest).Lang L → _ := fun {L} hL =>
    children_typed (F := F) (L := L) hN hL hf (ls := { ls with log := ls.log ++ [ls.ctx], rest := r0 }) (Γ := []) (bn := false) (xs := [])
      (os := ls.rest.open_) htop hi0 hc0 (by rw [← hctx]; rfl) h1 (Later.refl _) (by rw [e0]; exact htg) (by rw [e0]; exact hloop)
      (by rw [e0]; exact hfun) (by rw [e0]; exact ⟨hv.see, hv.old⟩) (by rw [e0])
  obtain ⟨as, ts, -, ho, hlen, hts, -⟩ := typed
    (L := ⟨⟨ls1.rest.syms.map CSym.toSym, ls1.rest.scopes⟩, "", fun _ _ => none, fun _ _ => none⟩) rfl
  have hu : withUsa t.stmts as = as := withUsa_none (fun st hst => okTop_usa (htop st hst)) hlen
  have hctx1' : ls1.ctx = main := hctx1.trans hctx
  have e2 := closeModule_ok (s := ls1.rest) (p := ls1.ctx) (t := t) (r := r2) (body := ts) ho (by
    rw [List.nil_append, hu, hctx1', hg1]
    exact hts) (liftE_ok h2)
  have hL : (worldOf K cfg (pstr main) lp ls.rest ls1.rest).Lang P.lang := by
    show P.env = _
    rw [hP, e2]
    rfl
  obtain ⟨as', ts', Γ', ho', hlen', hts', hty, hgood, hdist, hvis, hall⟩ := typed hL
  have : as' = as := by
    rw [ho] at ho'
    simpa using ho'.symm
  subst this
  have : ts' = ts := by
    rw [hts] at hts'
    cases hts'
    rfl
  subst this
  -- the modules
  have hmods : r2.mods = ls.rest.mods.filter (·.path != pstr main) ++ [⟨pstr main, false, ls.rest.ana.globalScope, ts'⟩] := by
    rw [e2]
    show ls1.rest.mods.filter _ ++ _ = _
    rw [hkept.mods, hctx1', hg1]
    show r0.mods.filter _ ++ _ = _
    rw [e0]
    rfl
  have hmain : P.main = ⟨pstr main, false, ls.rest.ana.globalScope, ts'⟩ := by
    rw [hP]
    show modIn r2 main = _
    unfold modIn
    rw [hmods, List.find?_append, List.find?_eq_none.mpr]
    · simp
    · intro m hm
      have := (List.mem_filter.mp hm).2
      simpa using this
  have himps : ∀ m ∈ P.imports, m.builtin = true ∧ m.path ≠ pstr main ∧ Codegen.moduleName m.path = "embutidos" ∧ m.body = [] := by
    intro m hm'
    rw [hP] at hm'
    obtain ⟨i, hi', rfl⟩ := List.mem_map.mp hm'
    have hi'' : i ∈ ls.imports := by
      have : i ∈ ls1.imports := hi'
      rw [himp] at this
      exact this
    have hx := (List.all_eq_true.mp hm) i hi''
    simp only [Bool.and_eq_true, bne_iff_ne] at hx
    cases hfd : ls.rest.mods.find? (·.path == pstr i.1) with
    | none => rw [hfd] at hx; exact absurd hx.2 (by simp)
    | some m =>
        rw [hfd] at hx
        simp only [Bool.and_eq_true, beq_iff_eq] at hx
        have hpm := List.find?_some hfd
        simp only [beq_iff_eq] at hpm
        have : r2.mods.find? (·.path == pstr i.1) = some m := by
          rw [hmods, List.find?_append, List.find?_filter]
          have hcong : (fun a : ModInfo => decide ((a.path != pstr main) = true ∧ (a.path == pstr i.1) = true)) =
              fun a => a.path == pstr i.1 := by
            funext a
            by_cases hap : a.path = pstr i.1
            · simp [hap, hx.1]
            · simp [hap]
          rw [hcong, hfd]
          rfl
        unfold modIn
        rw [show (({ ls1 with rest := r2 } : LState CState).rest).mods.find? (·.path == pstr i.1) = some m from this]
        exact ⟨hx.2.1.1, (by show m.path ≠ _; rw [hpm]; exact hx.1), hx.2.1.2, List.isEmpty_iff.mp hx.2.2⟩
  have hfuns : ∀ n, P.lang.funs (pstr main) n = (funcDecls ts').findSome? (declOf P.lang.env n) := by
      intro n
      show P.funs (pstr main) n = _
      unfold Prog.funs
      have : P.find (pstr main) = some P.main := by
        unfold Prog.find Prog.modules
        rw [List.find?_append, List.find?_eq_none.mpr]
        · simp [hmain]
        · intro m hm'
          simpa using (himps m hm').2.1
      rw [this]
      simp only [hmain, Bool.false_eq_true, if_false]
      rfl
  have hpaths : P.imports.map (·.path) = ls.imports.map fun i => pstr i.1 := by
    rw [hP]
    show (ls1.imports.map fun i => modIn r2 i.1).map (·.path) = _
    rw [himp, List.map_map]
    refine List.map_congr_left fun i _ => ?_
    exact modIn_path _ _
  have hsyms : ∀ i : Nat, P.env.syms[i]? = (ls1.rest.syms[i]?).map CSym.toSym := by
    intro i
    rw [show P.env.syms = ls1.rest.syms.map CSym.toSym from congrArg SymEnv.syms hL]
    exact List.getElem?_map
  have hlib : ∀ i nm s, (worldOf K cfg (pstr main) lp ls.rest ls1.rest).table.lib i = some nm → P.env.syms[i]? = some s →
      s.modPath = lp ∧ s.name = nm ∧ (libSig nm).isSome = true := by
    intro i nm s hi hs
    obtain ⟨x, hx, _, hp, hn, _, _, _, hsig, _⟩ := lib_some hf hi
    rw [hsyms, show ls1.rest.syms[i]? = some x from hx] at hs
    cases hs
    exact ⟨hp, hn, hsig⟩
  have hne : lp ≠ pstr main := by
    rw [← hpaths] at hlp
    obtain ⟨m, hm', e⟩ := List.mem_map.mp hlp
    rw [← e]
    exact (himps m hm').2.1
  have hnone : ∀ n, P.lang.funs lp n = none := by
    intro n
    show P.funs lp n = _
    unfold Prog.funs
    cases hfd : P.find lp with
    | none => rfl
    | some m =>
        have hmem := List.mem_of_find?_eq_some hfd
        have hpm := List.find?_some hfd
        have hpm : m.path = lp := by simpa using hpm
        rcases List.mem_append.mp hmem with hm' | hm'
        · simp [(himps m hm').1]
        · rw [List.mem_singleton.mp hm', hmain] at hpm
          exact absurd hpm.symm hne
  refine ⟨worldOf K cfg (pstr main) lp ls.rest ls1.rest, Γ', ⟨?_, ?_⟩, ?_, ?_, ls1, rfl, by rw [← e0]; exact h1⟩
  · refine table_ok hf hL hfuns hgood (fun j y u ps hb hy hyb => ?_) hne hnone
    · refine hall j y u ps hy ?_ hyb
      show r0.syms[j]? = none
      rw [e0]
      exact List.getElem?_eq_none hb
  · refine lib_mods hlib (fun m hm' => ⟨(himps m hm').1, ?_, ?_⟩) (.inr (by rw [hpaths]; exact hlp)) ?_
    · rw [show P.library = Codegen.moduleName by rw [hP], (himps m hm').2.2.1]
    · intro i u x hu hx _
      have hb : ls.rest.syms.length ≤ i ∧ ∃ y, ls1.rest.syms[i]? = some y := by
        change World.vty _ i = _ at hu
        unfold World.vty at hu
        split at hu
        · rename_i hb
          refine ⟨hb, ?_⟩
          cases hy : ls1.rest.syms[i]? with
          | none => rw [show (worldOf K cfg (pstr main) lp ls.rest ls1.rest).sf.syms[i]? = none from hy] at hu; cases hu
          | some y => exact ⟨y, rfl⟩
        · cases hu
      obtain ⟨hb, y, hy⟩ := hb
      have hx' : (ls1.rest.syms.map CSym.toSym)[i]? = some x := by
        have : P.env.syms = ls1.rest.syms.map CSym.toSym := by
          have := congrArg SymEnv.syms hL
          exact this
        rw [← this]
        exact hx
      rw [List.getElem?_map, hy] at hx'
      cases hx'
      have := (hf.syms i y hb hy).1
      show y.modPath ≠ _
      rw [this]
      exact (himps m hm').2.1.symm
    · refine .written (strict := K.strict) (Γ' := Γ') (Γ'' := Γ') ?_ (by simp) ?_ ?_ (fun _ h => h) .nil
      · rw [hmain]
      · intro i nm s hi hs
        rw [(hlib i nm s hi hs).1, hmain]
        exact hne
      · rw [hmain]
        exact hty

  · intro tok name ty init hst
    obtain ⟨i, x, hb, hx, hbody, hname, hglob, hlook⟩ := children_decl F hN (ls := { ls with log := ls.log ++ [ls.ctx], rest := r0 })
      htop hi0 hc0 (by rw [← hctx]; rfl) h1 hst
    have hy : P.env.syms[i]? = some x.toSym := by
      rw [show P.env.syms = ls1.rest.syms.map CSym.toSym from congrArg SymEnv.syms hL, List.getElem?_map, hx]
      rfl
    refine ⟨i, x.toSym, hy, hglob, (hf.syms i x hb hx).1, hname, ?_, hvis.see name.str i x (denote ty) (seen_of_look hlook) hx hbody hb⟩
    show World.vty _ i = _
    unfold World.vty
    rw [if_pos hb, show (worldOf K cfg (pstr main) lp ls.rest ls1.rest).sf.syms[i]? = some x from hx]
    simp only [Option.map_some, hbody]
  · exact ⟨rfl, rfl, hN, hf, hL, ⟨ts', Γ', hmain, hty, hgood, hdist.1, hfuns⟩, himps, by rw [hP], hpaths, hlp, hkept.top (by rw [e0]; exact htg)⟩

end

end Amanda.Check

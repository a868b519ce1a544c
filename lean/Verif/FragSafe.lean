import Verif.FragProg

/-!
# Programs of `Verif.Frag` make the checker report errors, not fail

`Mild` are the errors the checker means to report, and the `AttributeError` of a condition that is a vector.  On
expressions and statements of `Verif.Frag` there are no others.
-/

namespace Amanda.Check

open Source

/-- An error that is reported, or the known failure where `b` allows it. -/
def Mild (b : Bool) (e : PyErr) : Prop :=
  (∃ m l c, e = .amanda m l c) ∨ (b = true ∧ e = .exc "AttributeError")

/-- Only such errors. -/
def Safe {α : Type} (b : Bool) (c : C α) (s : CState) : Prop := ∀ e, c s = .error e → Mild b e

section
variable {α β : Type} {b : Bool} {s : CState}

theorem Safe.bind {m : C α} {f : α → C β} (h : Safe b m s) (k : ∀ a s', m s = .ok (a, s') → Safe b (f a) s') :
    Safe b (m >>= f) s := by
  intro e he
  change (match m s with
    | .error e => (Except.error e : Except PyErr (β × CState))
    | .ok (a, s') => f a s') = _ at he
  cases hm : m s with
  | error e' => rw [hm] at he; cases he; exact h _ hm
  | ok p => obtain ⟨a, s'⟩ := p; rw [hm] at he; exact k a s' hm e he

theorem Safe.of_ok {m : C α} {a : α} {s' : CState} (h : m s = .ok (a, s')) : Safe b m s := by
  intro e he
  rw [h] at he
  cases he

theorem Safe.next {m : C α} {f : α → C β} {a : α} {s' : CState} (h : m s = .ok (a, s')) (k : Safe b (f a) s') :
    Safe b (m >>= f) s :=
  Safe.bind (Safe.of_ok h) fun a' s1 h1 => by
    rw [h] at h1
    cases h1
    exact k

theorem Safe.then {m : C α} {f : α → C β} (h : Safe b m s) (k : ∀ a s', Safe b (f a) s') : Safe b (m >>= f) s :=
  h.bind fun a s' _ => k a s'

theorem Safe.pure {a : α} : Safe b (pure a : C α) s := Safe.of_ok (a := a) (s' := s) rfl
theorem Safe.get : Safe b C.get s := Safe.of_ok (a := s) (s' := s) rfl
theorem Safe.modify {f : CState → CState} : Safe b (C.modify f) s := Safe.of_ok (a := ()) (s' := f s) rfl
theorem Safe.at {tok : Token} : Safe b (C.at_ tok) s := Safe.modify
theorem Safe.error {m : String} : Safe b (C.error m : C α) s := by
  intro e he
  cases he
  exact .inl ⟨_, _, _, rfl⟩

theorem Safe.view {t : CTy} : Safe b (view t) s := Safe.of_ok (a := toTy s.syms t) (s' := s) rfl
theorem Safe.showTy {t : CTy} : Safe b (showTy t) s := Safe.then Safe.view fun _ _ => Safe.pure
theorem Safe.sameTy {t u : CTy} : Safe b (sameTy t u) s :=
  Safe.then Safe.view fun _ _ => Safe.then Safe.view fun _ _ => Safe.pure
theorem Safe.resolveIn {k : ScopeId} {n : String} : Safe b (resolveIn k n) s := by
  intro e he
  cases he
theorem Safe.resolve {n : String} : Safe b (resolve n) s := Safe.then Safe.get fun _ _ => Safe.resolveIn
theorem Safe.symbolsOf {k : ScopeId} : Safe b (symbolsOf k) s := by
  intro e he
  cases he
theorem Safe.getIn {k : ScopeId} {n : String} : Safe b (getIn k n) s := Safe.then Safe.symbolsOf fun _ _ => Safe.pure
theorem Safe.newSym {x : CSym} : Safe b (newSym x) s := by
  intro e he
  cases he
theorem Safe.newScope {p : Option ScopeId} : Safe b (newScope p) s := by
  intro e he
  cases he
theorem Safe.innerScope : Safe b innerScope s := Safe.then Safe.get fun _ _ => Safe.newScope
theorem Safe.symOf {i : SymId} {x : CSym} (h : s.syms[i]? = some x) : Safe b (symOf i) s :=
  Safe.of_ok (symOf_ok.mpr ⟨h, rfl⟩)
theorem Safe.lift {r : Except PyErr α} {a : α} (h : r = .ok a) : Safe b (C.lift r) s :=
  Safe.of_ok (C.lift_ok.mpr ⟨h, rfl⟩)

end

/-- A part of a run that only builds a message. -/
macro "mild!" : tactic =>
  `(tactic| repeat (first
    | exact Safe.error | exact Safe.pure | exact Safe.at | exact Safe.view | exact Safe.showTy | exact Safe.sameTy
    | exact Safe.get | exact Safe.modify
    | (refine Safe.then ?_ fun _ _ => ?_)))

/-! ## Types -/

section
variable {r : Bool} {t u : CTy}

theorem promote_safe (ht : exprTy r t = true) (hu : exprTy r u = true) :
    ∃ q, Ty.promote (toTy [] t) (toTy [] u) = .ok q := by
  rcases ty_cases ht with rfl | rfl | rfl | ⟨_, rfl⟩ | ⟨_, rfl⟩ | rfl <;>
    rcases ty_cases hu with rfl | rfl | rfl | ⟨_, rfl⟩ | ⟨_, rfl⟩ | rfl <;>
    simp [toTy, Ty.promote, Ty.promotionTo, Ty.autoCast]

theorem match_safe (ht : exprTy r t = true) (hu : exprTy r u = true) :
    ∃ q, Ty.typesMatch (toTy [] t) (toTy [] u) = .ok q := by
  unfold Ty.typesMatch
  split
  · exact ⟨_, rfl⟩
  · obtain ⟨q, hq⟩ := promote_safe hu ht
    rw [hq]
    exact ⟨_, rfl⟩

theorem cast_safe (ht : exprTy r t = true) (hu : exprTy r u = true) :
    ∃ q, Ty.checkCast (toTy [] t) (toTy [] u) = .ok q := by
  rcases ty_cases ht with rfl | rfl | rfl | ⟨_, rfl⟩ | ⟨_, rfl⟩ | rfl <;>
    rcases ty_cases hu with rfl | rfl | rfl | ⟨_, rfl⟩ | ⟨_, rfl⟩ | rfl <;>
    simp [toTy, Ty.checkCast, Ty.castTo, Ty.castTable]

variable {b : Bool} {s : CState}

theorem Safe.promTy (ht : exprTy r t = true) (hu : exprTy r u = true) : Safe b (promTy t u) s := by
  obtain ⟨q, hq⟩ := promote_safe ht hu
  rw [← toTy_expr s.syms ht, ← toTy_expr s.syms hu] at hq
  refine Safe.next (view_ok.mpr ⟨rfl, rfl⟩) (Safe.next (view_ok.mpr ⟨rfl, rfl⟩) (Safe.then (Safe.lift hq) fun _ _ => Safe.pure))

theorem Safe.matchTy (ht : exprTy r t = true) (hu : exprTy r u = true) : Safe b (matchTy t u) s := by
  obtain ⟨q, hq⟩ := match_safe ht hu
  rw [← toTy_expr s.syms ht, ← toTy_expr s.syms hu] at hq
  exact Safe.next (view_ok.mpr ⟨rfl, rfl⟩) (Safe.next (view_ok.mpr ⟨rfl, rfl⟩) (Safe.lift hq))

/-- Where any value will do. -/
theorem Safe.promIndef (ht : exprTy r t = true) : Safe b (Check.promTy t (.prim .indef)) s := by
  have hq : ∃ q, Ty.promote (toTy [] t) .indef = .ok q := by
    rcases ty_cases ht with rfl | rfl | rfl | ⟨_, rfl⟩ | ⟨_, rfl⟩ | rfl <;> simp [toTy, Ty.promote, Ty.promotionTo, Ty.autoCast]
  obtain ⟨q, hq⟩ := hq
  rw [← toTy_expr s.syms ht] at hq
  exact Safe.next (view_ok.mpr ⟨rfl, rfl⟩) (Safe.next (view_ok.mpr ⟨rfl, rfl⟩) (Safe.then (Safe.lift hq) fun _ _ => Safe.pure))

theorem Safe.matchIndef (ht : exprTy r t = true) : Safe b (Check.matchTy (.prim .indef) t) s := by
  have hq : ∃ q, Ty.typesMatch .indef (toTy [] t) = .ok q := by
    rcases ty_cases ht with rfl | rfl | rfl | ⟨_, rfl⟩ | ⟨_, rfl⟩ | rfl <;>
      simp [toTy, Ty.typesMatch, Ty.promote, Ty.promotionTo, Ty.autoCast, Ty.eqv, Ty.eqD, Except.map]
  obtain ⟨q, hq⟩ := hq
  rw [← toTy_expr s.syms ht] at hq
  exact Safe.next (view_ok.mpr ⟨rfl, rfl⟩) (Safe.next (view_ok.mpr ⟨rfl, rfl⟩) (Safe.lift hq))

theorem exprTy_data (h : dataTy r t = true) : exprTy r t = true := by simp [exprTy, h]

end

/-! ## Names of types -/

section
variable {X : World} {s : CState} {b : Bool}

theorem resolve_word (hN : X.Names) (hi : Inv X s) {w : String} {tag : PTag} (hw : (w, tag) ∈ words) :
    ∃ i x, resolve w s = .ok (some i, s) ∧ s.syms[i]? = some x ∧ x.body = .prim tag := by
  obtain ⟨j, x, hl, hx, hb⟩ := hi.prims w tag hw
  have hsee := hi.seesGlobal (fun hv => hN.vars w hv (words_reserved hw)) hl _ _ (Nat.le_refl _) hi.ctx hi.ctxLt
  refine ⟨j, x, ?_, hx, hb⟩
  unfold resolve
  rw [C.bind_ok]
  refine ⟨s, s, by simp [C.get], ?_⟩
  unfold resolveIn
  rw [show SymEnv.resolve ⟨[], s.scopes⟩ (some s.ana.ctxScope) w = some j from
    resolve_of_seen hi.wf hsee (Nat.lt_succ_of_lt hi.ctxLt)]

theorem Safe.symTy {i : SymId} {x : CSym} {tag : PTag} (hx : s.syms[i]? = some x) (hb : x.body = .prim tag) :
    Safe b (symTy i) s := by
  refine Safe.next (symOf_ok.mpr ⟨hx, rfl⟩) ?_
  rw [hb]
  exact Safe.pure

theorem Safe.namedTy (hN : X.Names) (hi : Inv X s) {w : String} {tag : PTag} (hw : (w, tag) ∈ words) :
    Safe b (namedTy w) s := by
  obtain ⟨i, x, hr, hx, hb⟩ := resolve_word hN hi hw
  exact Safe.next hr (Safe.symTy hx hb)

theorem Safe.globalTy (hN : X.Names) (hi : Inv X s) {w : String} {tag : PTag} (hw : (w, tag) ∈ words) :
    Safe b (globalTy w) s := by
  obtain ⟨j, x, hl, hx, hb⟩ := hi.prims w tag hw
  have hsee := hi.seesGlobal (fun hv => hN.vars w hv (words_reserved hw)) hl _ _ (Nat.le_refl _) (.inl rfl)
    (Nat.lt_of_lt_of_le hi.gsb hi.sbase)
  refine Safe.next (C.get_ok.mpr ⟨rfl, rfl⟩) (Safe.next (a := some j) (s' := s) ?_ (Safe.symTy hx hb))
  unfold Check.resolveIn
  rw [hi.glob, show SymEnv.resolve ⟨[], s.scopes⟩ (some X.g) w = some j from
    resolve_of_seen hi.wf hsee (Nat.lt_succ_of_lt (Nat.lt_of_lt_of_le hi.gsb hi.sbase))]

theorem Safe.getTy (hN : X.Names) (hi : Inv X s) : ∀ {ty : TyExpr}, plainTy X.K.reals ty = true → Safe b (getTy ty) s
  | .name tok false none, hp => by
      simp only [plainTy] at hp
      obtain ⟨tag, hw, _, _⟩ := typeWord_words hp
      obtain ⟨i, x, hr, hx, hb⟩ := resolve_word hN hi hw
      have ht : typeSym tok.str s = .ok (i, s) := by
        unfold typeSym
        refine C.bind_ok.mpr ⟨_, _, C.get_ok.mpr ⟨rfl, rfl⟩, C.bind_ok.mpr ⟨_, _, hr, ?_⟩⟩
        refine C.bind_ok.mpr ⟨_, _, C.pure_ok.mpr ⟨rfl, rfl⟩, C.bind_ok.mpr ⟨_, _, symOf_ok.mpr ⟨hx, rfl⟩, ?_⟩⟩
        rw [if_pos (by simp [CSym.isType, hb])]
        rfl
      unfold Check.getTy
      refine Safe.next ht (Safe.bind (Safe.symTy hx hb) fun t s' h => ?_)
      simp only [constructTy, Bool.false_eq_true, if_false]
      exact Safe.pure
  | .array el false, hp => by
      simp only [plainTy] at hp
      unfold Check.getTy
      refine Safe.then (Safe.getTy hN hi hp) fun t s' => ?_
      simp only [Bool.false_eq_true, if_false]
      exact Safe.pure
  | .name _ true _, hp | .name _ false (some _), hp | .array _ true, hp
  | .path .., hp => by simp [plainTy] at hp

/-! ## Parts of expressions -/

theorem Safe.constTy (hN : X.Names) (hi : Inv X s) {tok : Token} (hk : okLit X.K.reals tok = true) : Safe b (constTy tok) s := by
  obtain ⟨tt, lexeme, line, col⟩ := tok
  unfold okLit at hk
  unfold Check.constTy
  simp only at hk ⊢
  split at hk
  · refine Safe.then (Safe.namedTy hN hi (tag := .int) (by simp [words])) fun _ _ => ?_
    simp only
    split <;> mild!
  · exact Safe.pure
  · exact Safe.pure
  · exact Safe.pure
  · exact Safe.pure
  · cases hk

theorem Safe.useVar (hi : Inv X s) {tok : Token} : Safe b (useVar tok) s := by
  refine Safe.bind Safe.resolve fun r s1 hr => ?_
  obtain ⟨rfl, hr⟩ := resolve_ok hr
  cases r with
  | none => exact Safe.error
  | some j =>
      obtain ⟨k, hk, hl⟩ := hi.found hi.ctx (hr j rfl)
      by_cases hb : X.b ≤ j
      · obtain ⟨x, hx, _⟩ := hi.new k _ _ hk hl hb
        refine Safe.next (symOf_ok.mpr ⟨hx, rfl⟩) ?_
        split
        · mild!
        · rename_i hc
          obtain ⟨_, _, hm⟩ := hi.syms j x hb hx
          rcases hm with ⟨u, hbody, _⟩ | ⟨u, ps, hbody, _⟩
          · simp only [CSym.ty?, hbody]
            exact Safe.pure
          · simp [CSym.canEvaluate, hbody] at hc
      · rcases hk with rfl | hk
        · obtain ⟨_, x, hx, hc⟩ := hi.old _ _ hl (Nat.lt_of_not_le hb)
          refine Safe.next (symOf_ok.mpr ⟨hx, rfl⟩) ?_
          rw [if_pos (by simp [hc])]
          mild!
        · exact absurd (hi.innerNames k _ _ hk hl).2 hb

theorem Safe.binTy {r : Bool} {tok : Token} {x y : AExpr} (hx : exprTy r x.ty = true) (hy : exprTy r y.ty = true) :
    Safe b (binTy tok x y) s := by
  refine Safe.then Safe.view fun _ _ => Safe.then Safe.view fun _ _ => ?_
  split
  · mild!
  · exact Safe.then (Safe.promTy hx hy) fun _ _ => Safe.then (Safe.promTy hy hx) fun _ _ => Safe.pure

theorem Safe.unTy {tok : Token} {x : AExpr} : Safe b (unTy tok x) s := by
  refine Safe.then Safe.view fun _ _ => ?_
  split <;> mild!

theorem Safe.indexTy {tok : Token} {x y : AExpr} : Safe b (indexTy tok x y) s := by
  unfold Check.indexTy
  split
  · mild!
  · refine Safe.then Safe.sameTy fun _ _ => ?_
    split <;> mild!

theorem Safe.convTy {r : Bool} {tok : Token} {x : AExpr} {t : CTy} (hx : exprTy r x.ty = true) (ht : exprTy r t = true) :
    Safe b (convTy tok x t) s := by
  obtain ⟨q, hq⟩ := cast_safe hx ht
  rw [← toTy_expr s.syms hx, ← toTy_expr s.syms ht] at hq
  refine Safe.next (view_ok.mpr ⟨rfl, rfl⟩) (Safe.next (view_ok.mpr ⟨rfl, rfl⟩) (Safe.then (Safe.lift hq) fun _ _ => ?_))
  split <;> mild!

theorem Safe.indexSetOk {r : Bool} {t : CTy} (ht : exprTy r t = true) : Safe b (indexSetOk t) s := by
  rcases ty_cases ht with rfl | rfl | rfl | ⟨_, rfl⟩ | ⟨v, rfl⟩ | rfl <;> simp only [Check.indexSetOk, tagOf]
  all_goals first | exact Safe.pure | (refine Safe.then Safe.pure fun _ _ => ?_; split <;> mild!)

theorem indexSetOk_same {r : Bool} {t : CTy} {u : Unit} {s' : CState} (ht : exprTy r t = true)
    (h : Check.indexSetOk t s = .ok (u, s')) : s' = s := by
  rcases ty_cases ht with rfl | rfl | rfl | ⟨_, rfl⟩ | ⟨v, rfl⟩ | rfl <;>
    simp only [Check.indexSetOk, tagOf, C.bind_ok, C.pure_ok] at h
  all_goals first
    | exact h.2
    | (obtain ⟨_, _, ⟨rfl, rfl⟩, h⟩ := h
       split at h <;> simp_all [C.pure_ok, C.error_ok])

theorem visitVar_ok {cfg : CCfg} {mod : String} {par : Par} {tk : Token} {x : AExpr} {s' : CState}
    (h : visitE cfg mod par (.var tk) s = .ok (x, s')) :
    s' = s.atLine tk.line ∧ ∃ j z, resolve tk.str s' = .ok (some j, s') ∧ s'.syms[j]? = some z := by
  simp only [visitE, C.bind_ok, C.at_ok, C.pure_ok] at h
  obtain ⟨_, _, rfl, ⟨t, i⟩, s2, h2, rfl, rfl⟩ := h
  unfold Check.useVar at h2
  rw [C.bind_ok] at h2
  obtain ⟨r, _, h3, h4⟩ := h2
  obtain ⟨rfl, -⟩ := resolve_ok h3
  cases r with
  | none => simp only [C.error_ok] at h4
  | some j =>
      simp only [C.bind_ok, symOf_ok] at h4
      obtain ⟨z, _, ⟨hz, rfl⟩, h4⟩ := h4
      have : s' = s.atLine tk.line := by
        split at h4
        · simp only [C.bind_ok, C.error_ok] at h4
          obtain ⟨_, _, _, h⟩ := h4
          exact h.elim
        · cases hz : z.ty? with
          | none => rw [hz] at h4; simp only [C.raise_ok] at h4
          | some u =>
              rw [hz] at h4
              simp only [C.pure_ok] at h4
              exact h4.2
      subst this
      exact ⟨rfl, j, z, h3, hz⟩

theorem Safe.checkArity {n m : Nat} {d : String} : Safe b (checkArity n d m) s := by
  unfold Check.checkArity
  split <;> mild!

theorem Safe.paramTys : ∀ {ps : List (String × SymId)} {s : CState},
    (∀ p ∈ ps, ∃ y t, s.syms[p.2]? = some y ∧ y.body = .var t) → Safe b (paramTys ps) s
  | [], _, _ => Safe.pure
  | (n, i) :: ps, s, hp => by
      obtain ⟨y, t, hy, hyb⟩ := hp (n, i) (by simp)
      refine Safe.next (symOf_ok.mpr ⟨hy, rfl⟩) ?_
      simp only [CSym.ty?, hyb]
      exact Safe.then (Safe.paramTys fun p h => hp p (by simp [h])) fun _ _ => Safe.pure

theorem Safe.promArgs {r : Bool} : ∀ {as : List AExpr} {ts : List CTy} {s : CState}, (∀ a ∈ as, exprTy r a.ty = true) →
    (∀ t ∈ ts, dataTy r t = true ∨ t = .prim .indef) → Safe b (promArgs as ts) s
  | [], _, _, _, _ => by simp only [Check.promArgs]; exact Safe.pure
  | a :: as, [], _, _, _ => by simp only [Check.promArgs]; exact Safe.pure
  | a :: as, t :: ts, s, ha, ht => by
      have h1 := ha a (by simp)
      simp only [Check.promArgs]
      have hp : ∀ {s : CState}, Safe b (Check.promTy a.ty t) s ∧ ∀ {s : CState}, Safe b (Check.matchTy t a.ty) s := by
        intro s
        rcases ht t (by simp) with h2 | rfl
        · exact ⟨Safe.promTy h1 (exprTy_data h2), Safe.matchTy (exprTy_data h2) h1⟩
        · exact ⟨Safe.promIndef h1, Safe.matchIndef h1⟩
      refine Safe.then hp.1 fun _ s' => Safe.then (hp (s := s')).2 fun _ _ => ?_
      split
      · exact Safe.then (Safe.promArgs (fun x hx => ha x (by simp [hx])) fun x hx => ht x (by simp [hx])) fun _ _ => Safe.pure
      · mild!

theorem forall₂_left {α β : Type} {R : α → β → Prop} {xs : List α} {ys : List β} (h : List.Forall₂ R xs ys) :
    ∀ x ∈ xs, ∃ y, R x y := by
  induction h with
  | nil => simp
  | cons hr _ ih =>
      intro x hx
      rcases List.mem_cons.mp hx with rfl | hx
      · exact ⟨_, hr⟩
      · exact ih x hx

end

/-! ## Expressions -/

section
variable (F : Type) [FloatOps F] [LawfulFloatOps F] [ReadsNumerals F] {X : World} {b : Bool}

variable (X b) in
/-- The claim for one expression. -/
def SafeE (e : Expr) : Prop :=
  ∀ {w : Use} {par : Par} {s : CState}, okE X.K w e = true → Inv X s → Safe b (visitE X.cfg X.mod par e) s

include F

theorem safe_parts (hN : X.Names) : ∀ (es : List Expr) (_ : ∀ e ∈ es, SafeE X b e) {tok : Token} {txt : CTy} {s : CState},
    okEs X.K es = true → exprTy X.K.reals txt = true → Inv X s → Safe b (visitParts X.cfg X.mod tok txt es) s
  | [], _, _, _, _, _, _, _ => by simp only [visitParts]; exact Safe.pure
  | e :: es, hg, tok, txt, s, hk, ht, hi => by
      simp only [okEs, Bool.and_eq_true] at hk
      simp only [visitParts]
      refine Safe.bind (hg e (by simp) hk.1 hi) fun a s1 h1 => ?_
      obtain ⟨⟨l, rfl⟩, ha⟩ := visitE_line F hN hi hk.1 h1
      obtain ⟨q, hq⟩ := cast_safe ha ht
      rw [← toTy_expr (s.atLine l).syms ha, ← toTy_expr (s.atLine l).syms ht] at hq
      refine Safe.next (view_ok.mpr ⟨rfl, rfl⟩) (Safe.next (view_ok.mpr ⟨rfl, rfl⟩) (Safe.next (C.lift_ok.mpr ⟨hq, rfl⟩) ?_))
      split
      · exact Safe.then (safe_parts hN es (fun x hx => hg x (by simp [hx])) hk.2 ht (hi.line l)) fun _ _ => Safe.pure
      · mild!

theorem safe_elems (hN : X.Names) : ∀ (es : List Expr) (_ : ∀ e ∈ es, SafeE X b e) {t : CTy} {k : Nat} {s : CState},
    okVs X.K es = true → dataTy X.K.reals t = true → Inv X s → Safe b (visitElems X.cfg X.mod t es k) s
  | [], _, _, _, _, _, _, _ => by simp only [visitElems]; exact Safe.pure
  | e :: es, hg, t, k, s, hk, ht, hi => by
      simp only [okVs, Bool.and_eq_true] at hk
      simp only [visitElems]
      refine Safe.bind (hg e (by simp) hk.1.1 hi) fun a s1 h1 => ?_
      obtain ⟨⟨l, rfl⟩, ha⟩ := visitE_line F hN hi hk.1.1 h1
      refine Safe.bind (Safe.matchTy (exprTy_data ht) ha) fun c s2 h2 => ?_
      obtain ⟨_, rfl⟩ := matchTy_ok h2
      have hi := hi.line l
      split
      · refine Safe.bind (Safe.promTy ha (exprTy_data ht)) fun p s3 h3 => ?_
        obtain ⟨_, rfl⟩ := promTy_ok h3
        exact Safe.then (safe_elems hN es (fun x hx => hg x (by simp [hx])) hk.2 ht (hi.line l)) fun _ _ => Safe.pure
      · mild!

/-- Arguments. -/
theorem safe_args (hN : X.Names) : ∀ (es : List Expr) (_ : ∀ e ∈ es, SafeE X b e) {s : CState},
    okEs X.K es = true → Inv X s → Safe b (visitArgs X.cfg X.mod es) s ∧
      ∀ as s', visitArgs X.cfg X.mod es s = .ok (as, s') → (∃ l, s' = s.atLine l) ∧ ∀ a ∈ as, exprTy X.K.reals a.ty = true
  | [], _, s, _, _ => by
      simp only [visitArgs]
      refine ⟨Safe.pure, fun as s' h => ?_⟩
      rw [C.pure_ok] at h
      obtain ⟨rfl, rfl⟩ := h
      exact ⟨⟨s'.ana.line, rfl⟩, by simp⟩
  | e :: es, hg, s, hk, hi => by
      simp only [okEs, Bool.and_eq_true] at hk
      simp only [visitArgs]
      split
      · exact ⟨by mild!, fun as s' h => by simp [C.bind_ok, C.error_ok] at h⟩
      · constructor
        · refine Safe.bind (hg e (by simp) hk.1 hi) fun a s1 h1 => ?_
          obtain ⟨⟨l, rfl⟩, ha⟩ := visitE_line F hN hi hk.1 h1
          exact Safe.then (safe_args hN es (fun x hx => hg x (by simp [hx])) hk.2 (hi.line l)).1 fun _ _ => Safe.pure
        · intro as s' h
          simp only [C.bind_ok, C.pure_ok] at h
          obtain ⟨a, s1, h1, as', s2, h2, rfl, rfl⟩ := h
          obtain ⟨⟨l, rfl⟩, ha⟩ := visitE_line F hN hi hk.1 h1
          obtain ⟨⟨m, rfl⟩, has⟩ := (safe_args hN es (fun x hx => hg x (by simp [hx])) hk.2 (hi.line l)).2 as' _ h2
          refine ⟨⟨m, rfl⟩, fun x hx => ?_⟩
          rcases List.mem_cons.mp hx with rfl | hx
          · exact ha
          · exact has x hx

theorem safe_all (hN : X.Names) : ∀ (es : List Expr) (_ : ∀ e ∈ es, SafeE X b e) {par : Par} {s : CState},
    okEs X.K es = true → Inv X s → Safe b (visitEs X.cfg X.mod par es) s ∧
      ∀ as s', visitEs X.cfg X.mod par es s = .ok (as, s') →
        (∃ l, s' = s.atLine l) ∧ as.length = es.length ∧ ∀ a ∈ as, exprTy X.K.reals a.ty = true
  | [], _, par, s, _, _ => by
      simp only [visitEs]
      refine ⟨Safe.pure, fun as s' h => ?_⟩
      rw [C.pure_ok] at h
      obtain ⟨rfl, rfl⟩ := h
      exact ⟨⟨s'.ana.line, rfl⟩, rfl, by simp⟩
  | e :: es, hg, par, s, hk, hi => by
      simp only [okEs, Bool.and_eq_true] at hk
      simp only [visitEs]
      constructor
      · refine Safe.bind (hg e (by simp) hk.1 hi) fun a s1 h1 => ?_
        obtain ⟨⟨l, rfl⟩, ha⟩ := visitE_line F hN hi hk.1 h1
        exact Safe.then (safe_all hN es (fun x hx => hg x (by simp [hx])) hk.2 (hi.line l)).1 fun _ _ => Safe.pure
      · intro as s' h
        simp only [C.bind_ok, C.pure_ok] at h
        obtain ⟨a, s1, h1, as', s2, h2, rfl, rfl⟩ := h
        obtain ⟨⟨l, rfl⟩, ha⟩ := visitE_line F hN hi hk.1 h1
        obtain ⟨⟨m, rfl⟩, hn, has⟩ := (safe_all hN es (fun x hx => hg x (by simp [hx])) hk.2 (hi.line l)).2 as' _ h2
        refine ⟨⟨m, rfl⟩, by simp [hn], fun x hx => ?_⟩
        rcases List.mem_cons.mp hx with rfl | hx
        · exact ha
        · exact has x hx

/-- Calls of functions of the library. -/
theorem safe_lib (hN : X.Names) {tok : Token} {es : List Expr} (hes : ∀ e ∈ es, SafeE X b e) {par : Par} {s : CState}
    (hlib : tok.str ∈ X.K.libs) (hk : okEs X.K es = true) (hu : okUse X.K tok.str es = true) (hi : Inv X s) :
    Safe b (visitE X.cfg X.mod par (.call (.var tok) es)) s := by
  have hnv : tok.str ∉ X.K.vars := fun hv => hN.away _ hv hlib
  simp only [visitE, visitCallee]
  refine Safe.next (a := ()) (C.at_ok.mpr rfl) ?_
  have hi := hi.line tok.line
  revert hi
  change Inv X (s.atLine tok.line) → Safe b _ (s.atLine tok.line)
  generalize s.atLine tok.line = s
  intro hi
  refine Safe.bind (Safe.then Safe.resolve fun r _ => by cases r <;> mild!) fun ⟨f, i⟩ s2 h2 => ?_
  rw [C.bind_ok] at h2
  obtain ⟨r, s1, h1, h2⟩ := h2
  obtain ⟨rfl, hr⟩ := resolve_ok h1
  cases r with
  | none => simp only [C.error_ok] at h2
  | some j =>
      simp only [C.pure_ok, Prod.mk.injEq] at h2
      obtain ⟨⟨rfl, rfl⟩, rfl⟩ := h2
      have hgl := hi.foundGlobal hi.ctx hnv (hr _ rfl)
      obtain ⟨i', hgl', hlt, x, ps, tags, t, hx, hxn, hglob, _, _, hsig, hbody, hps⟩ := hi.libs _ hlib
      obtain rfl : i' = i := by
        rw [hgl'] at hgl; exact Option.some.inj hgl
      by_cases hnb : isBuiltinFn x.name = true
      · refine Safe.next (a := .builtin x.name) (s' := s2) ?_ ?_
        · unfold callKind
          refine C.bind_ok.mpr ⟨x, s2, symOf_ok.mpr ⟨hx, rfl⟩, ?_⟩
          rw [hnb]
          rfl
        · rw [hxn] at hnb ⊢
          by_cases hnt : tok.str = "tam"
          · have hnv' : ¬ tok.str = "vec" := by rw [hnt]; decide
            simp only [if_neg hnv', if_pos hnt]
            refine Safe.bind Safe.checkArity fun _ s3 h3 => ?_
            obtain ⟨hlen, rfl⟩ := checkArity_ok h3
            obtain ⟨g1, g2⟩ := safe_all F hN es hes (par := .call) hk hi
            refine Safe.bind g1 fun as s4 h4 => ?_
            obtain ⟨⟨l, rfl⟩, hn, has⟩ := g2 as s4 h4
            have hi := hi.line l
            refine Safe.then ?_ fun _ _ => Safe.pure
            match as, hn.trans hlen with
            | [v], _ =>
                simp only [tamOp]
                split
                · exact Safe.then (Safe.globalTy hN hi (tag := .int) (by simp [words])) fun _ _ => Safe.pure
                · mild!
          have hname : tok.str = "anexa" ∨ tok.str = "remova" := by
            simp only [isBuiltinFn, Bool.or_eq_true, decide_eq_true_eq] at hnb
            rcases hnb with ((e | e) | e) | e
            · rw [e] at hsig; simp [libSig] at hsig
            · exact absurd e hnt
            · exact .inl e
            · exact .inr e
          have hnv' : ¬ tok.str = "vec" := by rcases hname with e | e <;> rw [e] <;> decide
          have hlen : ¬ es.length < 2 := by
            rcases hname with e | e <;> simp [okUse, e] at hu <;> omega
          simp only [if_neg hnv', if_neg hnt, if_neg hlen]
          refine Safe.bind Safe.checkArity fun _ s3 h3 => ?_
          obtain ⟨hlen, rfl⟩ := checkArity_ok h3
          obtain ⟨g1, g2⟩ := safe_all F hN es hes (par := .call) hk hi
          refine Safe.bind g1 fun as s4 h4 => ?_
          obtain ⟨⟨l, rfl⟩, hn, has⟩ := g2 as s4 h4
          have hi := hi.line l
          refine Safe.then ?_ fun _ _ => Safe.pure
          match as, hn.trans hlen with
          | [v, y], _ =>
              have hv := has v (by simp)
              have hy := has y (by simp)
              simp only [vecOp]
              cases hel : elemTy? v.ty with
              | none => mild!
              | some el =>
                  obtain ⟨_, hd⟩ := elemTy_ok hv hel
                  simp only
                  split
                  · refine Safe.bind (Safe.matchTy (exprTy_data hd) hy) fun c s5 h5 => ?_
                    obtain ⟨_, rfl⟩ := matchTy_ok h5
                    split
                    · refine Safe.bind (Safe.promTy hy (exprTy_data hd)) fun p s6 h6 => ?_
                      obtain ⟨_, rfl⟩ := promTy_ok h6
                      exact Safe.then (Safe.globalTy hN hi (tag := .vazio) (by simp [words])) fun _ _ => Safe.pure
                    · mild!
                  · refine Safe.then Safe.sameTy fun c _ => ?_
                    split <;> mild!
      · have hnb : isBuiltinFn x.name = false := by simpa using hnb
        refine Safe.next (a := .func) (s' := s2) ?_ (Safe.next (symOf_ok.mpr ⟨hx, rfl⟩) ?_)
        · unfold callKind
          refine C.bind_ok.mpr ⟨x, s2, symOf_ok.mpr ⟨hx, rfl⟩, ?_⟩
          rw [hnb]
          simp only [hbody, Bool.false_eq_true, if_false]
          rfl
        · simp only [CSym.isCallable, hbody, Bool.not_true, Bool.false_eq_true, if_false]
          obtain ⟨g1, g2⟩ := safe_args F hN es hes hk hi
          refine Safe.bind g1 fun as s3 h3 => ?_
          obtain ⟨⟨l, rfl⟩, has⟩ := g2 as s3 h3
          refine Safe.bind ?_ fun d s4 h4 => ?_
          · unfold callDesc
            simp only [hbody]
            exact Safe.next (C.pure_ok.mpr ⟨rfl, rfl⟩) Safe.pure
          obtain rfl := callDesc_ok hbody h4
          refine Safe.bind Safe.checkArity fun _ s5 h5 => ?_
          obtain ⟨_, rfl⟩ := checkArity_ok h5
          simp only [CSym.params, hbody]
          refine Safe.bind (Safe.paramTys fun p hp => ?_) fun ts s6 h6 => ?_
          · obtain ⟨tag, _, y, hy, hyb⟩ := forall₂_left hps p hp
            exact ⟨y, _, hy, hyb⟩
          obtain ⟨rfl, rfl⟩ := libParams_ok (s := s2.atLine l) hps h6
          rw [hxn] at hnb
          obtain ⟨g1, -⟩ := libSig_ty hsig hnb
          refine Safe.then (Safe.promArgs has fun t ht => ?_) fun _ _ => ?_
          · obtain ⟨tag, htag, rfl⟩ := List.mem_map.mp ht
            rcases g1 tag htag with rfl | rfl
            · exact .inl (by simp [dataTy])
            · exact .inr rfl
          · simp only [CSym.ty?, hbody]
            exact Safe.pure

theorem safe_call (hN : X.Names) {tok : Token} {es : List Expr} (hes : ∀ e ∈ es, SafeE X b e) : SafeE X b (.call (.var tok) es) := by
  intro w par s hk hi
  simp only [okE, Bool.or_eq_true, Bool.and_eq_true] at hk
  rcases hk with ⟨hfn, hk⟩ | ⟨⟨hlib, hk⟩, hu⟩
  rotate_left
  · exact safe_lib F hN hes (by simpa using hlib) hk hu hi
  have hfn : tok.str ∈ X.K.fns := by simpa using hfn
  have hnv : tok.str ∉ X.K.vars := fun hv => hN.apart _ hv hfn
  simp only [visitE, visitCallee]
  refine Safe.next (a := ()) (C.at_ok.mpr rfl) ?_
  have hi := hi.line tok.line
  revert hi
  change Inv X (s.atLine tok.line) → Safe b _ (s.atLine tok.line)
  generalize s.atLine tok.line = s
  intro hi
  refine Safe.bind (Safe.then Safe.resolve fun r _ => by cases r <;> mild!) fun ⟨f, i⟩ s2 h2 => ?_
  rw [C.bind_ok] at h2
  obtain ⟨r, s1, h1, h2⟩ := h2
  obtain ⟨rfl, hr⟩ := resolve_ok h1
  cases r with
  | none => simp only [C.error_ok] at h2
  | some j =>
      simp only [C.pure_ok, Prod.mk.injEq] at h2
      obtain ⟨⟨rfl, rfl⟩, rfl⟩ := h2
      have hgl := hi.foundGlobal hi.ctx hnv (hr _ rfl)
      have hb : X.b ≤ i := by
        by_contra hb
        exact (hi.old _ _ hgl (Nat.lt_of_not_le hb)).1 hfn
      obtain ⟨x, hx, hxn⟩ := hi.new X.g _ _ (.inl rfl) hgl hb
      obtain ⟨_, _, hm⟩ := hi.syms i x hb hx
      rcases hm with ⟨u, _, _, hvar⟩ | ⟨t, ps, hbody, hty, _, hglob, hps⟩
      · rw [hxn] at hvar
        exact absurd hvar hnv
      · have hnb : isBuiltinFn x.name = false := by
          have := hN.fns _ hfn
          rw [hxn]
          simp only [reserved, List.mem_cons, not_or] at this
          simp [isBuiltinFn, this]
        refine Safe.next (a := .func) (s' := s2) ?_ (Safe.next (symOf_ok.mpr ⟨hx, rfl⟩) ?_)
        · unfold callKind
          refine C.bind_ok.mpr ⟨x, s2, symOf_ok.mpr ⟨hx, rfl⟩, ?_⟩
          rw [hnb]
          simp only [hbody, Bool.false_eq_true, if_false]
          rfl
        · simp only [CSym.isCallable, hbody, Bool.not_true, Bool.false_eq_true, if_false]
          obtain ⟨g1, g2⟩ := safe_args F hN es hes (okVs_okEs hk) hi
          refine Safe.bind g1 fun as s3 h3 => ?_
          obtain ⟨⟨l, rfl⟩, has⟩ := g2 as s3 h3
          refine Safe.bind ?_ fun d s4 h4 => ?_
          · unfold callDesc
            simp only [hbody]
            exact Safe.next (C.pure_ok.mpr ⟨rfl, rfl⟩) Safe.pure
          obtain rfl := callDesc_ok hbody h4
          refine Safe.bind Safe.checkArity fun _ s5 h5 => ?_
          obtain ⟨_, rfl⟩ := checkArity_ok h5
          simp only [CSym.params, hbody]
          have hi' := hi.line l
          refine Safe.bind (Safe.paramTys fun p hp => ?_) fun ts s6 h6 => ?_
          · obtain ⟨_, y, u, hy, hyb⟩ := hps p hp
            exact ⟨y, u, hy, hyb⟩
          obtain ⟨rfl, _, hd, _⟩ := paramTys_ok (hi'.until _) (Later.refl _).agree hps h6
          refine Safe.then (Safe.promArgs has fun t ht => .inl (hd t ht)) fun _ _ => ?_
          simp only [CSym.ty?, hbody]
          exact Safe.pure

/-- Expressions of the fragment make the checker fail in no unexpected way. -/
theorem safeE (hN : X.Names) (e : Expr) : SafeE X b e := by
  cases e with
  | const tok =>
      intro w par s hk hi
      simp only [visitE]
      exact Safe.next (a := ()) (C.at_ok.mpr rfl) (Safe.then (Safe.constTy hN (hi.line _) hk) fun _ _ => Safe.pure)
  | fmtStr tok es =>
      intro w par s hk hi
      simp only [visitE]
      refine Safe.next (a := ()) (C.at_ok.mpr rfl) (Safe.bind (Safe.globalTy hN (hi.line _) (tag := .texto) (by simp [words])) fun t s1 h1 => ?_)
      obtain ⟨rfl, rfl⟩ := globalTy_ok hN (hi.line _) (tag := .texto) (by simp [words]) h1
      exact Safe.then (safe_parts F hN es (fun e _ => safeE hN e) hk (by simp [exprTy, dataTy]) (hi.line _)) fun _ _ => Safe.pure
  | var tok =>
      intro w par s hk hi
      simp only [visitE]
      exact Safe.next (a := ()) (C.at_ok.mpr rfl) (Safe.then (Safe.useVar (hi.line _)) fun _ _ => Safe.pure)
  | converta tok e ty =>
      intro w par s hk hi
      simp only [okE, Bool.and_eq_true] at hk
      simp only [visitE]
      refine Safe.next (a := ()) (C.at_ok.mpr rfl) (Safe.bind (safeE hN e hk.1 (hi.line _)) fun a s1 h1 => ?_)
      obtain ⟨⟨l, rfl⟩, ha⟩ := visitE_line F hN (hi.line _) hk.1 h1
      refine Safe.bind (Safe.getTy hN ((hi.line _).line l) hk.2) fun t s2 h2 => ?_
      obtain ⟨hd, _⟩ := getTy_ok hN ((hi.line _).line l) hk.2 h2
      exact Safe.convTy ha (exprTy_data hd)
  | bin tok e1 e2 =>
      intro w par s hk hi
      simp only [okE, Bool.and_eq_true] at hk
      simp only [visitE]
      refine Safe.next (a := ()) (C.at_ok.mpr rfl) (Safe.bind (safeE hN e1 hk.1.2 (hi.line _)) fun a s1 h1 => ?_)
      obtain ⟨⟨l, rfl⟩, ha⟩ := visitE_line F hN (hi.line _) hk.1.2 h1
      refine Safe.bind (safeE hN e2 hk.2 ((hi.line _).line l)) fun c s2 h2 => ?_
      obtain ⟨⟨m, rfl⟩, hc⟩ := visitE_line F hN ((hi.line _).line l) hk.2 h2
      exact Safe.binTy ha hc
  | un tok e =>
      intro w par s hk hi
      simp only [okE, Bool.and_eq_true] at hk
      simp only [visitE]
      exact Safe.next (a := ()) (C.at_ok.mpr rfl) (Safe.then (safeE hN e hk.2 (hi.line _)) fun _ _ => Safe.unTy)
  | assign tok l e =>
      cases l with
      | var tk =>
          intro w par s hk hi
          simp only [okE, Bool.and_eq_true] at hk
          obtain ⟨⟨⟨_, hv⟩, hk⟩, _⟩ := hk
          rw [visitE]
          refine Safe.next (a := ()) (C.at_ok.mpr rfl) (Safe.bind (safeE hN e hk (hi.line _)) fun y s1 h1 => ?_)
          obtain ⟨⟨l, rfl⟩, hy⟩ := visitE_line F hN (hi.line _) hk h1
          have hi2 := (hi.line tok.line).line l
          have hvar : okE X.K .value (.var tk) = true := by simpa [okE] using hv
          refine Safe.bind (safeE hN (.var tk) hvar hi2) fun x s2 h2 => ?_
          obtain ⟨-, hx⟩ := visitE_line F hN hi2 hvar h2
          obtain ⟨rfl, j, z, hj, hz⟩ := visitVar_ok h2
          unfold assignTy
          refine Safe.next hj (Safe.next (symOf_ok.mpr ⟨hz, rfl⟩) ?_)
          split
          · mild!
          · split
            · mild!
            · refine Safe.then (Safe.promTy hy hx) fun _ _ => Safe.then (Safe.matchTy hx hy) fun c _ => ?_
              split <;> mild!
      | _ => intro w par s hk; simp [okE] at hk
  | list tok ty es =>
      intro w par s hk hi
      simp only [okE, Bool.and_eq_true] at hk
      simp only [visitE]
      refine Safe.next (a := ()) (C.at_ok.mpr rfl) (Safe.bind (Safe.getTy hN (hi.line _) hk.1) fun t s1 h1 => ?_)
      obtain ⟨hd, rfl, _⟩ := getTy_ok hN (hi.line _) hk.1 h1
      exact Safe.then (safe_elems F hN es (fun e _ => safeE hN e) hk.2 hd (hi.line _)) fun _ _ => Safe.pure
  | call f es =>
      cases f with
      | var => exact safe_call F hN fun e _ => safeE hN e
      | _ => intro w par s hk; simp [okE] at hk
  | index tok e1 e2 =>
      intro w par s hk hi
      simp only [okE, Bool.and_eq_true] at hk
      simp only [visitE]
      refine Safe.next (a := ()) (C.at_ok.mpr rfl) (Safe.bind (safeE hN e1 hk.1 (hi.line _)) fun a s1 h1 => ?_)
      obtain ⟨⟨l, rfl⟩, ha⟩ := visitE_line F hN (hi.line _) hk.1 h1
      exact Safe.then (safeE hN e2 hk.2 ((hi.line _).line l)) fun c s2 => Safe.indexTy
  | indexSet tok i e =>
      cases i with
      | index tk e1 e2 =>
          intro w par s hk hi
          simp only [okE, Bool.and_eq_true] at hk
          obtain ⟨⟨⟨⟨_, h1⟩, h2⟩, h3⟩, _⟩ := hk
          have hix : okE X.K .value (.index tk e1 e2) = true := by simp [okE, h1, h2]
          rw [visitE]
          refine Safe.next (a := ()) (C.at_ok.mpr rfl) (Safe.bind (safeE hN (.index tk e1 e2) hix (hi.line _)) fun x s1 h4 => ?_)
          obtain ⟨⟨l, rfl⟩, hx⟩ := visitE_line F hN (hi.line _) hix h4
          refine Safe.bind (Safe.indexSetOk hx) fun _ s2 h5 => ?_
          obtain rfl := indexSetOk_same hx h5
          refine Safe.bind (safeE hN e h3 ((hi.line _).line l)) fun y s3 h6 => ?_
          obtain ⟨⟨m, rfl⟩, hy⟩ := visitE_line F hN ((hi.line _).line l) h3 h6
          refine Safe.then (Safe.matchTy hx hy) fun c _ => ?_
          split <;> mild!
      | _ => intro w par s hk; simp [okE] at hk
  | _ => intro w par s hk; simp [okE] at hk
  termination_by sizeOf e

end

end Amanda.Check

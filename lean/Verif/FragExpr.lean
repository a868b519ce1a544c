import Verif.FragE

namespace Amanda.Check

open Source

section
variable {F : Type} [FloatOps F] {X : World} {L : Lang}

theorem setProm_ty (a : AExpr) (p : Ty) : (a.setProm p).ty = a.ty := by cases a; rfl

theorem setProm_keeps (a : AExpr) (p : Ty) : (a.setProm p).keeps = a.keeps := by cases a; rfl

theorem atLine_atLine (s : CState) (l m : Nat) : (s.atLine l).atLine m = s.atLine m := rfl

/-- An expression used as it is. -/
theorem EHas.self {u : Use} {Γ : List SymId} {e : Expr} {a : AExpr} (h : EHas F X L u Γ e a) : TypedAs F X L u Γ a (toTy [] a.ty) := by
  have := h.has .unknown (toTy [] a.ty) (by
    split
    · exact .none _ _ (by simp)
    · rfl)
  rwa [h.fresh] at this

/-- Where a value of a type is wanted. -/
theorem EHas.target {w : Use} {Γ : List SymId} {e : Expr} {a : AExpr} (h : EHas F X L w Γ e a) (hk : okTarget X.K e = true) {t : CTy}
    (ht : dataTy X.K.reals t = true) {q : Option Ty} (hm : Ty.typesMatch (toTy [] t) (toTy [] a.ty) = .ok true)
    (hq : Ty.promote (toTy [] a.ty) (toTy [] t) = .ok q) : TypedAs F X L w Γ (a.setProm (q.getD .unknown)) (toTy [] t) := by
  refine h.has _ _ ?_
  by_cases hkeep : a.keeps = true
  · rw [if_pos hkeep]
    exact match_prom ht h.ty hm hq
  · rw [if_neg hkeep]
    rcases match_cases ht h.ty hm with e' | ⟨hr, rfl, hu⟩
    · rw [e']
    · exfalso
      simp only [okTarget, Bool.or_eq_true, Bool.not_eq_true', hr, Bool.true_eq_false, false_or] at hk
      rcases hk with hk | hk
      · exact hkeep (h.keep hk)
      · exact h.int hk hu

theorem toEs_ok {Γ Γ' : List SymId} {sc : Option ScopeId} (hsub : Γ ⊆ Γ') (hsc : Reach X L sc) :
    ∀ {as : List AExpr} {ts : List Ty}, List.Forall₂ (TypedAs F X L .value Γ) as ts →
      ∃ es, toEs X.mod X.g true as X.sf = .ok (es, X.sf) ∧ TEs F L X.table Γ' sc es ts
  | [], _, h => by
      cases h
      exact ⟨[], by simp only [toEs]; rfl, .nil⟩
  | a :: as, _, h => by
      cases h with
      | cons ha has =>
          obtain ⟨e, he, hte⟩ := ha Γ' sc hsub hsc
          obtain ⟨es, hes, htes⟩ := toEs_ok hsub hsc has
          refine ⟨e :: es, ?_, .cons hte htes⟩
          simp only [toEs]
          exact C.bind_ok.mpr ⟨_, _, he, C.bind_ok.mpr ⟨_, _, hes, rfl⟩⟩

/-- A visited variable. -/
theorem useVar_ok {s s' : CState} {Γ : List SymId} {av : Option String} (h : Sit X s Γ av) {tok : Token} {t : CTy} {i : SymId}
    (hav : some tok.str ≠ av) (hu : useVar tok s = .ok ((t, i), s')) :
    s' = s ∧ dataTy X.K.reals t = true ∧ i ∈ Γ ∧ X.vty i = some (toTy [] t) ∧ Seen s.scopes tok.str s.ana.ctxScope i ∧
      ∃ x, s.syms[i]? = some x ∧ x.modPath = X.mod ∧ x.body = .var t := by
  unfold useVar at hu
  rw [C.bind_ok] at hu
  obtain ⟨r, s1, hr, hu⟩ := hu
  obtain ⟨rfl, hr⟩ := resolve_ok hr
  cases r with
  | none => simp only [C.error_ok] at hu
  | some j =>
      simp only [C.bind_ok, symOf_ok] at hu
      obtain ⟨x, s2, ⟨hx, rfl⟩, hu⟩ := hu
      split at hu
      · rw [C.bind_ok] at hu
        obtain ⟨_, _, _, hu⟩ := hu
        simp only [C.error_ok] at hu
      · rename_i hc
        have hc : x.canEvaluate = true := by simpa using hc
        have hsee := hr j rfl
        obtain ⟨k, hk, hl⟩ := h.inv.found h.inv.ctx hsee
        have hb : X.b ≤ j := by
          by_contra hb
          have hb : j < X.b := Nat.lt_of_not_le hb
          rcases hk with rfl | hk
          · obtain ⟨_, y, hy, hy'⟩ := h.inv.old _ _ hl hb
            rw [hx] at hy
            cases hy
            rw [hc] at hy'
            cases hy'
          · exact absurd (h.inv.innerNames k _ _ hk hl).2 (Nat.not_le_of_lt hb)
        obtain ⟨hmod, _, hm⟩ := h.inv.syms j x hb hx
        rcases hm with ⟨u, hbody, hd, _⟩ | ⟨u, ps, hbody, _⟩
        · simp only [CSym.ty?, hbody, C.pure_ok, Prod.mk.injEq] at hu
          obtain ⟨⟨rfl, rfl⟩, rfl⟩ := hu
          refine ⟨rfl, hd, h.vis _ _ x _ hsee hav hx hbody hb, ?_, hsee, x, hx, hmod, hbody⟩
          obtain ⟨y, hy, hyb, _⟩ := h.agree.syms _ x hx
          simp [World.vty, hb, hy, hyb, hbody]
        · simp [CSym.canEvaluate, hbody] at hc

theorem basic_of {r : Bool} {t : CTy} (h : exprTy r t = true) {tag : PTag} (ht : t = .prim tag) (hne : tag ≠ .vazio) :
    Basic (toTy [] t) := by
  subst ht
  rcases expr_cases h with h | h
  · rcases data_cases h with h | h | h | ⟨_, h⟩ | ⟨u, h, _⟩
    · cases h; exact .int
    · cases h; exact .bool
    · cases h; exact .texto
    · cases h; exact .real
    · cases h
  · cases h; exact absurd rfl hne

/-- Types of expressions, one by one. -/
theorem ty_cases {r : Bool} {t : CTy} (h : exprTy r t = true) :
    t = .prim .int ∨ t = .prim .bool ∨ t = .prim .texto ∨ (r = true ∧ t = .prim .real) ∨ (∃ u, t = .vec u) ∨ t = .prim .vazio := by
  rcases expr_cases h with h | h
  · rcases data_cases h with h | h | h | h | ⟨u, h, _⟩
    · exact .inl h
    · exact .inr (.inl h)
    · exact .inr (.inr (.inl h))
    · exact .inr (.inr (.inr (.inl h)))
    · exact .inr (.inr (.inr (.inr (.inl ⟨u, h⟩))))
  · exact .inr (.inr (.inr (.inr (.inr h))))


/-! ## Kinds of expressions -/

theorem constTy_ok [LawfulFloatOps F] [ReadsNumerals F] (hN : X.Names) {s s' : CState} (h : Inv X s) {tok : Token}
    (hk : okLit X.K.reals tok = true) {t : CTy} (ht : constTy tok s = .ok (t, s')) :
    s' = s ∧ dataTy X.K.reals t = true ∧ (∃ v : Val F, literal tok.str = some v ∧ HasTy (fun _ => none) (toTy [] t) v) ∧ textOk tok.str = true ∧
      (tok.tt ≠ .integer → t ≠ .prim .int) := by
  obtain ⟨tt, lexeme, line, col⟩ := tok
  unfold okLit at hk
  unfold constTy at ht
  simp only at hk ht
  split at hk
  · rename_i n
    simp only [C.bind_ok] at ht
    obtain ⟨u, s1, h1, h2⟩ := ht
    obtain ⟨rfl, rfl⟩ := namedTy_ok hN h (tag := .int) (by simp [words]) h1
    split at h2
    · simp only [C.error_ok] at h2
    · rename_i hle
      rw [C.pure_ok] at h2
      obtain ⟨rfl, rfl⟩ := h2
      have hi : InI64 (n : Int) := by
        have : n ≤ 2 ^ 63 - 1 := by simpa [maxInt] using hle
        unfold InI64
        omega
      have hstr : Token.str ⟨.integer, .int n, line, col⟩ = toString (n : Int) := by
        simp [Token.str, Token.chars, Lexeme.chars]
        rfl
      have hp := (parseI64_iff _ _).mpr ⟨hi, signedDecimal_toString (n : Int)⟩
      exact ⟨rfl, by simp [dataTy], ⟨.int n, by rw [hstr]; exact literal_int hp, .int _ hi⟩, by rw [hstr]; exact textOk_of_head (parseI64_head hp), by simp⟩
  · rename_i str
    simp only [Bool.and_eq_true] at hk
    rw [C.pure_ok] at ht
    obtain ⟨rfl, rfl⟩ := ht
    have hstr : Token.str ⟨.real, .real str, line, col⟩ = str := by
      simp [Token.str, Token.chars, Lexeme.chars]
    obtain ⟨x, hx⟩ := literal_real (F := F) hk.2
    exact ⟨rfl, by simp [dataTy, hk.1], ⟨.f64 x, by rw [hstr]; exact hx, .real _⟩, by rw [hstr]; exact textOk_numeral hk.2, by simp⟩
  · rename_i cs
    rw [C.pure_ok] at ht
    obtain ⟨rfl, rfl⟩ := ht
    obtain ⟨⟨x, hx⟩, hok⟩ := literal_text (F := F) (s := String.ofList cs) (by simpa using hk)
    exact ⟨rfl, by simp [dataTy], ⟨.str x, hx, .texto _⟩, hok, by simp⟩
  · rename_i cs
    rw [C.pure_ok] at ht
    obtain ⟨rfl, rfl⟩ := ht
    have : cs = "verdadeiro".toList := eq_of_beq hk
    subst this
    have : Token.str ⟨.verdadeiro, .text "verdadeiro".toList, line, col⟩ = "verdadeiro" := by
      simp [Token.str, Token.chars, Lexeme.chars]
    rw [this]
    exact ⟨rfl, by simp [dataTy], ⟨.bool true, by simp [literal, constOfStr], .bool _⟩, by decide +kernel, by simp⟩
  · rename_i cs
    rw [C.pure_ok] at ht
    obtain ⟨rfl, rfl⟩ := ht
    have : cs = "falso".toList := eq_of_beq hk
    subst this
    have : Token.str ⟨.falso, .text "falso".toList, line, col⟩ = "falso" := by
      simp [Token.str, Token.chars, Lexeme.chars]
    rw [this]
    exact ⟨rfl, by simp [dataTy], ⟨.bool false, by simp [literal, constOfStr], .bool _⟩, by decide +kernel, by simp⟩
  · cases hk

/-- The operands of an operator that is accepted. -/
theorem binop_operands {r : Bool} {t u : CTy} (ht : exprTy r t = true) (hu : exprTy r u = true) {op : TT} {v : Ty}
    (h : Ty.binop (toTy [] t) op (toTy [] u) = some v) :
    Basic (toTy [] t) ∧ Basic (toTy [] u) := by
  rcases ty_cases ht with rfl | rfl | rfl | ⟨_, rfl⟩ | ⟨t', rfl⟩ | rfl <;>
    rcases ty_cases hu with rfl | rfl | rfl | ⟨_, rfl⟩ | ⟨u', rfl⟩ | rfl <;>
    simp only [toTy] at h ⊢ <;>
    first
    | exact ⟨by constructor, by constructor⟩
    | (exfalso; revert h; cases op <;> simp [Ty.binop, Ty.primitiveBinop, Ty.isOperable, Ty.isPrim, Ty.isNumeric, Ty.eqv, Ty.eqD, Ty.promotionTo, Ty.autoCast])


/-- An operand, with the conversion asked for by the other one where it is carried out. -/
theorem EHas.operand {Γ : List SymId} {e : Expr} {a : AExpr} (h : EHas F X L .value Γ e a) {u : CTy} (hu : exprTy X.K.reals u = true)
    {q : Option Ty} (hq : Ty.promote (toTy [] a.ty) (toTy [] u) = .ok q) :
    ∃ A, TypedAs F X L .value Γ (a.setProm (q.getD .unknown)) A ∧
      (A = toTy [] a.ty ∨ (X.K.reals = true ∧ a.ty = .prim .int ∧ u = .prim .real ∧ A = .real)) := by
  by_cases hc : a.keeps = true ∧ q = some .real
  · obtain ⟨hk, rfl⟩ := hc
    refine ⟨.real, h.has _ _ ?_, .inr ?_⟩
    · rw [if_pos hk]
      have : a.ty = .prim .int := by
        have := h.ty
        rcases ty_cases this with e | e | e | ⟨_, e⟩ | ⟨_, e⟩ | e <;>
          rcases ty_cases hu with e' | e' | e' | ⟨_, e'⟩ | ⟨_, e'⟩ | e' <;> rw [e, e'] at hq <;>
          simp_all [toTy, Ty.promote, Ty.promotionTo, Ty.autoCast]
      rw [this]
      exact .real
    · have := h.ty
      rcases ty_cases this with e | e | e | ⟨_, e⟩ | ⟨_, e⟩ | e <;>
        rcases ty_cases hu with e' | e' | e' | ⟨hr, e'⟩ | ⟨_, e'⟩ | e' <;> rw [e, e'] at hq <;>
        simp_all [toTy, Ty.promote, Ty.promotionTo, Ty.autoCast]
  · refine ⟨toTy [] a.ty, h.has _ _ ?_, .inl rfl⟩
    split
    · rename_i hk
      refine .none _ _ fun he => hc ⟨hk, ?_⟩
      cases q with
      | none => simp at he
      | some v => simp at he; rw [he]
    · rfl

theorem binop_result {r : Bool} {t u : CTy} (ht : exprTy r t = true) (hu : exprTy r u = true) {op : TT} {v : Ty}
    (hop : okOp r op = true) (h : Ty.binop (toTy [] t) op (toTy [] u) = some v) :
    exprTy r (ofPrim v) = true ∧ toTy [] (ofPrim v) = v ∧
      (op = .doubleslash → toTy [] t = .int ∧ toTy [] u = .int) := by
  rcases ty_cases ht with rfl | rfl | rfl | ⟨hr, rfl⟩ | ⟨t', rfl⟩ | rfl <;>
    rcases ty_cases hu with rfl | rfl | rfl | ⟨hr', rfl⟩ | ⟨u', rfl⟩ | rfl <;>
    simp only [toTy] at h ⊢ <;> revert h hop <;>
    cases op <;> simp [Ty.binop, Ty.primitiveBinop, Ty.isOperable, Ty.isPrim, Ty.isNumeric, Ty.eqv, Ty.eqD, Ty.promotionTo, Ty.autoCast,
      okOp] <;> (try rintro rfl) <;> simp_all [ofPrim, toTy, exprTy, dataTy] <;> (try intro h) <;> subst_vars <;>
      simp_all [toTy, dataTy]

theorem binop_widen {op : TT} {v : Ty} (hd : op ≠ .doubleslash) :
    (Ty.binop .int op .real = some v → Ty.binop .real op .real = some v) ∧
    (Ty.binop .real op .int = some v → Ty.binop .real op .real = some v) := by
  cases op <;> simp [Ty.binop, Ty.primitiveBinop, Ty.isOperable, Ty.isPrim, Ty.isNumeric, Ty.eqv, Ty.eqD] at hd ⊢


theorem bin_has {w : Use} {Γ : List SymId} {e1 e2 : Expr} {a b : AExpr} {tok : Token} (ha : EHas F X L .value Γ e1 a) (hb : EHas F X L .value Γ e2 b)
    (hop : okOp X.K.reals tok.tt = true) {v : Ty} (h : Ty.binop (toTy [] a.ty) tok.tt (toTy [] b.ty) = some v)
    {p q : Option Ty} (hp : Ty.promote (toTy [] a.ty) (toTy [] b.ty) = .ok p)
    (hq : Ty.promote (toTy [] b.ty) (toTy [] a.ty) = .ok q) :
    EHas F X L w Γ (.bin tok e1 e2)
      (.mk (ofPrim v) .unknown (.bin tok (a.setProm (p.getD .unknown)) (b.setProm (q.getD .unknown)))) := by
  obtain ⟨hty, hof, hds⟩ := binop_result ha.ty hb.ty hop h
  refine ⟨hty, rfl, ?_, fun _ => rfl, (fun hn => by simp [notInt] at hn), fun hn => by simp [changes] at hn⟩
  rintro pr t ht
  rw [if_pos (by simp [AExpr.keeps, ANode.keeps])] at ht
  change Prom pr (toTy [] (ofPrim v)) t at ht
  rw [hof] at ht
  obtain ⟨A, hA, cA⟩ := ha.operand hb.ty hp
  obtain ⟨B, hB, cB⟩ := hb.operand ha.ty hq
  obtain ⟨bA, bB⟩ := binop_operands ha.ty hb.ty h
  rintro Γ' sc hsub hsc
  obtain ⟨x, hx, tx⟩ := hA Γ' sc hsub hsc
  obtain ⟨y, hy, ty⟩ := hB Γ' sc hsub hsc
  have notNulo : ∀ {u : CTy}, exprTy X.K.reals u = true → toTy X.sf.syms u ≠ .nulo := by
    intro u hu
    rcases ty_cases hu with rfl | rfl | rfl | ⟨_, rfl⟩ | ⟨_, rfl⟩ | rfl <;> simp [toTy]
  refine ⟨.bin tok.line tok.tt x y (toTy X.sf.syms a.ty) (toTy X.sf.syms b.ty) pr, ?_, ?_⟩
  · simp only [AExpr.setProm, toE]
    rw [setProm_ty] at hx hy
    exact C.bind_ok.mpr ⟨_, _, hx, C.bind_ok.mpr ⟨_, _, hy, C.bind_ok.mpr ⟨_, _, view_ok.mpr ⟨rfl, rfl⟩,
      C.bind_ok.mpr ⟨_, _, view_ok.mpr ⟨rfl, rfl⟩, rfl⟩⟩⟩⟩
  · have hn : nuloTest tok.tt x y (toTy X.sf.syms a.ty) (toTy X.sf.syms b.ty) = none := by
      unfold nuloTest
      split
      · rw [if_neg (fun hc => notNulo ha.ty hc.1), if_neg (fun hc => notNulo hb.ty hc.1)]
      · rfl
    have hn' : Codegen.nullTest tok.tt (toTy X.sf.syms a.ty) (toTy X.sf.syms b.ty) = none := by
      unfold Codegen.nullTest
      simp [notNulo ha.ty, notNulo hb.ty]
    rcases cA with rfl | ⟨hr, ea, eb, rfl⟩ <;> rcases cB with rfl | ⟨hr', ea', eb', rfl⟩
    · exact .bin tx ty bA bB hn hn' h hds ht
    · have hnd : tok.tt ≠ .doubleslash := by
        intro e; rw [e] at hop; simp [okOp, hr'] at hop
      rw [ea', eb'] at h
      rw [eb'] at tx
      exact .bin tx ty .real .real hn hn' ((binop_widen hnd).2 h) (fun e => absurd e hnd) ht
    · have hnd : tok.tt ≠ .doubleslash := by
        intro e; rw [e] at hop; simp [okOp, hr] at hop
      rw [ea, eb] at h
      rw [eb] at ty
      exact .bin tx ty .real .real hn hn' ((binop_widen hnd).1 h) (fun e => absurd e hnd) ht
    · rw [ea] at eb'
      cases eb'

theorem un_has {w : Use} {Γ : List SymId} {e : Expr} {a : AExpr} {tok : Token} (ha : EHas F X L .value Γ e a) (hop : tok.tt ≠ .plus)
    {v : Ty} (h : Ty.unaryop (toTy [] a.ty) tok.tt = some v) :
    EHas F X L w Γ (.un tok e) (.mk (ofPrim v) .unknown (.un tok a)) := by
  have hb : Basic (toTy [] a.ty) ∧ v = toTy [] a.ty ∧ ofPrim v = a.ty := by
    rcases ty_cases ha.ty with e | e | e | ⟨_, e⟩ | ⟨_, e⟩ | e <;> rw [e] at h ⊢ <;> simp only [toTy] at h ⊢ <;>
      revert h <;> cases tok.tt <;> simp [Ty.unaryop] <;> rintro rfl <;> exact ⟨by constructor, rfl, rfl⟩
  obtain ⟨hb, hv, hof⟩ := hb
  rw [hof]
  refine ⟨ha.ty, rfl, ?_, fun _ => rfl, (fun hn => by simp [notInt] at hn), fun hn => by simp [changes] at hn⟩
  rintro pr t ht
  rw [if_pos (by simp [AExpr.keeps, ANode.keeps])] at ht
  change Prom pr (toTy [] a.ty) t at ht
  rintro Γ' sc hsub hsc
  obtain ⟨x, hx, tx⟩ := ha.self Γ' sc hsub hsc
  refine ⟨.un tok.line tok.tt x pr, ?_, .un tx hb (hv ▸ h) hop ht⟩
  simp only [AExpr.setProm, toE]
  exact C.bind_ok.mpr ⟨_, _, hx, rfl⟩

theorem const_has {w : Use} {Γ : List SymId} {tok : Token} {t : CTy} (ht : dataTy X.K.reals t = true) {v : Val F}
    (hv : literal tok.str = some v) (hok : textOk tok.str = true) (hty : HasTy (fun _ => none) (toTy [] t) v) (hi : tok.tt ≠ .integer → t ≠ .prim .int) :
    EHas F X L w Γ (.const tok) (.mk t .unknown (.const tok)) := by
  refine ⟨by simp [exprTy, AExpr.ty, ht], rfl, ?_, fun _ => rfl, (fun hn => hi (by simpa [notInt] using hn)), fun hn => by simp [changes] at hn⟩
  rintro pr u hu
  rw [if_pos (by simp [AExpr.keeps, ANode.keeps])] at hu
  rintro Γ' sc hsub hsc
  refine ⟨.const tok.line tok.str pr, ?_, .const v hv hty hok hu⟩
  simp only [AExpr.setProm, toE]
  rfl

theorem var_has {w : Use} {Γ : List SymId} {tok : Token} {t : CTy} {i : SymId} (ht : dataTy X.K.reals t = true) (hi : i ∈ Γ)
    (hv : X.vty i = some (toTy [] t)) : EHas F X L w Γ (.var tok) (.mk t .unknown (.var tok (some i))) := by
  refine ⟨by simp [exprTy, AExpr.ty, ht], rfl, ?_, fun _ => rfl, (fun hn => by simp [notInt] at hn), fun hn => by simp [changes] at hn⟩
  rintro pr u hu
  rw [if_pos (by simp [AExpr.keeps, ANode.keeps])] at hu
  rintro Γ' sc hsub hsc
  refine ⟨.var tok.line tok.str (some i) pr, ?_, .var i (hsub hi) hv hu⟩
  simp only [AExpr.setProm, toE]
  rfl

theorem conv_has {w : Use} {Γ : List SymId} {e : Expr} {ty : TyExpr} {a : AExpr} {tok : Token} {t : CTy} (ha : EHas F X L .value Γ e a)
    (ht : dataTy X.K.reals t = true) (h : Ty.checkCast (toTy [] a.ty) (toTy [] t) = .ok true)
    (hi : notInt (.converta tok e ty) = true → t ≠ .prim .int) :
    EHas F X L w Γ (.converta tok e ty) (.mk t .unknown (.converta tok a)) := by
  refine ⟨by simp [exprTy, AExpr.ty, ht], rfl, ?_, (fun hn => by simp [converts] at hn), hi, fun hn => by simp [changes] at hn⟩
  rintro pr u hu
  rw [if_neg (by simp [AExpr.keeps, ANode.keeps])] at hu
  subst hu
  rintro Γ' sc hsub hsc
  obtain ⟨x, hx, tx⟩ := ha.self Γ' sc hsub hsc
  refine ⟨.converta tok.line x (toTy X.sf.syms a.ty) (toTy X.sf.syms t), ?_, ?_⟩
  · simp only [AExpr.setProm, toE]
    exact C.bind_ok.mpr ⟨_, _, hx, C.bind_ok.mpr ⟨_, _, view_ok.mpr ⟨rfl, rfl⟩,
      C.bind_ok.mpr ⟨_, _, view_ok.mpr ⟨rfl, rfl⟩, rfl⟩⟩⟩
  · rw [toTy_expr _ ha.ty, toTy_data _ ht]
    refine .converta tx (.cast _ _ ?_ ?_ h)
    · rcases ty_cases ha.ty with e | e | e | ⟨_, e⟩ | ⟨_, e⟩ | e <;> rw [e] at h ⊢ <;> simp only [toTy] at h ⊢
      · constructor
      · constructor
      · constructor
      · constructor
      · exfalso; revert h
        rcases data_cases ht with rfl | rfl | rfl | ⟨_, rfl⟩ | ⟨_, rfl, _⟩ <;> simp [toTy, Ty.checkCast, Ty.castTo]
      · exfalso; revert h
        rcases data_cases ht with rfl | rfl | rfl | ⟨_, rfl⟩ | ⟨_, rfl, _⟩ <;> simp [toTy, Ty.checkCast, Ty.castTo, Ty.castTable]
    · rcases data_cases ht with rfl | rfl | rfl | ⟨_, rfl⟩ | ⟨w, rfl, _⟩ <;> simp only [toTy]
      · constructor
      · constructor
      · constructor
      · constructor
      · exfalso; revert h
        rcases ty_cases ha.ty with e | e | e | ⟨_, e⟩ | ⟨_, e⟩ | e <;> rw [e] <;> simp [toTy, Ty.checkCast, Ty.castTo]

theorem assign_has {w : Use} {Γ : List SymId} {e1 e : Expr} {r : AExpr} {tok tok' : Token} {t : CTy} {pr : Ty} {i : SymId}
    (hw : w ≠ .value) (hi : i ∈ Γ) (ht : dataTy X.K.reals t = true) (hv : X.vty i = some (toTy [] t)) (hr : TypedAs F X L .rhs Γ r (toTy [] t)) :
    EHas F X L w Γ (.assign tok e1 e) (.mk t .unknown (.assign tok (.mk t pr (.var tok' (some i))) r)) := by
  refine ⟨by simp [exprTy, AExpr.ty, ht], rfl, ?_, (fun hn => by simp [converts] at hn), (fun hn => by simp [notInt] at hn), fun _ r z h => by
    simp only [toE, C.bind_ok, C.pure_ok] at h
    obtain ⟨x, _, _, rfl, -⟩ := h
    rfl⟩
  rintro pr u hu
  rw [if_neg (by simp [AExpr.keeps, ANode.keeps])] at hu
  subst hu
  rintro Γ' sc hsub hsc
  obtain ⟨x, hx, tx⟩ := hr Γ' sc hsub hsc
  refine ⟨.assign tok.line i x, ?_, .assign hw (hsub hi) hv tx⟩
  simp only [AExpr.setProm, toE]
  exact C.bind_ok.mpr ⟨_, _, hx, rfl⟩

theorem list_has {w : Use} {Γ : List SymId} {es : List Expr} {ty : TyExpr} {as : List AExpr} {tok : Token} {t : CTy}
    (ht : dataTy X.K.reals t = true) (ha : ∀ a ∈ as, TypedAs F X L .value Γ a (toTy [] t)) :
    EHas F X L w Γ (.list tok ty es) (.mk (.vec t) .unknown (.list tok as)) := by
  refine ⟨by simp [exprTy, AExpr.ty, dataTy, ht], rfl, ?_, (fun hn => by simp [converts] at hn), (fun _ => by simp [AExpr.ty]), fun hn => by simp [changes] at hn⟩
  rintro pr u hu
  rw [if_neg (by simp [AExpr.keeps, ANode.keeps])] at hu
  subst hu
  rintro Γ' sc hsub hsc
  have hall : List.Forall₂ (TypedAs F X L .value Γ) as (as.map fun _ => toTy [] t) := by
    clear hsub hsc
    induction as with
    | nil => exact .nil
    | cons a as ih => exact .cons (ha a (by simp)) (ih fun b hb => ha b (by simp [hb]))
  obtain ⟨xs, hxs, txs⟩ := toEs_ok hsub hsc hall
  refine ⟨.list tok.line xs, ?_, ?_⟩
  · simp only [AExpr.setProm, toE]
    exact C.bind_ok.mpr ⟨_, _, hxs, rfl⟩
  · refine .list _ txs ?_
    intro u hu
    obtain ⟨_, _, rfl⟩ := List.mem_map.mp hu
    rfl

theorem fmt_has {w : Use} {Γ : List SymId} {es : List Expr} {as : List AExpr} {tok : Token} {ts : List Ty}
    (ha : List.Forall₂ (TypedAs F X L .value Γ) as ts) :
    EHas F X L w Γ (.fmtStr tok es) (.mk (.prim .texto) .unknown (.fmtStr tok as)) := by
  refine ⟨by simp [exprTy, AExpr.ty, dataTy], rfl, ?_, (fun hn => by simp [converts] at hn), (fun _ => by simp [AExpr.ty]), fun hn => by simp [changes] at hn⟩
  rintro pr u hu
  rw [if_neg (by simp [AExpr.keeps, ANode.keeps])] at hu
  subst hu
  rintro Γ' sc hsub hsc
  obtain ⟨xs, hxs, txs⟩ := toEs_ok hsub hsc ha
  refine ⟨.fmtStr tok.line xs, ?_, .fmtStr txs⟩
  simp only [AExpr.setProm, toE]
  exact C.bind_ok.mpr ⟨_, _, hxs, rfl⟩

/-- An element of a vector or text. -/
theorem index_typed {w : Use} {Γ : List SymId} {e1 e2 : Expr} {a i : AExpr} (ha : EHas F X L .value Γ e1 a) (hi : EHas F X L .value Γ e2 i)
    (hx : indexable a.ty = true) (hint : i.ty = .prim .int) {tok : Token} {pr : Ty} :
    dataTy X.K.reals (itemTy a.ty) = true ∧
      TypedAs F X L w Γ (.mk (itemTy a.ty) pr (.index tok a i)) (toTy [] (itemTy a.ty)) := by
  rcases expr_cases ha.ty with hd | hd
  · rcases data_cases hd with e | e | e | ⟨_, e⟩ | ⟨u, e, hu⟩ <;> (try (rw [e] at hx; simp [indexable] at hx))
    · refine ⟨by rw [e]; simp [itemTy, dataTy], ?_⟩
      rintro Γ' sc hsub hsc
      obtain ⟨x, hx, tx⟩ := ha.self Γ' sc hsub hsc
      obtain ⟨y, hy, ty⟩ := hi.self Γ' sc hsub hsc
      refine ⟨.index tok.line x y, ?_, ?_⟩
      · simp only [toE]
        exact C.bind_ok.mpr ⟨_, _, hx, C.bind_ok.mpr ⟨_, _, hy, rfl⟩⟩
      · rw [e] at tx ⊢
        rw [hint] at ty
        exact .charAt tx ty
    · refine ⟨by rw [e]; simpa [itemTy] using hu, ?_⟩
      rintro Γ' sc hsub hsc
      obtain ⟨x, hx, tx⟩ := ha.self Γ' sc hsub hsc
      obtain ⟨y, hy, ty⟩ := hi.self Γ' sc hsub hsc
      refine ⟨.index tok.line x y, ?_, ?_⟩
      · simp only [toE]
        exact C.bind_ok.mpr ⟨_, _, hx, C.bind_ok.mpr ⟨_, _, hy, rfl⟩⟩
      · rw [e] at tx ⊢
        rw [hint] at ty
        simp only [toTy] at tx
        exact .index tx ty
  · rw [hd] at hx
    simp [indexable] at hx

theorem index_has {w : Use} {Γ : List SymId} {e1 e2 : Expr} {a i : AExpr} (ha : EHas F X L .value Γ e1 a) (hi : EHas F X L .value Γ e2 i)
    (hx : indexable a.ty = true) (hint : i.ty = .prim .int) {tok : Token} :
    EHas F X L w Γ (.index tok e1 e2) (.mk (itemTy a.ty) .unknown (.index tok a i)) := by
  obtain ⟨hd, _⟩ := index_typed (w := .value) ha hi hx hint (tok := tok) (pr := .unknown)
  refine ⟨by change exprTy _ (itemTy a.ty) = true; simp [exprTy, hd], rfl, ?_, (fun hn => by simp [converts] at hn), (fun hn => by simp [notInt] at hn), fun hn => by simp [changes] at hn⟩
  rintro pr u hu
  rw [if_neg (by simp [AExpr.keeps, ANode.keeps])] at hu
  subst hu
  exact (index_typed ha hi hx hint).2

theorem indexSet_has {Γ : List SymId} {e1 e2 e3 e4 : Expr} {a i v : AExpr} {u : CTy} {pr : Ty} (ha : EHas F X L .value Γ e1 a)
    (hi : EHas F X L .value Γ e2 i) (hv : EHas F X L .value Γ e3 v) (hu : a.ty = .vec u) (hint : i.ty = .prim .int) (hvt : v.ty = u)
    {tok tok' : Token} :
    EHas F X L .stmt Γ (.indexSet tok e4 e3) (.mk u .unknown (.indexSet tok (.mk u pr (.index tok' a i)) v)) := by
  refine ⟨hvt ▸ hv.ty, rfl, ?_, (fun hn => by simp [converts] at hn), (fun hn => by simp [notInt] at hn), fun _ r z h => by
    simp only [toE, C.bind_ok, C.pure_ok] at h
    obtain ⟨x, _, _, y, _, _, v, _, _, rfl, -⟩ := h
    rfl⟩
  rintro pr u hu
  rw [if_neg (by simp [AExpr.keeps, ANode.keeps])] at hu
  subst hu
  rintro Γ' sc hsub hsc
  obtain ⟨x, hx, tx⟩ := ha.self Γ' sc hsub hsc
  obtain ⟨y, hy, ty⟩ := hi.self Γ' sc hsub hsc
  obtain ⟨z, hz, tz⟩ := hv.self Γ' sc hsub hsc
  refine ⟨.indexSet tok.line x y z, ?_, ?_⟩
  · simp only [AExpr.setProm, toE]
    exact C.bind_ok.mpr ⟨_, _, hx, C.bind_ok.mpr ⟨_, _, hy, C.bind_ok.mpr ⟨_, _, hz, rfl⟩⟩⟩
  · rw [hu] at tx
    rw [hint] at ty
    rw [hvt] at tz
    simp only [toTy] at tx
    exact .indexSet tx ty tz

theorem call_has {w : Use} {Γ : List SymId} {es : List Expr} {as : List AExpr} {tok : Token} {ct : CTy} {cpr : Ty} {t : CTy} {i : SymId}
    {f : FnTy} (hc : cpr ≠ .real) (ht : exprTy X.K.reals t = true) (hsym : (L.env.syms[i]?).map Sym.kind = some .func) (hn : tok.str ∈ X.K.fns)
    (hl : lookIn X.sf.scopes X.g tok.str = some i) (hf : X.fn i = some f) (hret : f.ret = toTy [] t)
    (ha : List.Forall₂ (TypedAs F X L .value Γ) as f.params) (hne : f.needs ⊆ Γ) :
    EHas F X L w Γ (.call (.var tok) es) (.mk t .unknown (.call (.mk ct cpr (.var tok none)) as i)) := by
  refine ⟨by simpa [AExpr.ty] using ht, rfl, ?_, fun _ => rfl, (fun hn => by simp [notInt] at hn), fun hn => by simp [changes] at hn⟩
  rintro pr u hu
  rw [if_pos (by simp [AExpr.keeps, ANode.keeps])] at hu
  rintro Γ' sc hsub hsc
  obtain ⟨xs, hxs, txs⟩ := toEs_ok hsub hsc ha
  refine ⟨.call tok.line (.var tok.line tok.str none cpr) xs i pr, ?_,
    .call i f hsym hc (by simpa using hsc _ (.inl hn) i hl) hf txs (fun x hx => hsub (hne hx)) (by rw [hret]; exact hu)⟩
  simp only [AExpr.setProm, toE]
  exact C.bind_ok.mpr ⟨_, _, rfl, C.bind_ok.mpr ⟨_, _, hxs, rfl⟩⟩

theorem lib_has {w : Use} {Γ : List SymId} {es : List Expr} {as : List AExpr} {tok : Token} {ct : CTy} {cpr : Ty} {t : CTy} {i : SymId}
    {nm : String} {ts : List Ty} (hc : cpr ≠ .real) (ht : exprTy X.K.reals t = true)
    (hsym : (L.env.syms[i]?).map Sym.kind = some .func) (hn : tok.str ∈ X.K.libs)
    (hl : lookIn X.sf.scopes X.g tok.str = some i) (hf : X.lib i = some nm) (hty : LibTy nm ts (toTy [] t))
    (ha : List.Forall₂ (TypedAs F X L .value Γ) as ts) :
    EHas F X L w Γ (.call (.var tok) es) (.mk t .unknown (.call (.mk ct cpr (.var tok none)) as i)) := by
  refine ⟨by simpa [AExpr.ty] using ht, rfl, ?_, fun _ => rfl, (fun hn => by simp [notInt] at hn), fun hn => by simp [changes] at hn⟩
  rintro pr u hu
  rw [if_pos (by simp [AExpr.keeps, ANode.keeps])] at hu
  rintro Γ' sc hsub hsc
  obtain ⟨xs, hxs, txs⟩ := toEs_ok hsub hsc ha
  refine ⟨.call tok.line (.var tok.line tok.str none cpr) xs i pr, ?_,
    .lib i nm hsym hc (by simpa using hsc _ (.inr hn) i hl) hf txs hty hu⟩
  simp only [AExpr.setProm, toE]
  exact C.bind_ok.mpr ⟨_, _, rfl, C.bind_ok.mpr ⟨_, _, hxs, rfl⟩⟩


/-! ## Arguments -/

theorem checkArity_ok {n m : Nat} {d : String} {u : Unit} {s s' : CState} (h : checkArity n d m s = .ok (u, s')) :
    n = m ∧ s' = s := by
  unfold checkArity at h
  split at h
  · simp only [C.error_ok] at h
  · rename_i hn
    exact ⟨not_not.mp hn, (C.pure_ok.mp h).2⟩

theorem callDesc_ok {x : CSym} {d : String} {s s' : CState} {t : CTy} {ps : List (String × SymId)}
    (hb : x.body = .func t ps) (h : callDesc x s = .ok (d, s')) : s' = s := by
  unfold callDesc at h
  rw [hb] at h
  simp only [C.bind_ok, C.pure_ok] at h
  obtain ⟨_, _, ⟨rfl, rfl⟩, _, rfl⟩ := h
  rfl

theorem paramTys_ok {s : CState} (hi : Inv X s) (hag : Agree X s) :
    ∀ {ps : List (String × SymId)} {ts : List CTy} {s' : CState},
      (∀ p ∈ ps, X.b ≤ p.2 ∧ ∃ y t, s.syms[p.2]? = some y ∧ y.body = .var t) → paramTys ps s = .ok (ts, s') →
      s' = s ∧ ts.length = ps.length ∧ (∀ t ∈ ts, dataTy X.K.reals t = true) ∧
        ts.map (toTy []) = ps.map fun p => (X.vty p.2).getD .unknown
  | [], ts, s', _, h => by
      simp only [paramTys, C.pure_ok] at h
      obtain ⟨rfl, rfl⟩ := h
      simp
  | (n, i) :: ps, ts, s', hp, h => by
      simp only [paramTys, C.bind_ok, symOf_ok] at h
      obtain ⟨x, s1, ⟨hx, rfl⟩, h⟩ := h
      obtain ⟨hb, y, t, hy, hyb⟩ := hp (n, i) (by simp)
      simp only at hb hy
      rw [hx] at hy
      cases hy
      simp only [CSym.ty?, hyb, C.bind_ok, C.pure_ok] at h
      obtain ⟨us, s2, h2, rfl, rfl⟩ := h
      obtain ⟨rfl, hlen, hd, hmap⟩ := paramTys_ok hi hag (fun p hp' => hp p (by simp [hp'])) h2
      obtain ⟨_, _, hm⟩ := hi.syms i x hb hx
      have hdt : dataTy X.K.reals t = true := by
        rcases hm with ⟨u, hu, hd', _⟩ | ⟨u, q, hu, _⟩
        · rw [hyb] at hu; cases hu; exact hd'
        · rw [hyb] at hu; cases hu
      obtain ⟨z, hz, hzb, _⟩ := hag.syms i x hx
      refine ⟨rfl, by simp [hlen], ?_, ?_⟩
      · intro u hu
        rcases List.mem_cons.mp hu with rfl | hu
        · exact hdt
        · exact hd u hu
      · simp [hmap, World.vty, hb, hz, hzb, hyb]

theorem promArgs_ok {Γ : List SymId} {s : CState} :
    ∀ {es : List Expr} {as : List AExpr} {ts : List CTy} {as' : List AExpr} {s' : CState},
      List.Forall₂ (EHas F X L .value Γ) es as → okVs X.K es = true → (∀ t ∈ ts, dataTy X.K.reals t = true) →
      es.length = ts.length → promArgs as ts s = .ok (as', s') →
      s' = s ∧ List.Forall₂ (TypedAs F X L .value Γ) as' (ts.map (toTy []))
  | [], _, ts, as', s', h, _, _, hl, hp => by
      cases h
      have : ts = [] := by cases ts <;> simp_all
      subst this
      simp only [promArgs, C.pure_ok] at hp
      obtain ⟨rfl, rfl⟩ := hp
      exact ⟨rfl, .nil⟩
  | e :: es, _, ts, as', s', h, hk, hd, hl, hp => by
      cases h with
      | @cons _ a _ as ha has =>
          cases ts with
          | nil => simp at hl
          | cons t ts =>
              simp only [okVs, Bool.and_eq_true] at hk
              obtain ⟨⟨_, hk1⟩, hk2⟩ := hk
              simp only [promArgs, C.bind_ok] at hp
              obtain ⟨p, s1, h1, m, s2, h2, h3⟩ := hp
              obtain ⟨⟨q, hq, rfl⟩, rfl⟩ := promTy_ok h1
              obtain ⟨hm, rfl⟩ := matchTy_ok h2
              have htd := hd t (by simp)
              rw [toTy_expr _ ha.ty, toTy_data _ htd] at hq hm
              split at h3
              · rename_i hmt
                subst hmt
                simp only [C.bind_ok, C.pure_ok] at h3
                obtain ⟨rest, s3, h4, rfl, rfl⟩ := h3
                obtain ⟨rfl, hrest⟩ := promArgs_ok has hk2 (fun u hu => hd u (by simp [hu])) (by simpa using hl) h4
                exact ⟨rfl, .cons (ha.target hk1 htd hm hq) hrest⟩
              · simp [C.bind_ok, C.error_ok] at h3

/-- The types of the parameters of a function of the library. -/
theorem libParams_ok {s : CState} : ∀ {ps : List (String × SymId)} {tags : List PTag} {ts : List CTy} {s' : CState},
    List.Forall₂ (fun p tag => p.2 < X.b ∧ ∃ y, s.syms[p.2]? = some y ∧ y.body = .var (.prim tag)) ps tags →
    paramTys ps s = .ok (ts, s') → ts = tags.map .prim ∧ s' = s
  | [], _, ts, s', hp, h => by
      cases hp
      simpa only [paramTys, C.pure_ok, List.map_nil] using h
  | (n, i) :: ps, _, ts, s', hp, h => by
      cases hp with
      | @cons _ tag _ tags hx hp =>
          obtain ⟨_, y, hy, hyb⟩ := hx
          simp only [paramTys, C.bind_ok, symOf_ok] at h
          obtain ⟨x, s1, ⟨hx, rfl⟩, h⟩ := h
          rw [hx] at hy
          cases hy
          simp only [CSym.ty?, hyb, C.bind_ok, C.pure_ok] at h
          obtain ⟨us, s2, h2, rfl, rfl⟩ := h
          obtain ⟨rfl, rfl⟩ := libParams_ok hp h2
          exact ⟨rfl, rfl⟩

omit [FloatOps F] in
theorem prom_indef {r : Bool} {t : CTy} (ht : exprTy r t = true) {q : Option Ty}
    (h : Ty.promote (toTy [] t) .indef = .ok q) : q.getD .unknown ≠ .real := by
  rcases ty_cases ht with rfl | rfl | rfl | ⟨_, rfl⟩ | ⟨v, rfl⟩ | rfl <;>
    simp [toTy, Ty.promote, Ty.promotionTo, Ty.autoCast] at h <;> subst h <;> simp

/-- An expression where the type does not matter. -/
theorem EHas.any {w : Use} {Γ : List SymId} {e : Expr} {a : AExpr} (h : EHas F X L w Γ e a) {p : Ty} (hp : p ≠ .real) :
    TypedAs F X L w Γ (a.setProm p) (toTy [] a.ty) := by
  refine h.has p _ ?_
  split
  · exact .none _ _ hp
  · rfl

/-- The arguments of a function of the library. -/
theorem libArgs_ok {Γ : List SymId} {s : CState} :
    ∀ {es : List Expr} {as : List AExpr} {tags : List PTag} {as' : List AExpr} {s' : CState},
      List.Forall₂ (EHas F X L .value Γ) es as → (∀ tag ∈ tags, tag = .texto ∨ tag = .indef) →
      es.length = tags.length → promArgs as (tags.map .prim) s = .ok (as', s') →
      s' = s ∧ ∃ us, List.Forall₂ (TypedAs F X L .value Γ) as' us ∧
        List.Forall₂ (fun (tag : PTag) (u : Ty) => tag = .texto → u = .texto) tags us
  | [], _, tags, as', s', h, _, hl, hp => by
      cases h
      have : tags = [] := by cases tags <;> simp_all
      subst this
      simp only [promArgs, C.pure_ok] at hp
      obtain ⟨rfl, rfl⟩ := hp
      exact ⟨rfl, [], .nil, .nil⟩
  | e :: es, _, tags, as', s', h, hd, hl, hp => by
      cases h with
      | @cons _ a _ as ha has =>
          cases tags with
          | nil => simp at hl
          | cons tag tags =>
              simp only [List.map_cons, promArgs, C.bind_ok] at hp
              obtain ⟨p, s1, h1, m, s2, h2, h3⟩ := hp
              obtain ⟨⟨q, hq, rfl⟩, rfl⟩ := promTy_ok h1
              obtain ⟨hm, rfl⟩ := matchTy_ok h2
              rw [toTy_expr _ ha.ty] at hq hm
              split at h3
              · rename_i hmt
                subst hmt
                simp only [C.bind_ok, C.pure_ok] at h3
                obtain ⟨rest, s3, h4, rfl, rfl⟩ := h3
                obtain ⟨rfl, us, hrest, hus⟩ := libArgs_ok has (fun u hu => hd u (by simp [hu])) (by simpa using hl) h4
                refine ⟨rfl, toTy [] a.ty :: us, .cons (ha.any ?_) hrest, .cons ?_ hus⟩
                · rcases hd tag (by simp) with rfl | rfl
                  · have := match_prom (r := X.K.reals) (t := .prim .texto) (by simp [dataTy]) ha.ty hm hq
                    rcases match_cases (r := X.K.reals) (t := .prim .texto) (by simp [dataTy]) ha.ty hm with e' | ⟨_, e', _⟩
                    · rw [e'] at this
                      generalize Option.getD q Ty.unknown = p at this ⊢
                      cases this with
                      | none _ _ hne => exact hne
                    · cases e'
                  · exact prom_indef ha.ty hq
                · rintro rfl
                  rcases match_cases (r := X.K.reals) (t := .prim .texto) (by simp [dataTy]) ha.ty hm with e' | ⟨_, e', _⟩
                  · rw [e']; rfl
                  · cases e'
              · simp [C.bind_ok, C.error_ok] at h3

omit [FloatOps F] in
/-- The rules of the functions of the library that are checked like others. -/
theorem libSig_ty {n : String} {tags : List PTag} {t : PTag} (h : libSig n = some (tags, t)) (hb : isBuiltinFn n = false) :
    (∀ tag ∈ tags, tag = .texto ∨ tag = .indef) ∧
    (∀ us, List.Forall₂ (fun (tag : PTag) (u : Ty) => tag = .texto → u = .texto) tags us → LibTy n us (.prim t)) ∧
    (t = .real → n = "leia_real") ∧ ∀ r, (t = .real → r = true) → exprTy r (.prim t) = true := by
  unfold libSig at h
  split at h
  all_goals first
    | cases h; done
    | (simp [isBuiltinFn] at hb; done)
    | (cases h
       refine ⟨by simp, fun us hu => ?_, by simp, by simp [exprTy, dataTy]⟩
       first
       | (cases hu with
          | cons h1 hu =>
              cases hu with
              | nil => first | (rw [h1 rfl]; constructor) | constructor)
       | (cases hu with
          | cons h1 hu =>
              cases hu with
              | cons h2 hu =>
                  cases hu with
                  | nil => rw [h1 rfl, h2 rfl]; constructor))

theorem same_int {r : Bool} {t : CTy} (ht : exprTy r t = true) (syms : List CSym)
    (h : (toTy syms (.prim .int)).eqv (toTy syms t) = true) : t = .prim .int := by
  rw [toTy_expr _ ht] at h
  simp only [toTy] at h
  exact (toTy_inj (r := r) (t := .prim .int) (by simp [dataTy]) ht (by simpa [toTy] using h)).symm

theorem indexTy_ok {r : Bool} {tok : Token} {a i x : AExpr} {s s' : CState} (hi : exprTy r i.ty = true)
    (h : indexTy tok a i s = .ok (x, s')) :
    indexable a.ty = true ∧ i.ty = .prim .int ∧ x = .mk (itemTy a.ty) .unknown (.index tok a i) ∧ s' = s := by
  unfold indexTy at h
  split at h
  · simp [C.bind_ok, C.error_ok] at h
  · rename_i hx
    simp only [C.bind_ok, sameTy_ok] at h
    obtain ⟨c, _, ⟨rfl, rfl⟩, h⟩ := h
    split at h
    · simp [C.bind_ok, C.error_ok] at h
    · rename_i hc
      simp only [C.pure_ok] at h
      exact ⟨by simpa using hx, same_int hi _ (by simpa using hc), h.1, h.2⟩

theorem indexSetOk_ok {r : Bool} {t : CTy} {u : Unit} {s s' : CState} (ht : exprTy r t = true) (hx : indexable t = true)
    (h : indexSetOk (itemTy t) s = .ok (u, s')) : (∃ v, t = .vec v) ∧ s' = s := by
  rcases ty_cases ht with rfl | rfl | rfl | ⟨_, rfl⟩ | ⟨v, rfl⟩ | rfl <;> try (simp [indexable] at hx)
  · simp [itemTy, indexSetOk, tagOf, C.bind_ok, C.pure_ok, C.error_ok] at h
  · refine ⟨⟨v, rfl⟩, ?_⟩
    simp only [itemTy, indexSetOk] at h
    split at h
    · exact (C.pure_ok.mp h).2
    · simp only [C.bind_ok] at h
      obtain ⟨tag, s1, h1, h2⟩ := h
      have : s1 = s := by
        cases v <;> simp only [tagOf, C.pure_ok, C.raise_ok] at h1
        exact h1.2
      subst this
      split at h2
      · simp only [C.error_ok] at h2
      · exact (C.pure_ok.mp h2).2

/-! ## All expressions -/

theorem binTy_ok {r : Bool} {tok : Token} {a b x : AExpr} {s s' : CState} (ha : exprTy r a.ty = true)
    (hb : exprTy r b.ty = true) (h : binTy tok a b s = .ok (x, s')) :
    ∃ v p q, Ty.binop (toTy [] a.ty) tok.tt (toTy [] b.ty) = some v ∧ Ty.promote (toTy [] a.ty) (toTy [] b.ty) = .ok p ∧
      Ty.promote (toTy [] b.ty) (toTy [] a.ty) = .ok q ∧ s' = s ∧
      x = .mk (ofPrim v) .unknown (.bin tok (a.setProm (p.getD .unknown)) (b.setProm (q.getD .unknown))) := by
  simp only [binTy, C.bind_ok, view_ok] at h
  obtain ⟨_, _, ⟨rfl, rfl⟩, _, _, ⟨rfl, rfl⟩, h⟩ := h
  rw [toTy_expr _ ha, toTy_expr _ hb] at h
  cases hv : Ty.binop (toTy [] a.ty) tok.tt (toTy [] b.ty) with
  | none => rw [hv] at h; simp [C.bind_ok, C.error_ok] at h
  | some v =>
      rw [hv] at h
      simp only [C.bind_ok, C.pure_ok] at h
      obtain ⟨p, _, h4, q, _, h5, rfl, rfl⟩ := h
      obtain ⟨⟨p', hp, rfl⟩, rfl⟩ := promTy_ok h4
      obtain ⟨⟨q', hq, rfl⟩, rfl⟩ := promTy_ok h5
      rw [toTy_expr _ ha, toTy_expr _ hb] at hp hq
      exact ⟨v, p', q', rfl, hp, hq, rfl, rfl⟩

theorem unTy_ok {r : Bool} {tok : Token} {a x : AExpr} {s s' : CState} (ha : exprTy r a.ty = true)
    (h : unTy tok a s = .ok (x, s')) :
    ∃ v, Ty.unaryop (toTy [] a.ty) tok.tt = some v ∧ s' = s ∧ x = .mk (ofPrim v) .unknown (.un tok a) := by
  simp only [unTy, C.bind_ok, view_ok] at h
  obtain ⟨_, _, ⟨rfl, rfl⟩, h⟩ := h
  rw [toTy_expr _ ha] at h
  cases hv : Ty.unaryop (toTy [] a.ty) tok.tt with
  | none => rw [hv] at h; simp [C.bind_ok, C.error_ok] at h
  | some v =>
      rw [hv] at h
      simp only [C.pure_ok] at h
      exact ⟨v, rfl, h.2, h.1⟩

variable (F X L) in
/-- The claim for one expression. -/
def GoodE (e : Expr) : Prop :=
  ∀ {w : Use} {Γ : List SymId} {av : Option String} {par : Par} {a : AExpr} {s s' : CState}, okE X.K w e = true →
    (∀ n, av = some n → usesName n e = false) → Sit X s Γ av → visitE X.cfg X.mod par e s = .ok (a, s') →
    (∃ l, s' = s.atLine l) ∧ EHas F X L w Γ e a

theorem visitParts_ok {Γ : List SymId} {av : Option String} :
    ∀ (es : List Expr) (_ : ∀ e ∈ es, GoodE F X L e) {tok : Token} {txt : CTy} {as : List AExpr} {s s' : CState}, okEs X.K es = true →
      (∀ n, av = some n → usesName.usesAny n es = false) →
      Sit X s Γ av → visitParts X.cfg X.mod tok txt es s = .ok (as, s') →
      (∃ l, s' = s.atLine l) ∧ ∃ ts, List.Forall₂ (TypedAs F X L .value Γ) as ts
  | [], hg, tok, txt, as, s, s', hk, hav, hs, h => by
      simp only [visitParts, C.pure_ok] at h
      obtain ⟨rfl, rfl⟩ := h
      exact ⟨⟨s'.ana.line, rfl⟩, [], .nil⟩
  | e :: es, hg, tok, txt, as, s, s', hk, hav, hs, h => by
      simp only [okEs, Bool.and_eq_true] at hk
      simp only [visitParts, C.bind_ok, view_ok, C.lift_ok] at h
      obtain ⟨x, s1, h1, _, _, ⟨rfl, rfl⟩, _, _, ⟨rfl, rfl⟩, c, _, ⟨hc, rfl⟩, h3⟩ := h
      obtain ⟨⟨l, rfl⟩, hx⟩ := (hg e (by simp)) hk.1 (fun n hn => by
        have := hav n hn; simp only [usesName.usesAny, Bool.or_eq_false_iff] at this; exact this.1) hs h1
      split at h3
      · simp only [C.bind_ok, C.pure_ok] at h3
        obtain ⟨xs, s2, h2, rfl, rfl⟩ := h3
        obtain ⟨⟨m, rfl⟩, ts, hts⟩ := visitParts_ok es (fun e' he => hg e' (by simp [he])) hk.2 (fun n hn => by
          have := hav n hn; simp only [usesName.usesAny, Bool.or_eq_false_iff] at this; exact this.2) (hs.line _) h2
        exact ⟨⟨m, rfl⟩, _ :: ts, .cons hx.self hts⟩
      · simp [C.bind_ok, C.error_ok] at h3

theorem visitElems_ok {Γ : List SymId} {av : Option String} :
    ∀ (es : List Expr) (_ : ∀ e ∈ es, GoodE F X L e) {t : CTy} {k : Nat} {as : List AExpr} {s s' : CState}, dataTy X.K.reals t = true → okVs X.K es = true →
      (∀ n, av = some n → usesName.usesAny n es = false) →
      Sit X s Γ av → visitElems X.cfg X.mod t es k s = .ok (as, s') →
      (∃ l, s' = s.atLine l) ∧ ∀ a ∈ as, TypedAs F X L .value Γ a (toTy [] t)
  | [], hg, t, k, as, s, s', hd, hk, hav, hs, h => by
      simp only [visitElems, C.pure_ok] at h
      obtain ⟨rfl, rfl⟩ := h
      exact ⟨⟨s'.ana.line, rfl⟩, by simp⟩
  | e :: es, hg, t, k, as, s, s', hd, hk, hav, hs, h => by
      simp only [okVs, Bool.and_eq_true] at hk
      simp only [visitElems, C.bind_ok] at h
      obtain ⟨x, s1, h1, c, s2, h2, h3⟩ := h
      obtain ⟨⟨l, rfl⟩, hx⟩ := (hg e (by simp)) hk.1.1 (fun n hn => by
        have := hav n hn; simp only [usesName.usesAny, Bool.or_eq_false_iff] at this; exact this.1) hs h1
      obtain ⟨hm, rfl⟩ := matchTy_ok h2
      split at h3
      · rename_i hc
        subst hc
        simp only [C.bind_ok, C.pure_ok] at h3
        obtain ⟨p, s3, h4, xs, s4, h5, rfl, rfl⟩ := h3
        obtain ⟨⟨q, hq, rfl⟩, rfl⟩ := promTy_ok h4
        rw [toTy_expr _ hx.ty, toTy_data _ hd] at hq hm
        obtain ⟨⟨m, rfl⟩, hxs⟩ := visitElems_ok es (fun e' he => hg e' (by simp [he])) hd hk.2 (fun n hn => by
          have := hav n hn; simp only [usesName.usesAny, Bool.or_eq_false_iff] at this; exact this.2) (hs.line _) h5
        refine ⟨⟨m, rfl⟩, ?_⟩
        intro a ha
        rcases List.mem_cons.mp ha with rfl | ha
        · exact hx.target hk.1.2 hd hm hq
        · exact hxs a ha
      · simp [C.bind_ok, C.error_ok] at h3

omit [FloatOps F] in
theorem okVs_okEs {K : Frag} : ∀ {es : List Expr}, okVs K es = true → okEs K es = true
  | [], _ => rfl
  | e :: es, h => by
      simp only [okVs, Bool.and_eq_true] at h
      simp only [okEs, Bool.and_eq_true]
      exact ⟨h.1.1, okVs_okEs h.2⟩

theorem visitEs_ok {Γ : List SymId} {av : Option String} :
    ∀ (es : List Expr) (_ : ∀ e ∈ es, GoodE F X L e) {as : List AExpr} {par : Par} {s s' : CState}, okEs X.K es = true →
      (∀ n, av = some n → usesName.usesAny n es = false) →
      Sit X s Γ av → visitEs X.cfg X.mod par es s = .ok (as, s') →
      (∃ l, s' = s.atLine l) ∧ List.Forall₂ (EHas F X L .value Γ) es as
  | [], hg, as, par, s, s', hk, hav, hs, h => by
      simp only [visitEs, C.pure_ok] at h
      obtain ⟨rfl, rfl⟩ := h
      exact ⟨⟨s'.ana.line, rfl⟩, .nil⟩
  | e :: es, hg, as, par, s, s', hk, hav, hs, h => by
      simp only [okEs, Bool.and_eq_true] at hk
      simp only [visitEs, C.bind_ok, C.pure_ok] at h
      obtain ⟨x, s1, h1, xs, s2, h2, rfl, rfl⟩ := h
      obtain ⟨⟨l, rfl⟩, hx⟩ := (hg e (by simp)) hk.1 (fun n hn => by
        have := hav n hn; simp only [usesName.usesAny, Bool.or_eq_false_iff] at this; exact this.1) hs h1
      obtain ⟨⟨m, rfl⟩, hxs⟩ := visitEs_ok es (fun e' he => hg e' (by simp [he])) hk.2 (fun n hn => by
        have := hav n hn; simp only [usesName.usesAny, Bool.or_eq_false_iff] at this; exact this.2) (hs.line _) h2
      exact ⟨⟨m, rfl⟩, .cons hx hxs⟩

theorem visitArgs_ok {Γ : List SymId} {av : Option String} :
    ∀ (es : List Expr) (_ : ∀ e ∈ es, GoodE F X L e) {as : List AExpr} {s s' : CState}, okEs X.K es = true →
      (∀ n, av = some n → usesName.usesAny n es = false) →
      Sit X s Γ av → visitArgs X.cfg X.mod es s = .ok (as, s') →
      (∃ l, s' = s.atLine l) ∧ List.Forall₂ (EHas F X L .value Γ) es as
  | [], hg, as, s, s', hk, hav, hs, h => by
      simp only [visitArgs, C.pure_ok] at h
      obtain ⟨rfl, rfl⟩ := h
      exact ⟨⟨s'.ana.line, rfl⟩, .nil⟩
  | e :: es, hg, as, s, s', hk, hav, hs, h => by
      simp only [okEs, Bool.and_eq_true] at hk
      simp only [visitArgs] at h
      split at h
      · simp [C.bind_ok, C.error_ok] at h
      · simp only [C.bind_ok, C.pure_ok] at h
        obtain ⟨x, s1, h1, xs, s2, h2, rfl, rfl⟩ := h
        obtain ⟨⟨l, rfl⟩, hx⟩ := (hg e (by simp)) hk.1 (fun n hn => by
          have := hav n hn; simp only [usesName.usesAny, Bool.or_eq_false_iff] at this; exact this.1) hs h1
        obtain ⟨⟨m, rfl⟩, hxs⟩ := visitArgs_ok es (fun e' he => hg e' (by simp [he])) hk.2 (fun n hn => by
          have := hav n hn; simp only [usesName.usesAny, Bool.or_eq_false_iff] at this; exact this.2) (hs.line _) h2
        exact ⟨⟨m, rfl⟩, .cons hx hxs⟩

theorem good_const [LawfulFloatOps F] [ReadsNumerals F] (hN : X.Names) {tok : Token} :
    GoodE F X L (.const tok) := by
  intro w Γ av par a s s' hk hav hs h
  simp only [okE] at hk
  simp only [visitE, C.bind_ok, C.at_ok, C.pure_ok] at h
  obtain ⟨_, s1, rfl, t, s2, h1, rfl, rfl⟩ := h
  obtain ⟨rfl, hd, ⟨v, hv, hty⟩, hok, hi⟩ := constTy_ok (F := F) hN (hs.inv.line _) hk h1
  exact ⟨⟨_, rfl⟩, const_has hd hv hok hty hi⟩

theorem good_fmtStr (hN : X.Names) {tok : Token} {es : List Expr} (hes : ∀ e ∈ es, GoodE F X L e) :
    GoodE F X L (.fmtStr tok es) := by
  intro w Γ av par a s s' hk hav hs h
  simp only [okE] at hk
  simp only [visitE, C.bind_ok, C.at_ok, C.pure_ok] at h
  obtain ⟨_, s1, rfl, t, s2, h1, as, s3, h2, rfl, rfl⟩ := h
  obtain ⟨rfl, rfl⟩ := globalTy_ok hN (hs.inv.line _) (tag := .texto) (by simp [words]) h1
  obtain ⟨⟨l, rfl⟩, ts, hts⟩ := visitParts_ok es hes hk (fun n hn => by simpa [usesName] using hav n hn) (hs.line _) h2
  exact ⟨⟨l, rfl⟩, fmt_has hts⟩

theorem good_var {tok : Token} :
    GoodE F X L (.var tok) := by
  intro w Γ av par a s s' hk hav hs h
  simp only [visitE, C.bind_ok, C.at_ok, C.pure_ok] at h
  obtain ⟨_, s1, rfl, ⟨t, i⟩, s2, h1, rfl, rfl⟩ := h
  obtain ⟨rfl, hd, hi, hv, _⟩ := useVar_ok (hs.line _) (by
    intro e
    have := hav tok.str e.symm
    simp [usesName] at this) h1
  exact ⟨⟨_, rfl⟩, var_has hd hi hv⟩

theorem good_converta (hN : X.Names) {tok : Token} {e : Expr} {ty : TyExpr} (he : GoodE F X L e) :
    GoodE F X L (.converta tok e ty) := by
  intro w Γ av par a s s' hk hav hs h
  simp only [okE, Bool.and_eq_true] at hk
  simp only [visitE, C.bind_ok, C.at_ok] at h
  obtain ⟨_, s1, rfl, x, s2, h1, t, s3, h2, h3⟩ := h
  obtain ⟨⟨l, rfl⟩, hx⟩ := he hk.1 (fun n hn => by simpa [usesName] using hav n hn) (hs.line _) h1
  obtain ⟨hd, rfl, hi1, hi2⟩ := getTy_ok hN ((hs.line _).line l).inv hk.2 h2
  simp only [convTy, C.bind_ok, view_ok, C.lift_ok] at h3
  obtain ⟨_, _, ⟨rfl, rfl⟩, _, _, ⟨rfl, rfl⟩, c, _, ⟨hc, rfl⟩, h3⟩ := h3
  rw [toTy_expr _ hx.ty, toTy_data _ hd] at hc
  split at h3
  · rename_i hct
    subst hct
    simp only [C.pure_ok] at h3
    obtain ⟨rfl, rfl⟩ := h3
    refine ⟨⟨l, rfl⟩, conv_has hx hd hc ?_⟩
    intro hn
    cases ty with
    | name tk m as => exact hi1 tk m as rfl (by simpa [notInt] using hn)
    | array el m => exact hi2 el m rfl
    | path => simp [plainTy] at hk
  · simp [C.bind_ok, C.error_ok] at h3

theorem good_bin {tok : Token} {e1 e2 : Expr} (he1 : GoodE F X L e1) (he2 : GoodE F X L e2) :
    GoodE F X L (.bin tok e1 e2) := by
  intro w Γ av par a s s' hk hav hs h
  simp only [okE, Bool.and_eq_true] at hk
  simp only [visitE, C.bind_ok, C.at_ok] at h
  obtain ⟨_, s1, rfl, x, s2, h1, y, s3, h2, h3⟩ := h
  obtain ⟨⟨l, rfl⟩, hx⟩ := he1 hk.1.2 (fun n hn => by
    have := hav n hn; simp only [usesName, Bool.or_eq_false_iff] at this; exact this.1) (hs.line _) h1
  obtain ⟨⟨m, rfl⟩, hy⟩ := he2 hk.2 (fun n hn => by
    have := hav n hn; simp only [usesName, Bool.or_eq_false_iff] at this; exact this.2) ((hs.line _).line l) h2
  obtain ⟨v, p, q, hv, hp, hq, rfl, rfl⟩ := binTy_ok hx.ty hy.ty h3
  exact ⟨⟨m, rfl⟩, bin_has hx hy hk.1.1 hv hp hq⟩

theorem good_un {tok : Token} {e : Expr} (he : GoodE F X L e) :
    GoodE F X L (.un tok e) := by
  intro w Γ av par a s s' hk hav hs h
  simp only [okE, Bool.and_eq_true] at hk
  simp only [visitE, C.bind_ok, C.at_ok] at h
  obtain ⟨_, s1, rfl, x, s2, h1, h3⟩ := h
  obtain ⟨⟨l, rfl⟩, hx⟩ := he hk.2 (fun n hn => by simpa [usesName] using hav n hn) (hs.line _) h1
  obtain ⟨v, hv, rfl, rfl⟩ := unTy_ok hx.ty h3
  exact ⟨⟨l, rfl⟩, un_has hx (by simpa using hk.1) hv⟩

theorem good_assign {tok tk : Token} {e : Expr} (he : GoodE F X L e) :
    GoodE F X L (.assign tok (.var tk) e) := by
  intro w Γ av par a s s' hk hav hs h
  simp only [okE, Bool.and_eq_true] at hk
  obtain ⟨⟨⟨huse, _⟩, hk1⟩, hk2⟩ := hk
  simp only [visitE, C.bind_ok, C.at_ok, C.pure_ok] at h
  obtain ⟨_, s1, rfl, y, s2, h1, x, s3, ⟨_, _, rfl, ⟨t, i⟩, _, h2, rfl, rfl⟩, h3⟩ := h
  obtain ⟨⟨l, rfl⟩, hy⟩ := he hk1 (fun n hn => by
    have := hav n hn; simp only [usesName, Bool.or_eq_false_iff] at this; exact this.2) (hs.line _) h1
  obtain ⟨rfl, hd, hi, hv, hsee, z, hz, hmod, hzb⟩ := useVar_ok (((hs.line _).line l).line tk.line) (by
    intro e
    have := hav tk.str e.symm
    simp [usesName] at this) h2
  simp only [assignTy, C.bind_ok, Expr.token] at h3
  obtain ⟨r, s4, h4, h5⟩ := h3
  obtain ⟨rfl, hr⟩ := resolve_ok h4
  cases r with
  | none => simp only [C.raise_ok] at h5
  | some j =>
      simp only [C.bind_ok, symOf_ok] at h5
      obtain ⟨w, _, ⟨hw, rfl⟩, h5⟩ := h5
      split at h5
      · simp only [C.error_ok] at h5
      · split at h5
        · simp only [C.error_ok] at h5
        · simp only [C.bind_ok] at h5
          obtain ⟨p, _, h6, c, _, h7, h8⟩ := h5
          obtain ⟨⟨q, hq, rfl⟩, rfl⟩ := promTy_ok h6
          obtain ⟨hm, rfl⟩ := matchTy_ok h7
          simp only [AExpr.ty] at hq hm h8
          change Ty.promote (toTy _ y.ty) _ = _ at hq
          change Ty.typesMatch _ (toTy _ y.ty) = _ at hm
          rw [toTy_expr _ hy.ty, toTy_data _ hd] at hq hm
          split at h8
          · rename_i hc
            subst hc
            simp only [C.pure_ok] at h8
            obtain ⟨rfl, rfl⟩ := h8
            exact ⟨⟨_, rfl⟩, assign_has (by simpa using huse) hi hd hv (hy.target hk2 hd hm hq)⟩
          · simp [C.bind_ok, C.error_ok] at h8

theorem good_list (hN : X.Names) {tok : Token} {ty : TyExpr} {es : List Expr} (hes : ∀ e ∈ es, GoodE F X L e) :
    GoodE F X L (.list tok ty es) := by
  intro w Γ av par a s s' hk hav hs h
  simp only [okE, Bool.and_eq_true] at hk
  simp only [visitE, C.bind_ok, C.at_ok, C.pure_ok] at h
  obtain ⟨_, s1, rfl, t, s2, h1, as, s3, h2, rfl, rfl⟩ := h
  obtain ⟨hd, rfl, _⟩ := getTy_ok hN (hs.inv.line _) hk.1 h1
  obtain ⟨⟨l, rfl⟩, has⟩ := visitElems_ok es hes hd hk.2 (fun n hn => by simpa [usesName] using hav n hn) (hs.line _) h2
  exact ⟨⟨l, rfl⟩, list_has hd has⟩

theorem elemTy_ok {r : Bool} {t u : CTy} (ht : exprTy r t = true) (h : elemTy? t = some u) :
    t = .vec u ∧ dataTy r u = true := by
  rcases ty_cases ht with rfl | rfl | rfl | ⟨_, rfl⟩ | ⟨v, rfl⟩ | rfl <;> simp [elemTy?] at h
  subst h
  exact ⟨rfl, by simpa [exprTy, dataTy] using ht⟩

/-- Calls of functions of the library. -/
theorem good_lib (hN : X.Names) (hL : X.Lang L) {tok : Token} {es : List Expr} (hes : ∀ e ∈ es, GoodE F X L e)
    {w : Use} {Γ : List SymId} {av : Option String} {par : Par} {a : AExpr} {s s' : CState} (hlib : tok.str ∈ X.K.libs)
    (hk : okEs X.K es = true) (hu : okUse X.K tok.str es = true)
    (hav : ∀ n, av = some n → usesName n (.call (.var tok) es) = false) (hs : Sit X s Γ av)
    (h : visitE X.cfg X.mod par (.call (.var tok) es) s = .ok (a, s')) :
    (∃ l, s' = s.atLine l) ∧ EHas F X L w Γ (.call (.var tok) es) a := by
  have hnv : tok.str ∉ X.K.vars := fun hv => hN.away _ hv hlib
  simp only [visitE, C.bind_ok, C.at_ok, visitCallee] at h
  obtain ⟨_, s1, rfl, ⟨f, i⟩, s2, ⟨r, s3, h1, h2⟩, h3⟩ := h
  obtain ⟨rfl, hr⟩ := resolve_ok h1
  cases r with
  | none => simp only [C.error_ok] at h2
  | some j =>
      simp only [C.pure_ok, Prod.mk.injEq] at h2
      obtain ⟨⟨rfl, rfl⟩, rfl⟩ := h2
      have hgl := (hs.line _).inv.foundGlobal (hs.line tok.line).inv.ctx hnv (hr _ rfl)
      obtain ⟨i', hgl', hlt, x, ps, tags, t, hx, hxn, hglob, _, _, hsig, hbody, hps⟩ := hs.inv.libs _ hlib
      obtain rfl : i' = i := by
        have e : lookIn s.scopes X.g tok.str = some i := hgl
        rw [hgl'] at e; exact Option.some.inj e
      obtain ⟨z, hz, hzb, hzn⟩ := hs.agree.syms i' _ hx
      have hkind : (L.env.syms[i']?).map Sym.kind = some .func := by
        rw [hL]
        simp [hz, CSym.toSym, hzb, hbody]
      have hlk := hs.agree.glob _ _ hgl'
      have hl : X.lib i' = some tok.str := by
        unfold World.lib
        rw [hz]
        simp only [hzn, hxn]
        rw [if_pos ⟨by simpa using hlib, hlk⟩]
      simp only [callKind, C.bind_ok, symOf_ok] at h3
      obtain ⟨ck, s3, ⟨x', s4, ⟨hx', rfl⟩, h4⟩, h5⟩ := h3
      have : x = x' := by
        have e : s.syms[i']? = some x' := hx'
        rw [hx] at e; exact Option.some.inj e
      subst this
      by_cases hnb : isBuiltinFn x.name = true
      · rw [hnb] at h4
        simp only [if_true, C.pure_ok] at h4
        obtain ⟨rfl, rfl⟩ := h4
        rw [hxn] at hnb h5
        by_cases hnt : tok.str = "tam"
        · have hnv' : ¬ tok.str = "vec" := by rw [hnt]; decide
          simp only [if_neg hnv', if_pos hnt, C.bind_ok] at h5
          obtain ⟨_, s5, h6, as, s6, h7, ⟨ty, as'⟩, s8, h9, h10⟩ := h5
          obtain ⟨hlen, rfl⟩ := checkArity_ok h6
          simp only [C.pure_ok] at h10
          obtain ⟨rfl, rfl⟩ := h10
          obtain ⟨⟨l, rfl⟩, has⟩ := visitEs_ok es hes hk (fun n hn => by
            have := hav n hn; simp only [usesName, Bool.or_eq_false_iff] at this; exact this.2) (hs.line _) h7
          have hs' := (hs.line tok.line).line l
          match es, as, has, hlen with
          | [e1], [v], .cons hv .nil, _ =>
              simp only [tamOp] at h9
              split at h9
              · rename_i hx
                simp only [C.bind_ok, C.pure_ok, Prod.mk.injEq] at h9
                obtain ⟨g, s10, h13, ⟨rfl, rfl⟩, rfl⟩ := h9
                obtain ⟨rfl, rfl⟩ := globalTy_ok hN hs'.inv (tag := .int) (by simp [words]) h13
                rw [hnt] at hl
                have hself := hv.self
                rcases ty_cases hv.ty with e | e | e | ⟨_, e⟩ | ⟨u, e⟩ | e <;> rw [e] at hx hself <;> try (simp [indexable] at hx)
                · exact ⟨⟨l, rfl⟩, lib_has (by simp) (by simp [exprTy, dataTy]) hkind hlib hlk hl .tamTexto (.cons hself .nil)⟩
                · exact ⟨⟨l, rfl⟩, lib_has (by simp) (by simp [exprTy, dataTy]) hkind hlib hlk hl (.tamVec (toTy [] u)) (.cons hself .nil)⟩
              · simp only [C.error_ok] at h9
        have hname : tok.str = "anexa" ∨ tok.str = "remova" := by
          simp only [isBuiltinFn, Bool.or_eq_true, decide_eq_true_eq] at hnb
          rcases hnb with ((e | e) | e) | e
          · rw [e] at hsig; simp [libSig] at hsig
          · exact absurd e hnt
          · exact .inl e
          · exact .inr e
        have hnv' : ¬ tok.str = "vec" := by rcases hname with e | e <;> rw [e] <;> decide
        simp only [if_neg hnv', if_neg hnt] at h5
        split at h5
        · simp only [C.raise_ok] at h5
        · simp only [C.bind_ok] at h5
          obtain ⟨_, s5, h6, as, s6, h7, ⟨ty, as'⟩, s8, h9, h10⟩ := h5
          obtain ⟨hlen, rfl⟩ := checkArity_ok h6
          simp only [C.pure_ok] at h10
          obtain ⟨rfl, rfl⟩ := h10
          obtain ⟨⟨l, rfl⟩, has⟩ := visitEs_ok es hes hk (fun n hn => by
            have := hav n hn; simp only [usesName, Bool.or_eq_false_iff] at this; exact this.2) (hs.line _) h7
          have hs' := (hs.line tok.line).line l
          match es, as, has, hlen with
          | [e1, e2], [v, y], .cons hv (.cons hy .nil), _ =>
              simp only [vecOp] at h9
              cases hel : elemTy? v.ty with
              | none => rw [hel] at h9; simp only [C.error_ok] at h9
              | some el =>
                  rw [hel] at h9
                  obtain ⟨hvt, hd⟩ := elemTy_ok hv.ty hel
                  rcases hname with hname | hname
                  · rw [hname] at h9
                    simp only [if_true, C.bind_ok] at h9
                    obtain ⟨m, s7, h11, h9⟩ := h9
                    obtain ⟨hm, rfl⟩ := matchTy_ok h11
                    rw [toTy_expr _ hy.ty, toTy_data _ hd] at hm
                    split at h9
                    · rename_i hmt
                      subst hmt
                      simp only [C.bind_ok, C.pure_ok, Prod.mk.injEq] at h9
                      obtain ⟨p, s9, h12, vz, s10, h13, ⟨rfl, rfl⟩, rfl⟩ := h9
                      obtain ⟨⟨q, hq, rfl⟩, rfl⟩ := promTy_ok h12
                      rw [toTy_expr _ hy.ty, toTy_data _ hd] at hq
                      obtain ⟨rfl, rfl⟩ := globalTy_ok hN hs'.inv (tag := .vazio) (by simp [words]) h13
                      rw [hname] at hl
                      simp only [okUse, hname, if_true, Bool.and_eq_true, List.all_cons, List.all_nil] at hu
                      refine ⟨⟨l, rfl⟩, lib_has (by simp) (by simp [exprTy]) hkind hlib hlk hl (.anexa (toTy [] el))
                        (.cons ?_ (.cons (hy.target hu.2.2.1 hd hm hq) .nil))⟩
                      have := hv.self
                      rwa [hvt] at this
                    · simp [C.bind_ok, C.error_ok] at h9
                  · rw [hname] at h9
                    simp only [show ¬ ("remova" = "anexa") by decide, if_false, C.bind_ok, sameTy_ok] at h9
                    obtain ⟨c, s7, ⟨rfl, rfl⟩, h9⟩ := h9
                    split at h9
                    · rename_i hc
                      simp only [C.pure_ok, Prod.mk.injEq] at h9
                      obtain ⟨⟨rfl, rfl⟩, rfl⟩ := h9
                      have hint : y.ty = .prim .int := by
                        rcases expr_cases hy.ty with hyd | hyv
                        · exact toTy_inj (r := X.K.reals) (u := .prim .int) hyd (by simp [exprTy, dataTy]) (by
                            rw [toTy_data _ hyd] at hc; simpa [toTy] using hc)
                        · rw [hyv] at hc; simp [toTy, Ty.eqv, Ty.eqD] at hc
                      rw [hname] at hl
                      refine ⟨⟨l, rfl⟩, lib_has (by simp) (by simp [exprTy, hd]) hkind hlib hlk hl (.remova (toTy [] ty))
                        (.cons ?_ (.cons ?_ .nil))⟩
                      · have := hv.self
                        rwa [hvt] at this
                      · have := hy.self
                        rwa [hint] at this
                    · simp only [C.error_ok] at h9
      · have hnb : isBuiltinFn x.name = false := by simpa using hnb
        rw [hnb] at h4
        simp only [hbody, Bool.false_eq_true, if_false, C.pure_ok] at h4
        obtain ⟨rfl, rfl⟩ := h4
        simp only [C.bind_ok, symOf_ok] at h5
        obtain ⟨x', s4, ⟨hx', rfl⟩, h5⟩ := h5
        have : x = x' := by
          have e : s.syms[i']? = some x' := hx'
          rw [hx] at e; exact Option.some.inj e
        subst this
        simp only [CSym.isCallable, hbody, Bool.not_true, Bool.false_eq_true, if_false, C.bind_ok] at h5
        obtain ⟨as, s5, h6, d, s6, h7, _, s7, h8, ts, s8, h9, as', s9, h10, h11⟩ := h5
        obtain ⟨⟨l, rfl⟩, has⟩ := visitArgs_ok es hes hk (fun n hn => by
          have := hav n hn; simp only [usesName, Bool.or_eq_false_iff] at this; exact this.2) (hs.line _) h6
        obtain rfl := callDesc_ok hbody h7
        obtain ⟨hlen, rfl⟩ := checkArity_ok h8
        simp only [CSym.params, hbody] at h9 hlen
        obtain ⟨rfl, rfl⟩ := libParams_ok (s := (s.atLine (Expr.var tok).token.line).atLine l) hps h9
        rw [hxn] at hnb
        obtain ⟨g1, g2, g3, g4⟩ := libSig_ty hsig hnb
        obtain ⟨rfl, us, hargs, hus⟩ := libArgs_ok has g1 (hlen.trans hps.length_eq) h10
        simp only [CSym.ty?, hbody, C.pure_ok] at h11
        obtain ⟨rfl, rfl⟩ := h11
        exact ⟨⟨l, rfl⟩, lib_has (by simp) (g4 _ fun e => (hN.libs _ hlib).2 (g3 e)) hkind hlib hlk hl (g2 us hus) hargs⟩

theorem good_call (hN : X.Names) (hL : X.Lang L) {tok : Token} {es : List Expr} (hes : ∀ e ∈ es, GoodE F X L e) :
    GoodE F X L (.call (.var tok) es) := by
  intro w Γ av par a s s' hk hav hs h
  simp only [okE, Bool.or_eq_true, Bool.and_eq_true] at hk
  rcases hk with ⟨hfn, hk⟩ | ⟨⟨hlib, hk⟩, hu⟩
  rotate_left
  · exact good_lib hN hL hes (by simpa using hlib) hk hu hav hs h
  have hfn : tok.str ∈ X.K.fns := by simpa using hfn
  have hnv : tok.str ∉ X.K.vars := fun hv => hN.apart _ hv hfn
  simp only [visitE, C.bind_ok, C.at_ok, visitCallee] at h
  obtain ⟨_, s1, rfl, ⟨f, i⟩, s2, ⟨r, s3, h1, h2⟩, h3⟩ := h
  obtain ⟨rfl, hr⟩ := resolve_ok h1
  cases r with
  | none => simp only [C.error_ok] at h2
  | some j =>
      simp only [C.pure_ok, Prod.mk.injEq] at h2
      obtain ⟨⟨rfl, rfl⟩, rfl⟩ := h2
      have hgl := (hs.line _).inv.foundGlobal (hs.line tok.line).inv.ctx hnv (hr _ rfl)
      have hb : X.b ≤ i := by
        by_contra hb
        exact (hs.inv.old _ _ hgl (Nat.lt_of_not_le hb)).1 hfn
      obtain ⟨x, hx, hxn⟩ := hs.inv.new X.g _ _ (.inl rfl) hgl hb
      obtain ⟨_, _, hm⟩ := hs.inv.syms i x hb hx
      rcases hm with ⟨u, _, _, hvar⟩ | ⟨t, ps, hbody, hty, _, hglob, hps⟩
      · rw [hxn] at hvar
        exact absurd hvar hnv
      · have hnb : isBuiltinFn x.name = false := by
          have := hN.fns _ hfn
          rw [hxn]
          simp only [reserved, List.mem_cons, not_or] at this
          simp [isBuiltinFn, this]
        simp only [callKind, C.bind_ok, symOf_ok] at h3
        obtain ⟨ck, s3, ⟨x', s4, ⟨hx', rfl⟩, h4⟩, h5⟩ := h3
        have : x = x' := by
          have e : s.syms[i]? = some x' := hx'
          rw [hx] at e; exact Option.some.inj e
        subst this
        rw [hnb] at h4
        simp only [hbody, Bool.false_eq_true, if_false, C.pure_ok] at h4
        obtain ⟨rfl, rfl⟩ := h4
        simp only [C.bind_ok, symOf_ok] at h5
        obtain ⟨x', s4, ⟨hx', rfl⟩, h5⟩ := h5
        have : x = x' := by
          have e : s.syms[i]? = some x' := hx'
          rw [hx] at e; exact Option.some.inj e
        subst this
        simp only [CSym.isCallable, hbody, Bool.not_true, Bool.false_eq_true, if_false, C.bind_ok] at h5
        obtain ⟨as, s5, h6, d, s6, h7, _, s7, h8, ts, s8, h9, as', s9, h10, h11⟩ := h5
        obtain ⟨⟨l, rfl⟩, has⟩ := visitArgs_ok es hes (okVs_okEs hk) (fun n hn => by
          have := hav n hn; simp only [usesName, Bool.or_eq_false_iff] at this; exact this.2) (hs.line _) h6
        have hs' := (hs.line tok.line).line l
        obtain rfl := callDesc_ok hbody h7
        obtain ⟨hlen, rfl⟩ := checkArity_ok h8
        simp only [CSym.params, hbody] at h9 hlen
        obtain ⟨rfl, hl2, hd, hmap⟩ := paramTys_ok hs'.inv hs'.agree hps h9
        obtain ⟨rfl, hargs⟩ := promArgs_ok has hk hd (by omega) h10
        simp only [CSym.ty?, hbody, C.pure_ok] at h11
        obtain ⟨rfl, rfl⟩ := h11
        obtain ⟨z, hz, hzb, hzn⟩ := hs.agree.syms i _ hx
        refine ⟨⟨l, rfl⟩, ?_⟩
        rw [hmap] at hargs
        refine call_has (f := ⟨ps.map fun p => (X.vty p.2).getD .unknown, toTy [] t, X.needs i⟩) (by simp) hty ?_ hfn
          (hs.agree.glob _ _ hgl) ?_ rfl hargs (hs.fns i _ t ps hb hx hbody)
        · rw [hL]
          simp [hz, CSym.toSym, hzb, hbody]
        · simp [World.fn, hb, hz, hzb, hbody]

theorem good_index {tok : Token} {e1 e2 : Expr} (he1 : GoodE F X L e1) (he2 : GoodE F X L e2) :
    GoodE F X L (.index tok e1 e2) := by
  intro w Γ av par a s s' hk hav hs h
  simp only [okE, Bool.and_eq_true] at hk
  simp only [visitE, C.bind_ok, C.at_ok] at h
  obtain ⟨_, s1, rfl, x, s2, h1, y, s3, h2, h3⟩ := h
  obtain ⟨⟨l, rfl⟩, hx⟩ := he1 hk.1 (fun n hn => by
    have := hav n hn; simp only [usesName, Bool.or_eq_false_iff] at this; exact this.1) (hs.line _) h1
  obtain ⟨⟨m, rfl⟩, hy⟩ := he2 hk.2 (fun n hn => by
    have := hav n hn; simp only [usesName, Bool.or_eq_false_iff] at this; exact this.2) ((hs.line _).line l) h2
  obtain ⟨hix, hint, rfl, rfl⟩ := indexTy_ok hy.ty h3
  exact ⟨⟨m, rfl⟩, index_has hx hy hix hint⟩

theorem good_indexSet {tok tk : Token} {e1 e2 e3 : Expr} (he1 : GoodE F X L e1) (he2 : GoodE F X L e2) (he3 : GoodE F X L e3) :
    GoodE F X L (.indexSet tok (.index tk e1 e2) e3) := by
  intro w Γ av par a s s' hk hav hs h
  simp only [okE, Bool.and_eq_true] at hk
  simp only [visitE, C.bind_ok, C.at_ok] at h
  obtain ⟨_, s1, rfl, x, s2, ⟨_, _, rfl, y, s3, h1, z, s4, h2, h3⟩, _, s5, h4, v, s6, h5, c, s7, h6, h7⟩ := h
  obtain ⟨⟨l, rfl⟩, hy⟩ := he1 hk.1.1.1.2 (fun n hn => by
    have := hav n hn; simp only [usesName, Bool.or_eq_false_iff] at this; exact this.1.1) ((hs.line _).line _) h1
  obtain ⟨⟨m, rfl⟩, hz⟩ := he2 hk.1.1.2 (fun n hn => by
    have := hav n hn; simp only [usesName, Bool.or_eq_false_iff] at this; exact this.1.2) (((hs.line _).line _).line l) h2
  obtain ⟨hix, hint, rfl, rfl⟩ := indexTy_ok hz.ty h3
  obtain ⟨hid, _⟩ := index_typed (w := .value) hy hz hix hint (tok := tk) (pr := .unknown)
  obtain ⟨⟨u, hu⟩, rfl⟩ := indexSetOk_ok hy.ty hix h4
  obtain ⟨⟨o, rfl⟩, hv⟩ := he3 hk.1.2 (fun n hn => by
    have := hav n hn; simp only [usesName, Bool.or_eq_false_iff] at this; exact this.2)
      ((((hs.line _).line _).line l).line m) h5
  obtain ⟨hm, rfl⟩ := matchTy_ok h6
  change Ty.typesMatch (toTy _ (itemTy y.ty)) _ = _ at hm
  rw [toTy_expr _ hv.ty, toTy_data _ hid] at hm
  split at h7
  · rename_i hc
    subst hc
    simp only [C.pure_ok] at h7
    obtain ⟨rfl, rfl⟩ := h7
    refine ⟨⟨o, rfl⟩, ?_⟩
    have hitem : itemTy y.ty = u := by rw [hu]; rfl
    have hvt : v.ty = u := by
      rcases match_cases hid hv.ty hm with e | ⟨hr, e, e'⟩
      · rw [e, hitem]
      · have := hk.2
        simp only [hr, Bool.not_true, Bool.false_or] at this
        exact absurd e' (hv.int this)
    simp only [AExpr.ty]
    change EHas F X L w Γ _ (.mk (itemTy y.ty) .unknown (.indexSet tok (.mk (itemTy y.ty) .unknown (.index tk y z)) v))
    rw [hitem]
    obtain rfl : w = .stmt := by simpa using hk.1.1.1.1
    exact indexSet_has hy hz hv hu hint hvt
  · simp [C.bind_ok, C.error_ok] at h7

theorem GoodE.vacuous {e : Expr} (h : ∀ w, okE X.K w e = false) : GoodE F X L e := by
  intro w Γ av par a s s' hk
  rw [h w] at hk
  cases hk

/-- Expressions of the fragment that the checker accepts keep to the typing rules. -/
theorem goodE [LawfulFloatOps F] [ReadsNumerals F] (hN : X.Names) (hL : X.Lang L) (e : Expr) : GoodE F X L e := by
  cases e with
  | const => exact good_const hN
  | fmtStr _ es => exact good_fmtStr hN fun e _ => goodE hN hL e
  | var => exact good_var
  | converta _ e _ => exact good_converta hN (goodE hN hL e)
  | bin _ a b => exact good_bin (goodE hN hL a) (goodE hN hL b)
  | un _ e => exact good_un (goodE hN hL e)
  | assign _ l e =>
      cases l with
      | var => exact good_assign (goodE hN hL e)
      | _ => exact GoodE.vacuous (by simp [okE])
  | list _ _ es => exact good_list hN fun e _ => goodE hN hL e
  | call f es =>
      cases f with
      | var => exact good_call hN hL fun e _ => goodE hN hL e
      | _ => exact GoodE.vacuous (by simp [okE])
  | index _ a b => exact good_index (goodE hN hL a) (goodE hN hL b)
  | indexSet _ i c =>
      cases i with
      | index _ a b => exact good_indexSet (goodE hN hL a) (goodE hN hL b) (goodE hN hL c)
      | _ => exact GoodE.vacuous (by simp [okE])
  | _ => exact GoodE.vacuous (by simp [okE])
  termination_by sizeOf e

end

end Amanda.Check

import Verif.FragSafe

/-!
# Statements and functions of `Verif.Frag` make the checker report errors, not fail
-/

namespace Amanda.Check

open Source

/-! ## Conditions that may be vectors -/

/-- An expression that is no vector, whatever its parts are. -/
def flat : Expr → Bool
  | .const _ | .fmtStr _ _ | .bin _ _ _ | .un _ _ | .converta _ _ (.name ..) => true
  | _ => false

mutual
/-- A condition of `se` or `enquanto` that may be a vector. -/
def bareS : Stmt → Bool
  | .se _ c b es none => !flat c || bareSs b || bareElses es
  | .se _ c b es (some d) => !flat c || bareSs b || bareElses es || bareSs d
  | .enquanto _ c b => !flat c || bareSs b
  | .para _ _ _ _ _ b => bareSs b
  | .func _ _ _ (some b) _ _ => bareSs b
  | _ => false
/-- Lists. -/
def bareSs : List Stmt → Bool
  | [] => false
  | s :: ss => bareS s || bareSs ss
/-- Branches. -/
def bareElses : List ElseIf → Bool
  | [] => false
  | .mk _ _ b :: rest => bareSs b || bareElses rest
end

section
variable {X : World} {b : Bool} {s s' : CState}

theorem Safe.condTag {a : AExpr} {tok : Option Token} {msg : String} (h : b = true ∨ ∃ p, a.ty = .prim p) :
    Safe b (condTag a tok msg) s := by
  unfold Check.condTag
  refine Safe.then ?_ fun tag _ => ?_
  · rcases h with h | ⟨p, h⟩
    · cases a.ty <;> simp only [tagOf] <;> first
        | exact Safe.pure
        | (intro e he; cases he; exact .inr ⟨h, rfl⟩)
    · rw [h]
      exact Safe.pure
  · split
    · exact Safe.pure
    · cases tok <;> mild!

theorem Safe.assertFree {tok : Token} {n : String} : Safe b (assertFree tok n) s := by
  refine Safe.then Safe.get fun _ _ => Safe.then Safe.getIn fun r _ => ?_
  cases r with
  | none => exact Safe.pure
  | some j =>
      simp only
      split <;> mild!

theorem Safe.updSym {i : SymId} {f : CSym → CSym} : Safe b (updSym i f) s := Safe.modify
theorem Safe.define {k : ScopeId} {n : String} {i : SymId} : Safe b (define k n i) s := Safe.modify

theorem Safe.defineSymbol {cfg : CCfg} {i : SymId} {d : Nat} {k : ScopeId} {x : CSym} (hx : s.syms[i]? = some x) :
    Safe b (defineSymbol cfg i d k) s := by
  refine Safe.then (Safe.symOf hx) fun x _ => Safe.then Safe.symbolsOf fun _ _ => ?_
  split
  · exact Safe.then Safe.updSym fun _ _ => Safe.define
  · exact Safe.define

theorem Safe.declaredVar {i : SymId} : Safe b (declaredVar i) s := by
  refine Safe.then Safe.get fun _ _ => ?_
  split
  · exact Safe.updSym
  · exact Safe.pure

theorem Safe.declareVar (hN : X.Names) (hi : Inv X s) {cfg : CCfg} {mod : String} {tok name : Token} {ty : TyExpr} {init : Option Expr}
    (hp : plainTy X.K.reals ty = true) : Safe b (declareVar cfg mod tok name ty init) s := by
  refine Safe.bind Safe.assertFree fun _ s1 h1 => ?_
  obtain ⟨_, rfl⟩ := assertFree_ok h1
  refine Safe.bind (Safe.getTy hN hi hp) fun t s2 h2 => ?_
  obtain ⟨_, rfl, _⟩ := getTy_ok hN hi hp h2
  refine Safe.bind Safe.newSym fun i s3 h3 => ?_
  unfold newVar at h3
  rw [newSym_ok] at h3
  obtain ⟨rfl, rfl⟩ := h3
  refine Safe.next (C.get_ok.mpr ⟨rfl, rfl⟩) (Safe.then (Safe.defineSymbol (append_last _ _)) fun _ _ => ?_)
  cases init with
  | none =>
      refine Safe.then Safe.view fun _ _ => ?_
      split <;> mild!
  | some e =>
      cases e <;> simp only <;> first | exact Safe.pure | (split <;> mild!)

theorem Safe.checkRange : ∀ {es : List AExpr} {s : CState}, Safe b (checkRange es) s
  | [], _ => by simp only [Check.checkRange]; exact Safe.pure
  | e :: es, s => by
      simp only [Check.checkRange]
      refine Safe.then Safe.sameTy fun _ _ => ?_
      split
      · exact Safe.checkRange
      · mild!

theorem Safe.paraScope (hN : X.Names) (hi : Inv X s) {cfg : CCfg} {mod : String} {name : Token} :
    Safe b (paraScope cfg mod name) s := by
  refine Safe.bind (Safe.namedTy hN hi (tag := .int) (by simp [words])) fun t s1 h1 => ?_
  obtain ⟨rfl, rfl⟩ := namedTy_ok hN hi (tag := .int) (by simp [words]) h1
  refine Safe.bind Safe.newSym fun i s2 h2 => ?_
  unfold newVar at h2
  rw [newSym_ok] at h2
  obtain ⟨rfl, rfl⟩ := h2
  refine Safe.bind Safe.innerScope fun k s3 h3 => ?_
  obtain ⟨rfl, rfl⟩ := innerScope_ok h3
  exact Safe.next (C.get_ok.mpr ⟨rfl, rfl⟩) (Safe.then (Safe.defineSymbol (append_last _ _)) fun _ _ => Safe.pure)

/-- The function around is one. -/
def FuncOk (X : World) (s : CState) : Prop := ∃ ret, RetOk X s ret

theorem FuncOk.line (h : FuncOk X s) (l : Nat) : FuncOk X (s.atLine l) := h

theorem FuncOk.step {k : Nat} (h : FuncOk X s) (hs : Step k s s') : FuncOk X s' := by
  obtain ⟨ret, h⟩ := h
  exact ⟨ret, h.step hs⟩

theorem Safe.retornaTy (hf : FuncOk X s) {tok : Token} {given : Bool} : Safe b (retornaTy tok given) s := by
  obtain ⟨ret, hf⟩ := hf
  unfold Check.retornaTy
  refine Safe.next (C.get_ok.mpr ⟨rfl, rfl⟩) ?_
  cases hc : s.ana.ctxFunc with
  | none => mild!
  | some i =>
      obtain ⟨x, t, ps, hx, hb, _⟩ := hf i hc
      refine Safe.next (symOf_ok.mpr ⟨hx, rfl⟩) ?_
      simp only [CSym.ty?, hb]
      refine Safe.then Safe.sameTy fun _ _ => ?_
      split
      · mild!
      · split <;> mild!

theorem retornaTy_expr (hi : Inv X s) (hf : FuncOk X s) {tok : Token} {given : Bool} {t : CTy}
    (h : Check.retornaTy tok given s = .ok (t, s')) : s' = s ∧ exprTy X.K.reals t = true := by
  obtain ⟨rfl, i, x, hc, hx, ht, _⟩ := retornaTy_ok hi h
  obtain ⟨ret, hf⟩ := hf
  obtain ⟨x', t', ps, hx', hb, hty, _⟩ := hf i hc
  rw [hx] at hx'
  cases hx'
  simp only [CSym.ty?, hb, Option.some.injEq] at ht
  subst ht
  exact ⟨rfl, hty⟩

theorem ofPrim_prim (v : Ty) : ∃ p, ofPrim v = .prim p := by
  cases v <;> exact ⟨_, rfl⟩

theorem name_prim (hN : X.Names) {s s' : CState} (hi : Inv X s) {tok : Token} {mb : Bool} {as : Option (List TyExpr)} {t : CTy}
    (hp : plainTy X.K.reals (.name tok mb as) = true) (h : Check.getTy (.name tok mb as) s = .ok (t, s')) : ∃ p, t = .prim p := by
  cases mb with
  | true => simp [plainTy] at hp
  | false =>
      cases as with
      | some _ => simp [plainTy] at hp
      | none =>
          simp only [plainTy] at hp
          obtain ⟨tag, hw, hd, _⟩ := typeWord_words hp
          unfold Check.getTy at h
          simp only [C.bind_ok] at h
          obtain ⟨i, s1, h1, u, s2, h2, h3⟩ := h
          obtain ⟨⟨x, hx, hb⟩, rfl⟩ := typeSym_ok hN hi hw h1
          obtain ⟨rfl, rfl⟩ := symTy_prim hx hb h2
          simp only [constructTy, Bool.false_eq_true, if_false, C.pure_ok] at h3
          exact ⟨_, h3.1⟩

end

/-! ## Statements -/

section
variable (F : Type) [FloatOps F] [LawfulFloatOps F] [ReadsNumerals F] {X : World} {b : Bool}

/-- What the names of the program mean, for the state `s` as the end. -/
def langAt (s : CState) : Lang := ⟨⟨s.syms.map CSym.toSym, s.scopes⟩, "", fun _ _ => none, fun _ _ => none⟩

variable (X b) in
/-- The claim for one statement. -/
def SafeS (st : Stmt) : Prop :=
  ∀ {m : Mode} {s : CState}, okS X.K m st = true → (bareS st = true → b = true) → Inv X s → FuncOk X s →
    Safe b (visitS X.cfg X.mod false false st) s

theorem all_vis (s : CState) (k : Nat) : Vis X s k (List.range s.syms.length) :=
  ⟨fun _ _ _ _ _ hx _ _ => List.mem_range.mpr (List.getElem?_eq_some_iff.mp hx).1, fun _ hi => List.mem_range.mp hi⟩

theorem safe_loopCtl (tok : Token) : SafeS X b (.loopCtl tok) := by
  intro m s hk _ hi _
  simp only [visitS]
  refine Safe.next (a := ()) (C.at_ok.mpr rfl) (Safe.then Safe.get fun _ _ => ?_)
  split <;> mild!

include F

theorem goodS_at (hN : X.Names) {s : CState} (hi : Inv X s) (st : Stmt) : GoodS F (X.until s) (langAt s) st :=
  @goodS F _ (X.until s) (langAt s) _ _ ⟨hN.apart, hN.vars, hN.fns, hN.libs, hN.away⟩ rfl (hi.until s) st

/-- What a visited statement keeps. -/
theorem stmt_kept (hN : X.Names) {st : Stmt} {m : Mode} {a : AStmt} {s s' : CState} (hk : okS X.K m st = true) (hi : Inv X s)
    (h : visitS X.cfg X.mod false false st s = .ok (a, s')) : Inv X s' ∧ Step s.ana.ctxScope s s' := by
  obtain ⟨h1, h2, _⟩ := goodS_at F hN hi st (m := m) hk (hi.until s) (all_vis (X := X.until s) s _) h
  exact ⟨h1.until X.sf, h2⟩

theorem block_kept (hN : X.Names) {sts : List Stmt} {m : Mode} {a : ABlock} {sc : Nat} {s s' : CState} (hk : okSs X.K m sts = true)
    (hi : Inv X s) (hsc : X.sb ≤ sc) (hp : ∃ tab, s.scopes[sc]? = some tab ∧ tab.parent = some s.ana.ctxScope)
    (h : inBlock sc (visitSs X.cfg X.mod sts) s = .ok (a, s')) : Inv X s' ∧ Step sc s s' := by
  obtain ⟨h1, h2, _⟩ := block_ok (F := F) (X := X.until s) (L := langAt s) (m := m) (fun st _ => goodS_at F hN hi st) hk (hi.until s) hsc hp
    (all_vis (X := X.until s) s _) h
  exact ⟨h1.until X.sf, h2⟩

theorem newBlock_kept (hN : X.Names) {sts : List Stmt} {m : Mode} {a : ABlock} {s s' : CState} (hk : okSs X.K m sts = true)
    (hi : Inv X s) (h : newBlock (visitSs X.cfg X.mod sts) s = .ok (a, s')) : Inv X s' ∧ Quiet s s' := by
  obtain ⟨h1, h2, _⟩ := newBlock_ok (F := F) (X := X.until s) (L := langAt s) (m := m) rfl (fun st _ => goodS_at F hN hi st) hk (hi.until s)
    (all_vis (X := X.until s) s _) h
  exact ⟨h1.until X.sf, h2⟩

theorem safe_stmts (hN : X.Names) : ∀ (sts : List Stmt) (_ : ∀ st ∈ sts, SafeS X b st) {m : Mode} {s : CState},
    okSs X.K m sts = true → (bareSs sts = true → b = true) → Inv X s → FuncOk X s → Safe b (visitSs X.cfg X.mod sts) s
  | [], _, _, _, _, _, _, _ => by simp only [visitSs]; exact Safe.pure
  | st :: sts, hg, m, s, hk, hb, hi, hf => by
      simp only [okSs, Bool.and_eq_true] at hk
      simp only [bareSs, Bool.or_eq_true] at hb
      simp only [visitSs]
      refine Safe.bind (hg st (by simp) hk.1 (fun h => hb (.inl h)) hi hf) fun a s1 h1 => ?_
      obtain ⟨hi1, hst⟩ := stmt_kept F hN hk.1 hi h1
      exact Safe.then (safe_stmts hN sts (fun x hx => hg x (by simp [hx])) hk.2 (fun h => hb (.inr h)) hi1 (hf.step hst))
        fun _ _ => Safe.pure

theorem stmts_kept (hN : X.Names) {sts : List Stmt} {m : Mode} {as : List AStmt} {s s' : CState} (hk : okSs X.K m sts = true) (hi : Inv X s)
    (h : visitSs X.cfg X.mod sts s = .ok (as, s')) : Inv X s' ∧ Step s.ana.ctxScope s s' := by
  obtain ⟨h1, h2, _⟩ := good_stmts (F := F) (X := X.until s) (L := langAt s) sts (fun st _ => goodS_at F hN hi st) (m := m) hk (hi.until s)
    (all_vis (X := X.until s) s _) h
  exact ⟨h1.until X.sf, h2⟩

theorem safe_block (hN : X.Names) {sts : List Stmt} (hg : ∀ st ∈ sts, SafeS X b st) {m : Mode} {sc : Nat} {s : CState}
    (hk : okSs X.K m sts = true) (hb : bareSs sts = true → b = true) (hi : Inv X s) (hf : FuncOk X s) (hsc : X.sb ≤ sc)
    (hp : ∃ tab, s.scopes[sc]? = some tab ∧ tab.parent = some s.ana.ctxScope) :
    Safe b (inBlock sc (visitSs X.cfg X.mod sts)) s := by
  obtain ⟨tab, ht, hpar⟩ := hp
  have hlt : sc < s.scopes.length := (List.getElem?_eq_some_iff.mp ht).1
  have hne : sc ≠ X.g := by have := hi.gsb; omega
  unfold inBlock
  refine Safe.next (a := ()) (C.at_ok.mpr rfl) (Safe.next (a := ()) (C.modify_ok.mpr rfl) ?_)
  have hi2 : Inv X { s.atLine blockTok.line with ana := { (s.atLine blockTok.line).ana with ctxScope := sc, depth := (s.atLine blockTok.line).ana.depth + 1 } } :=
    (hi.line _).move rfl rfl rfl (.inr hsc) hlt ⟨(fun h => by cases h), (fun h => absurd h hne)⟩ (.up ht hpar hi.deep)
  refine Safe.bind (safe_stmts F hN sts hg hk hb hi2 hf) fun as s3 h3 => ?_
  obtain ⟨_, hst⟩ := stmts_kept F hN hk hi2 h3
  obtain ⟨tab3, ht3, hp3, _⟩ := hst.later.scopes sc tab ht
  have hc3 : s3.ana.ctxScope = sc := hst.ctx
  refine Safe.then ?_ fun _ _ => Safe.pure
  intro e he
  unfold leaveScope at he
  rw [hc3, ht3] at he
  simp only [Option.bind_some, hp3, hpar] at he
  cases he

theorem safe_newBlock (hN : X.Names) {sts : List Stmt} (hg : ∀ st ∈ sts, SafeS X b st) {m : Mode} {s : CState}
    (hk : okSs X.K m sts = true) (hb : bareSs sts = true → b = true) (hi : Inv X s) (hf : FuncOk X s) :
    Safe b (newBlock (visitSs X.cfg X.mod sts)) s := by
  refine Safe.bind Safe.innerScope fun k s1 h1 => ?_
  obtain ⟨rfl, rfl⟩ := innerScope_ok h1
  exact safe_block F hN hg hk hb (hi.push hi.ctx hi.ctxLt) hf hi.sbase ⟨⟨[], some s.ana.ctxScope⟩, by simp, rfl⟩

/-- Conditions. -/
theorem flat_prim (hN : X.Names) {e : Expr} {w : Use} {par : Par} {a : AExpr} {s s' : CState} (hfl : flat e = true)
    (hk : okE X.K w e = true) (hi : Inv X s) (h : visitE X.cfg X.mod par e s = .ok (a, s')) : ∃ p, a.ty = .prim p := by
  cases e with
  | const tok =>
      simp only [visitE, C.bind_ok, C.at_ok, C.pure_ok] at h
      obtain ⟨_, _, rfl, t, s2, h2, rfl, rfl⟩ := h
      obtain ⟨tt, lexeme, line, col⟩ := tok
      simp only [okE, okLit] at hk
      simp only [constTy] at h2
      split at hk
      · simp only [C.bind_ok] at h2
        obtain ⟨u, s3, h3, h4⟩ := h2
        obtain ⟨rfl, rfl⟩ := namedTy_ok hN (hi.line _) (tag := .int) (by simp [words]) h3
        split at h4
        · simp only [C.error_ok] at h4
        · rw [C.pure_ok] at h4
          exact ⟨_, h4.1⟩
      · rw [C.pure_ok] at h2; exact ⟨_, h2.1⟩
      · rw [C.pure_ok] at h2; exact ⟨_, h2.1⟩
      · rw [C.pure_ok] at h2; exact ⟨_, h2.1⟩
      · rw [C.pure_ok] at h2; exact ⟨_, h2.1⟩
      · cases hk
  | fmtStr tok es =>
      simp only [visitE, C.bind_ok, C.at_ok, C.pure_ok] at h
      obtain ⟨_, _, rfl, t, s2, h2, _, _, _, rfl, rfl⟩ := h
      obtain ⟨rfl, rfl⟩ := globalTy_ok hN (hi.line _) (tag := .texto) (by simp [words]) h2
      exact ⟨_, rfl⟩
  | bin tok e1 e2 =>
      simp only [okE, Bool.and_eq_true] at hk
      simp only [visitE, C.bind_ok, C.at_ok] at h
      obtain ⟨_, _, rfl, x, s2, h2, y, s3, h3, h4⟩ := h
      obtain ⟨⟨l, rfl⟩, hx⟩ := visitE_line F hN (hi.line _) hk.1.2 h2
      obtain ⟨⟨m, rfl⟩, hy⟩ := visitE_line F hN ((hi.line _).line l) hk.2 h3
      obtain ⟨v, _, _, _, _, _, _, rfl⟩ := binTy_ok hx hy h4
      exact ofPrim_prim v
  | un tok e =>
      simp only [okE, Bool.and_eq_true] at hk
      simp only [visitE, C.bind_ok, C.at_ok] at h
      obtain ⟨_, _, rfl, x, s2, h2, h3⟩ := h
      obtain ⟨⟨l, rfl⟩, hx⟩ := visitE_line F hN (hi.line _) hk.2 h2
      obtain ⟨v, _, _, rfl⟩ := unTy_ok hx h3
      exact ofPrim_prim v
  | converta tok e ty =>
      cases ty with
      | name tk mb as =>
          simp only [okE, Bool.and_eq_true] at hk
          simp only [visitE, C.bind_ok, C.at_ok] at h
          obtain ⟨_, _, rfl, x, s2, h2, t, s3, h3, h4⟩ := h
          obtain ⟨⟨l, rfl⟩, hx⟩ := visitE_line F hN (hi.line _) hk.1 h2
          obtain ⟨p, rfl⟩ := name_prim hN ((hi.line _).line l) hk.2 h3
          unfold Check.convTy at h4
          simp only [C.bind_ok, view_ok, C.lift_ok] at h4
          obtain ⟨_, _, _, _, _, _, _, _, _, h4⟩ := h4
          split at h4
          · rw [C.pure_ok] at h4
            exact ⟨p, by rw [h4.1]; rfl⟩
          · simp [C.bind_ok, C.error_ok] at h4
      | _ => simp [flat] at hfl
  | _ => simp [flat] at hfl

theorem safe_cond (hN : X.Names) {e : Expr} {w : Use} {par : Par} {a : AExpr} {s s' s1 : CState} {tok : Option Token} {msg : String}
    (hfl : flat e = false → b = true) (hk : okE X.K w e = true) (hi : Inv X s)
    (h : visitE X.cfg X.mod par e s = .ok (a, s')) : Safe b (Check.condTag a tok msg) s1 := by
  refine Safe.condTag ?_
  cases hb : flat e with
  | false => exact .inl (hfl hb)
  | true => exact .inr (flat_prim F hN hb hk hi h)

theorem safe_elses (hN : X.Names) : ∀ (es : List ElseIf) (_ : ∀ tok c sts, .mk tok c sts ∈ es → ∀ st ∈ sts, SafeS X b st) {m : Mode} {s : CState},
    okElses X.K m es = true → (bareElses es = true → b = true) → Inv X s → FuncOk X s →
    Safe b (visitElses X.cfg X.mod es) s ∧ ∀ as s', visitElses X.cfg X.mod es s = .ok (as, s') → Inv X s' ∧ FuncOk X s'
  | [], _, _, s, _, _, hi, hf => by
      simp only [visitElses]
      exact ⟨Safe.pure, fun as s' h => by rw [C.pure_ok] at h; rw [h.2]; exact ⟨hi, hf⟩⟩
  | .mk tok c sts :: es, hg, m, s, hk, hb, hi, hf => by
      simp only [okElses, Bool.and_eq_true] at hk
      simp only [bareElses, Bool.or_eq_true] at hb
      simp only [visitElses]
      have key : ∀ a s1 s3 bl, visitE X.cfg X.mod .other c (s.atLine tok.line) = .ok (a, s1) →
          newBlock (visitSs X.cfg X.mod sts) s1 = .ok (bl, s3) → Inv X s3 ∧ FuncOk X s3 := by
        intro a s1 s3 bl h1 h3
        obtain ⟨⟨l, rfl⟩, _⟩ := visitE_line F hN (hi.line _) hk.1.1 h1
        obtain ⟨hi3, hq⟩ := newBlock_kept F hN hk.1.2 ((hi.line _).line l) h3
        exact ⟨hi3, ((hf.line _).line l).step (hq.step 0)⟩
      constructor
      · refine Safe.next (a := ()) (C.at_ok.mpr rfl) (Safe.bind (safeE F hN c hk.1.1 (hi.line _)) fun a s1 h1 => ?_)
        obtain ⟨⟨l, hl⟩, _⟩ := visitE_line F hN (hi.line _) hk.1.1 h1
        refine Safe.bind Safe.sameTy fun q s2 h2 => ?_
        rw [sameTy_ok] at h2
        obtain ⟨_, rfl⟩ := h2
        split
        · refine Safe.bind ?_ fun bl s3 h3 => ?_
          · rw [hl]
            exact safe_newBlock F hN (hg tok c sts (by simp)) hk.1.2 (fun h => hb (.inl h)) ((hi.line _).line l) hf
          · obtain ⟨hi3, hf3⟩ := key a _ s3 bl h1 h3
            exact Safe.then (safe_elses hN es (fun t d ss hm => hg t d ss (by simp [hm])) hk.2 (fun h => hb (.inr h)) hi3 hf3).1
              fun _ _ => Safe.pure
        · mild!
      · intro as s' h
        simp only [C.bind_ok, C.at_ok] at h
        obtain ⟨_, _, rfl, a, s1, h1, q, s2, h2, h⟩ := h
        rw [sameTy_ok] at h2
        obtain ⟨_, rfl⟩ := h2
        split at h
        · simp only [C.bind_ok, C.pure_ok] at h
          obtain ⟨bl, s3, h3, as', s4, h4, _, rfl⟩ := h
          obtain ⟨hi3, hf3⟩ := key a _ s3 bl h1 h3
          exact (safe_elses hN es (fun t d ss hm => hg t d ss (by simp [hm])) hk.2 (fun h => hb (.inr h)) hi3 hf3).2 as' _ h4
        · simp only [C.error_ok] at h

theorem safe_expr (hN : X.Names) (e : Expr) : SafeS X b (.expr e) := by
  intro m s hk _ hi _
  simp only [okS, Bool.and_eq_true] at hk
  simp only [visitS, Bool.false_eq_true, if_false]
  exact Safe.then (safeE F hN e hk.1 hi) fun _ _ => Safe.pure

theorem safe_mostra (hN : X.Names) (tok : Token) (e : Expr) : SafeS X b (.mostra tok e) := by
  intro m s hk _ hi _
  simp only [okS] at hk
  simp only [visitS]
  exact Safe.next (a := ()) (C.at_ok.mpr rfl) (Safe.then (safeE F hN e hk (hi.line _)) fun _ _ => Safe.pure)

theorem safe_decl (hN : X.Names) (tok name : Token) (ty : TyExpr) (init : Option Expr) : SafeS X b (.varDecl tok name ty init) := by
  intro m s hk _ hi _
  cases init with
  | none =>
      simp only [okS, Bool.and_eq_true] at hk
      simp only [visitS]
      exact Safe.next (a := ()) (C.at_ok.mpr rfl) (Safe.then (Safe.declareVar hN (hi.line _) hk.2) fun _ _ =>
        Safe.then Safe.declaredVar fun _ _ => Safe.pure)
  | some e =>
      cases e with
      | assign ta l e =>
          cases l with
          | var tk =>
              simp only [okS, Bool.and_eq_true] at hk
              obtain ⟨⟨⟨⟨⟨hn, hp⟩, ht⟩, he⟩, h1⟩, _⟩ := hk
              have htk : tk.str = name.str := by simpa using ht
              rw [visitS]
              refine Safe.next (a := ()) (C.at_ok.mpr rfl) (Safe.bind (Safe.declareVar hN (hi.line _) hp) fun ⟨i, t⟩ s1 hd => ?_)
              obtain ⟨hd1, hfree, rfl, _, o, rfl, ho⟩ := declareVar_ok hN (hi.line _) hp hd
              have hi1 : Inv X (withVar (s.atLine tok.line) (s.atLine tok.line).ana.ctxScope
                  { name := name.str, outId := o, modPath := X.mod, body := .var t }) :=
                withVar_inv (hi.line _) rfl rfl rfl hd1 (by simpa using hn) hfree (hi.line tok.line).ctxLt (fun h => by cases h)
                  ((hi.line tok.line).named ho)
              refine Safe.then (safeE F hN _ (w := .stmt) ?_ hi1) fun _ _ => Safe.then Safe.declaredVar fun _ _ => Safe.pure
              simp [okE, htk, he, h1]
              simpa using hn
          | _ => simp [okS] at hk
      | _ => simp [okS] at hk

theorem safe_retorna (hN : X.Names) (tok : Token) (e : Option Expr) : SafeS X b (.retorna tok e) := by
  intro m s hk _ hi hf
  cases e with
  | none =>
      simp only [visitS]
      exact Safe.next (a := ()) (C.at_ok.mpr rfl) (Safe.then (Safe.retornaTy (hf.line _)) fun _ _ => Safe.pure)
  | some e =>
      simp only [okS, Bool.and_eq_true] at hk
      simp only [visitS]
      refine Safe.next (a := ()) (C.at_ok.mpr rfl) (Safe.bind (Safe.retornaTy (hf.line _)) fun t s1 h1 => ?_)
      obtain ⟨rfl, ht⟩ := retornaTy_expr (hi.line _) (hf.line _) h1
      refine Safe.bind (safeE F hN e hk.1 (hi.line _)) fun a s2 h2 => ?_
      obtain ⟨⟨l, rfl⟩, ha⟩ := visitE_line F hN (hi.line _) hk.1 h2
      refine Safe.then (Safe.promTy ha ht) fun _ _ => Safe.then (Safe.matchTy ht ha) fun _ _ => ?_
      split <;> mild!

theorem safe_se (hN : X.Names) (tok : Token) (c : Expr) (sts : List Stmt) (es : List ElseIf) (last : Option (List Stmt))
    (h1 : ∀ st ∈ sts, SafeS X b st) (h2 : ∀ tok c sts, .mk tok c sts ∈ es → ∀ st ∈ sts, SafeS X b st)
    (h3 : ∀ d, last = some d → ∀ st ∈ d, SafeS X b st) : SafeS X b (.se tok c sts es last) := by
  intro m s hk hb hi hf
  cases last with
  | none =>
      simp only [okS, Bool.and_eq_true] at hk
      simp only [bareS, Bool.or_eq_true, Bool.not_eq_true'] at hb
      obtain ⟨⟨hc, hk1⟩, hk2⟩ := hk
      simp only [visitS]
      refine Safe.next (a := ()) (C.at_ok.mpr rfl) (Safe.bind (safeE F hN c hc (hi.line _)) fun a s1 g1 => ?_)
      refine Safe.bind (safe_cond F hN (fun h => hb (.inl (.inl h))) hc (hi.line _) g1) fun _ s2 g2 => ?_
      obtain ⟨⟨l, rfl⟩, _⟩ := visitE_line F hN (hi.line _) hc g1
      obtain ⟨_, rfl⟩ := condTag_ok g2
      have hi2 := (hi.line tok.line).line l
      refine Safe.bind (safe_newBlock F hN h1 hk1 (fun h => hb (.inl (.inr h))) hi2 hf) fun bl s3 g3 => ?_
      obtain ⟨hi3, hq3⟩ := newBlock_kept F hN hk1 hi2 g3
      have hf3 : FuncOk X s3 := FuncOk.step (s := (s.atLine tok.line).atLine l) hf (hq3.step 0)
      exact Safe.then (safe_elses F hN es h2 hk2 (fun h => hb (.inr h)) hi3 hf3).1 fun _ _ => Safe.pure
  | some d =>
      simp only [okS, Bool.and_eq_true] at hk
      simp only [bareS, Bool.or_eq_true, Bool.not_eq_true'] at hb
      obtain ⟨⟨⟨hc, hk1⟩, hk2⟩, hk3⟩ := hk
      simp only [visitS]
      refine Safe.next (a := ()) (C.at_ok.mpr rfl) (Safe.bind (safeE F hN c hc (hi.line _)) fun a s1 g1 => ?_)
      refine Safe.bind (safe_cond F hN (fun h => hb (.inl (.inl (.inl h)))) hc (hi.line _) g1) fun _ s2 g2 => ?_
      obtain ⟨⟨l, rfl⟩, _⟩ := visitE_line F hN (hi.line _) hc g1
      obtain ⟨_, rfl⟩ := condTag_ok g2
      have hi2 := (hi.line tok.line).line l
      refine Safe.bind (safe_newBlock F hN h1 hk1 (fun h => hb (.inl (.inl (.inr h)))) hi2 hf) fun bl s3 g3 => ?_
      obtain ⟨hi3, hq3⟩ := newBlock_kept F hN hk1 hi2 g3
      have hf3 : FuncOk X s3 := FuncOk.step (s := (s.atLine tok.line).atLine l) hf (hq3.step 0)
      obtain ⟨g4, g5⟩ := safe_elses F hN es h2 hk2 (fun h => hb (.inl (.inr h))) hi3 hf3
      refine Safe.bind g4 fun as s4 g6 => ?_
      obtain ⟨hi4, hf4⟩ := g5 as s4 g6
      exact Safe.then (safe_newBlock F hN (h3 d rfl) hk3 (fun h => hb (.inr h)) hi4 hf4) fun _ _ => Safe.pure

theorem safe_enquanto (hN : X.Names) (tok : Token) (c : Expr) (sts : List Stmt) (h1 : ∀ st ∈ sts, SafeS X b st) :
    SafeS X b (.enquanto tok c sts) := by
  intro m s hk hb hi hf
  simp only [okS, Bool.and_eq_true] at hk
  simp only [bareS, Bool.or_eq_true, Bool.not_eq_true'] at hb
  simp only [visitS]
  refine Safe.next (a := ()) (C.at_ok.mpr rfl) (Safe.bind (safeE F hN c hk.1 (hi.line _)) fun a s1 g1 => ?_)
  refine Safe.bind (safe_cond F hN (fun h => hb (.inl h)) hk.1 (hi.line _) g1) fun _ s2 g2 => ?_
  obtain ⟨⟨l, rfl⟩, _⟩ := visitE_line F hN (hi.line _) hk.1 g1
  obtain ⟨_, rfl⟩ := condTag_ok g2
  have hi2 := (hi.line tok.line).line l
  refine Safe.next (C.get_ok.mpr ⟨rfl, rfl⟩) (Safe.next (a := ()) (C.modify_ok.mpr rfl) ?_)
  refine Safe.then (safe_newBlock F hN h1 hk.2 (fun h => hb (.inr h))
    (hi2.move rfl rfl rfl hi2.ctx hi2.ctxLt hi2.top hi2.deep) hf) fun _ _ => Safe.then Safe.modify fun _ _ => Safe.pure

theorem safe_para (hN : X.Names) (tok name : Token) (e1 e2 : Expr) (inc : Option Expr) (sts : List Stmt)
    (h1 : ∀ st ∈ sts, SafeS X b st) : SafeS X b (.para tok name e1 e2 inc sts) := by
  intro m s hk hb hi hf
  have fin : ∀ {s : CState} {α : Type} {k : ABlock → α}, okSs X.K m.paraIn sts = true → name.str ∈ X.K.vars → Inv X s → FuncOk X s →
      Safe b (Check.paraScope X.cfg X.mod name >>= fun sc => inBlock sc (visitSs X.cfg X.mod sts) >>= fun bl => pure (k bl)) s := by
    intro s α k hks hn hi hf
    refine Safe.bind (Safe.paraScope hN hi) fun sc s1 g1 => ?_
    obtain ⟨rfl, hi1, hq, hsb, hp, _⟩ := paraScope_ok hN hi (all_vis s _) hn g1
    exact Safe.then (safe_block F hN h1 hks (fun h => hb (by simpa only [bareS] using h)) hi1 (hf.step (hq.step 0)) hsb hp) fun _ _ => Safe.pure
  cases inc with
  | none =>
      simp only [okS, Bool.and_eq_true] at hk
      obtain ⟨⟨⟨hn, k1⟩, k2⟩, k3⟩ := hk
      simp only [visitS]
      refine Safe.next (a := ()) (C.at_ok.mpr rfl) (Safe.bind (safeE F hN e1 k1 (hi.line _)) fun a s1 g1 => ?_)
      obtain ⟨⟨l, rfl⟩, ha⟩ := visitE_line F hN (hi.line _) k1 g1
      refine Safe.bind (safeE F hN e2 k2 ((hi.line _).line l)) fun c s2 g2 => ?_
      obtain ⟨⟨l2, rfl⟩, hc⟩ := visitE_line F hN ((hi.line _).line l) k2 g2
      refine Safe.bind Safe.checkRange fun _ s3 g3 => ?_
      obtain ⟨rfl, _⟩ := checkRange_ok (X := X) (by simp [ha, hc]) g3
      exact fin k3 (by simpa using hn) (((hi.line _).line l).line l2) hf
  | some e3 =>
      simp only [okS, Bool.and_eq_true] at hk
      obtain ⟨⟨⟨⟨hn, k1⟩, k2⟩, k4⟩, k3⟩ := hk
      simp only [visitS]
      refine Safe.next (a := ()) (C.at_ok.mpr rfl) (Safe.bind (safeE F hN e1 k1 (hi.line _)) fun a s1 g1 => ?_)
      obtain ⟨⟨l, rfl⟩, ha⟩ := visitE_line F hN (hi.line _) k1 g1
      refine Safe.bind (safeE F hN e2 k2 ((hi.line _).line l)) fun c s2 g2 => ?_
      obtain ⟨⟨l2, rfl⟩, hc⟩ := visitE_line F hN ((hi.line _).line l) k2 g2
      refine Safe.bind (safeE F hN e3 k4 (((hi.line _).line l).line l2)) fun d s4 g4 => ?_
      obtain ⟨⟨l3, rfl⟩, hd⟩ := visitE_line F hN (((hi.line _).line l).line l2) k4 g4
      refine Safe.bind Safe.checkRange fun _ s3 g3 => ?_
      obtain ⟨rfl, _⟩ := checkRange_ok (X := X) (by simp [ha, hc, hd]) g3
      exact fin k3 (by simpa using hn) ((((hi.line _).line l).line l2).line l3) hf

/-- Statements of the fragment make the checker fail in no unexpected way. -/
theorem safeS (hN : X.Names) (st : Stmt) : SafeS X b st := by
  cases st with
  | expr e => exact safe_expr F hN e
  | varDecl tok name ty init => exact safe_decl F hN tok name ty init
  | loopCtl tok => exact safe_loopCtl tok
  | retorna tok e => exact safe_retorna F hN tok e
  | mostra tok e => exact safe_mostra F hN tok e
  | se tok c sts es last =>
      exact safe_se F hN tok c sts es last (fun st _ => safeS hN st)
        (fun t d ss hm st hs => safeS hN st) (fun d hd st _ => safeS hN st)
  | enquanto tok c sts => exact safe_enquanto F hN tok c sts fun st _ => safeS hN st
  | para tok name e1 e2 inc sts => exact safe_para F hN tok name e1 e2 inc sts fun st _ => safeS hN st
  | _ => intro m s hk; simp [okS] at hk
  termination_by sizeOf st
  decreasing_by
    all_goals
      subst_vars
      first
      | (have h1 := List.sizeOf_lt_of_mem ‹_ ∈ _›; simp; omega)
      | (have h1 := List.sizeOf_lt_of_mem hs; have h2 := List.sizeOf_lt_of_mem hm; simp at h2 ⊢; omega)

end

end Amanda.Check

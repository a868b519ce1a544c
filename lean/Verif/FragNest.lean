import Verif.FragCalm
import Verif.FragOk

/-!
# How deep the scopes of a program are nested

`visit_block` (check/core.py) makes a scope for every body of a statement, and `ctx_scope.depth`
counts how many there are around.  The scopes the checker makes for a program of `Verif.Frag` are no
deeper than its statements are nested in its text.
-/

namespace Amanda.Check

open Source Imports

/-! ## Nesting in the text -/

mutual
/-- In how many bodies a statement in `s` can stand: specification. -/
def nestS : Stmt → Nat
  | .se _ _ b es none => 1 + max (nestSs b) (nestElses es)
  | .se _ _ b es (some d) => 1 + max (max (nestSs b) (nestElses es)) (nestSs d)
  | .enquanto _ _ b => 1 + nestSs b
  | .para _ _ _ _ _ b => 1 + nestSs b
  | .func _ _ _ (some b) _ _ => 1 + nestSs b
  | _ => 0
/-- Lists. -/
def nestSs : List Stmt → Nat
  | [] => 0
  | s :: ss => max (nestS s) (nestSs ss)
/-- Branches. -/
def nestElses : List ElseIf → Nat
  | [] => 0
  | .mk _ _ b :: es => max (nestSs b) (nestElses es)
end

/-! ## Nesting of scopes -/

section
variable {X : World} {n : Nat} {s s' : CState}

/-- No scope of the program is nested in more than `n` others. -/
def Shallow (X : World) (n : Nat) (s : CState) : Prop := ∀ k d, X.sb ≤ k → Deep s.scopes k d → d ≤ n

/-- The scopes there were are as deep as they were. -/
theorem Deep.back (hi : Inv X s) (hpar : ∀ (k : Nat) tab, s.scopes[k]? = some tab → ∃ tab', s'.scopes[k]? = some tab' ∧ tab'.parent = tab.parent)
    {k d : Nat} (h : Deep s'.scopes k d) : k < s.scopes.length → Deep s.scopes k d := by
  induction h with
  | @root k tab h hp =>
      intro hlt
      obtain ⟨tab', h1, h2⟩ := hpar k _ (List.getElem?_eq_getElem hlt)
      rw [h] at h1
      cases h1
      exact .root (List.getElem?_eq_getElem hlt) (h2 ▸ hp)
  | @up k p d tab h hp hd ih =>
      intro hlt
      obtain ⟨tab', h1, h2⟩ := hpar k _ (List.getElem?_eq_getElem hlt)
      rw [h] at h1
      cases h1
      have hp' := h2 ▸ hp
      have := hi.wf k _ p (List.getElem?_eq_getElem hlt) hp'
      exact .up (List.getElem?_eq_getElem hlt) hp' (ih (by omega))

theorem Shallow.same (h : Shallow X n s) (hi : Inv X s) (hl : Later s s') (hlen : s'.scopes.length = s.scopes.length) : Shallow X n s' := by
  intro k d hk hd
  refine h k d hk (hd.back hi hl.parents ?_)
  rw [← hlen]
  cases hd with
  | root h _ => exact (List.getElem?_eq_some_iff.mp h).1
  | up h _ _ => exact (List.getElem?_eq_some_iff.mp h).1

/-- One scope more, inside the present one. -/
theorem Shallow.grow (h : Shallow X n s) (hi : Inv X s) (hl : Later s s') (hlen : s'.scopes.length = s.scopes.length + 1)
    (hp : ∃ tab, s'.scopes[s.scopes.length]? = some tab ∧ tab.parent = some s.ana.ctxScope) (hd : s.ana.depth + 1 ≤ n) : Shallow X n s' := by
  intro k d hk hdk
  by_cases hlt : k < s.scopes.length
  · exact h k d hk (hdk.back hi hl.parents hlt)
  · obtain ⟨tab, ht, hpar⟩ := hp
    have hlt' : k < s'.scopes.length := by
      cases hdk with
      | root h _ => exact (List.getElem?_eq_some_iff.mp h).1
      | up h _ _ => exact (List.getElem?_eq_some_iff.mp h).1
    obtain rfl : k = s.scopes.length := by omega
    cases hdk with
    | root h hp' =>
        rw [ht] at h
        cases h
        rw [hpar] at hp'
        cases hp'
    | up h hp' hd' =>
        rw [ht] at h
        cases h
        rw [hpar] at hp'
        cases hp'
        have := (hd'.back hi hl.parents hi.ctxLt).unique hi.deep
        omega

theorem leaveScope_scopes {u : Unit} (h : leaveScope s = .ok (u, s')) : s'.scopes = s.scopes := by
  unfold leaveScope at h
  split at h
  · cases h; rfl
  · cases h

theorem paraScope_length (hN : X.Names) (hi : Inv X s) {name : Token} {sc : ScopeId} (h : paraScope X.cfg X.mod name s = .ok (sc, s')) :
    s'.scopes.length = s.scopes.length + 1 := by
  unfold paraScope at h
  rw [C.bind_ok] at h
  obtain ⟨t, s1, h1, h⟩ := h
  obtain ⟨rfl, e1⟩ := namedTy_ok hN hi (tag := .int) (by simp [words]) h1
  obtain rfl := e1.symm
  rw [C.bind_ok] at h
  obtain ⟨i, s2, h2, h⟩ := h
  rw [C.bind_ok] at h
  obtain ⟨k, s3, h3, h⟩ := h
  simp only [C.bind_ok, C.get_ok, C.pure_ok] at h
  obtain ⟨_, _, ⟨e4, e4'⟩, _, s5, h5, rfl, rfl⟩ := h
  obtain rfl := e4.symm
  obtain rfl := e4'.symm
  obtain ⟨rfl, e3⟩ := innerScope_ok h3
  unfold newVar at h2
  rw [newSym_ok] at h2
  obtain ⟨rfl, rfl⟩ := h2
  obtain ⟨x, o, hx, e5, -⟩ := defineSymbol_ok h5
  rw [e5]
  show (bindIn _ _ _ _).length = _
  rw [bindIn_length, e3]
  simp

/-- A statement adds no scope deeper than it is nested. -/
def NestsS (X : World) (st : Stmt) : Prop :=
  ∀ {m : Mode} {n : Nat} {a : AStmt} {s s' : CState}, okS X.K m st = true → Inv X s → Shallow X n s → s.ana.depth + nestS st ≤ n →
    visitS X.cfg X.mod false false st s = .ok (a, s') → Shallow X n s'

end

section
variable (F : Type) [FloatOps F] [LawfulFloatOps F] [ReadsNumerals F] {X : World} {n : Nat} {s s' : CState}
include F

theorem nest_stmts (hN : X.Names) : ∀ (sts : List Stmt) (_ : ∀ st ∈ sts, NestsS X st) {m : Mode} {as : List AStmt} {s s' : CState},
    okSs X.K m sts = true → Inv X s → Shallow X n s → s.ana.depth + nestSs sts ≤ n → visitSs X.cfg X.mod sts s = .ok (as, s') → Shallow X n s'
  | [], _, _, _, _, _, _, _, hs, _, h => by
      simp only [visitSs, C.pure_ok] at h
      rw [h.2]; exact hs
  | st :: sts, hg, m, as, s, s', hk, hi, hs, hn, h => by
      simp only [okSs, Bool.and_eq_true] at hk
      simp only [nestSs] at hn
      simp only [visitSs, C.bind_ok, C.pure_ok] at h
      obtain ⟨a, s1, h1, as', s2, h2, -, rfl⟩ := h
      obtain ⟨hi1, hst⟩ := stmt_kept F hN hk.1 hi h1
      obtain ⟨l, hl⟩ := hst.ana
      refine nest_stmts hN sts (fun x hx => hg x (by simp [hx])) hk.2 hi1 (hg st (by simp) hk.1 hi hs (by omega) h1) ?_ h2
      rw [hl]
      show s.ana.depth + _ ≤ n
      omega

theorem nest_block (hN : X.Names) {sts : List Stmt} (hg : ∀ st ∈ sts, NestsS X st) {m : Mode} {sc : Nat} {a : ABlock}
    (hk : okSs X.K m sts = true) (hi : Inv X s) (hs : Shallow X n s) (hsc : X.sb ≤ sc)
    (hp : ∃ tab, s.scopes[sc]? = some tab ∧ tab.parent = some s.ana.ctxScope) (hn : s.ana.depth + (1 + nestSs sts) ≤ n)
    (h : inBlock sc (visitSs X.cfg X.mod sts) s = .ok (a, s')) : Shallow X n s' := by
  obtain ⟨tab, ht, hpar⟩ := hp
  have hlt : sc < s.scopes.length := (List.getElem?_eq_some_iff.mp ht).1
  have hne : sc ≠ X.g := by have := hi.gsb; omega
  unfold inBlock enterScope at h
  simp only [C.bind_ok, C.at_ok, C.modify_ok, C.pure_ok] at h
  obtain ⟨_, s1, e1, _, s2, e2, as, s3, h3, _, s4, h4, -, rfl⟩ := h
  have hi2 : Inv X s2 := by
    rw [e2, e1]
    exact (hi.line _).move rfl rfl rfl (.inr hsc) hlt ⟨(fun h => by cases h), (fun h => absurd h hne)⟩ (.up ht hpar hi.deep)
  have hd2 : s2.ana.depth = s.ana.depth + 1 := by rw [e2, e1]; rfl
  have hs2 : Shallow X n s2 := by rw [e2, e1]; exact hs
  have := nest_stmts F hN sts hg hk hi2 hs2 (by omega) h3
  unfold Shallow
  rw [leaveScope_scopes h4]
  exact this

theorem nest_newBlock (hN : X.Names) {sts : List Stmt} (hg : ∀ st ∈ sts, NestsS X st) {m : Mode} {a : ABlock}
    (hk : okSs X.K m sts = true) (hi : Inv X s) (hs : Shallow X n s) (hn : s.ana.depth + (1 + nestSs sts) ≤ n)
    (h : newBlock (visitSs X.cfg X.mod sts) s = .ok (a, s')) : Shallow X n s' := by
  unfold newBlock at h
  rw [C.bind_ok] at h
  obtain ⟨k, s1, h1, h⟩ := h
  obtain ⟨rfl, e1⟩ := innerScope_ok h1
  have hq : Quiet s s1 := by rw [e1]; exact push_quiet _ _
  have ht : ∃ tab, s1.scopes[s.scopes.length]? = some tab ∧ tab.parent = some s.ana.ctxScope :=
    ⟨⟨[], some s.ana.ctxScope⟩, by rw [e1]; simp, rfl⟩
  have ha : s1.ana = s.ana := by rw [e1]
  refine nest_block F hN hg hk (by rw [e1]; exact hi.push hi.ctx hi.ctxLt)
    (hs.grow hi hq.later (by rw [e1]; simp) ht (by omega)) hi.sbase (by rw [ha]; exact ht) (by rw [ha]; exact hn) h

theorem nest_elses (hN : X.Names) : ∀ (es : List ElseIf) (_ : ∀ tok c sts, .mk tok c sts ∈ es → ∀ st ∈ sts, NestsS X st) {m : Mode} {as : List AElse}
    {s s' : CState}, okElses X.K m es = true → Inv X s → Shallow X n s → s.ana.depth + (1 + nestElses es) ≤ n →
    visitElses X.cfg X.mod es s = .ok (as, s') → Inv X s' ∧ Shallow X n s' ∧ s'.ana.depth = s.ana.depth
  | [], _, _, _, _, _, _, hi, hs, _, h => by
      simp only [visitElses, C.pure_ok] at h
      rw [h.2]
      exact ⟨hi, hs, rfl⟩
  | .mk tok c sts :: es, hg, m, as, s, s', hk, hi, hs, hn, h => by
      simp only [okElses, Bool.and_eq_true] at hk
      simp only [nestElses] at hn
      simp only [visitElses, C.bind_ok, C.at_ok] at h
      obtain ⟨_, _, rfl, a, s1, h1, q, s2, h2, h⟩ := h
      rw [sameTy_ok] at h2
      obtain ⟨_, rfl⟩ := h2
      split at h
      · simp only [C.bind_ok, C.pure_ok] at h
        obtain ⟨bl, s3, h3, as', s4, h4, _, rfl⟩ := h
        obtain ⟨⟨l, rfl⟩, _⟩ := visitE_line F hN (hi.line _) hk.1.1 h1
        obtain ⟨hi3, hq⟩ := newBlock_kept F hN hk.1.2 ((hi.line _).line l) h3
        have hs3 := nest_newBlock F hN (n := n) (hg tok c sts (by simp)) hk.1.2 ((hi.line tok.line).line l) hs
          (by show s.ana.depth + _ ≤ n; omega) h3
        obtain ⟨l3, hl3⟩ := (hq.step 0).ana
        have hd3 : s3.ana.depth = s.ana.depth := by rw [hl3]; rfl
        obtain ⟨r1, r2, r3⟩ := nest_elses hN es (fun t d ss hm => hg t d ss (by simp [hm])) hk.2 hi3 hs3 (by omega) h4
        exact ⟨r1, r2, r3.trans hd3⟩
      · simp only [C.error_ok] at h

theorem nest_decl (hN : X.Names) (tok name : Token) (ty : TyExpr) (init : Option Expr) : NestsS X (.varDecl tok name ty init) := by
  intro m n a s s' hk hi hs _ h
  have hst := (stmt_kept F hN hk hi h).2
  refine hs.same hi hst.later ?_
  have dec : ∀ {i : SymId} {u : Unit} {s s' : CState}, declaredVar i s = .ok (u, s') → s'.scopes = s.scopes := by
    intro i u s s' h
    unfold declaredVar at h
    simp only [C.bind_ok, C.get_ok] at h
    obtain ⟨_, _, ⟨rfl, rfl⟩, h⟩ := h
    split at h
    · unfold updSym at h
      rw [C.modify_ok] at h
      rw [h]
    · rw [C.pure_ok] at h
      rw [h.2]
  cases init with
  | none =>
      simp only [okS, Bool.and_eq_true] at hk
      simp only [visitS, C.bind_ok, C.at_ok, C.pure_ok] at h
      obtain ⟨_, _, rfl, ⟨i, t⟩, s1, h1, _, s2, h2, -, rfl⟩ := h
      obtain ⟨-, -, -, -, o, rfl, -⟩ := declareVar_ok hN (hi.line _) hk.2 h1
      rw [dec h2]
      exact bindIn_length _ _ _ _
  | some e =>
      cases e with
      | assign ta l e =>
          cases l with
          | var tk =>
              simp only [okS, Bool.and_eq_true] at hk
              obtain ⟨⟨⟨⟨⟨hn, hp⟩, ht⟩, he⟩, h1⟩, _⟩ := hk
              have htk : tk.str = name.str := by simpa using ht
              rw [visitS] at h
              simp only [C.bind_ok, C.at_ok, C.pure_ok] at h
              obtain ⟨_, _, rfl, ⟨i, t⟩, s1, hd, x, s2, h2, _, s3, h3, -, rfl⟩ := h
              obtain ⟨hd1, hfree, rfl, _, o, rfl, ho⟩ := declareVar_ok hN (hi.line _) hp hd
              have hi1 : Inv X (withVar (s.atLine tok.line) (s.atLine tok.line).ana.ctxScope
                  { name := name.str, outId := o, modPath := X.mod, body := .var t }) :=
                withVar_inv (hi.line _) rfl rfl rfl hd1 (by simpa using hn) hfree (hi.line tok.line).ctxLt (fun h => by cases h)
                  ((hi.line tok.line).named ho)
              obtain ⟨⟨l, rfl⟩, -⟩ := visitE_line F hN hi1 (w := .stmt) (by
                simp [okE, htk, he, h1]
                simpa using hn) h2
              rw [dec h3]
              exact bindIn_length _ _ _ _
          | _ => simp [okS] at hk
      | _ => simp [okS] at hk

theorem nest_se (hN : X.Names) (tok : Token) (c : Expr) (sts : List Stmt) (es : List ElseIf) (last : Option (List Stmt))
    (h1 : ∀ st ∈ sts, NestsS X st) (h2 : ∀ tok c sts, .mk tok c sts ∈ es → ∀ st ∈ sts, NestsS X st)
    (h3 : ∀ d, last = some d → ∀ st ∈ d, NestsS X st) : NestsS X (.se tok c sts es last) := by
  intro m n a s s' hk hi hs hn h
  cases last with
  | none =>
      simp only [okS, Bool.and_eq_true] at hk
      simp only [nestS] at hn
      obtain ⟨⟨hc, hk1⟩, hk2⟩ := hk
      simp only [visitS, C.bind_ok, C.at_ok, C.pure_ok] at h
      obtain ⟨_, _, rfl, x, s1, g1, _, s2, g2, bl, s3, g3, as, s4, g4, -, rfl⟩ := h
      obtain ⟨⟨l, rfl⟩, _⟩ := visitE_line F hN (hi.line _) hc g1
      obtain ⟨_, rfl⟩ := condTag_ok g2
      have hi2 := (hi.line tok.line).line l
      obtain ⟨hi3, hq3⟩ := newBlock_kept F hN hk1 hi2 g3
      have hs3 := nest_newBlock F hN (n := n) h1 hk1 hi2 hs (by show s.ana.depth + _ ≤ n; omega) g3
      obtain ⟨l3, hl3⟩ := (hq3.step 0).ana
      have hd3 : s3.ana.depth = s.ana.depth := by rw [hl3]; rfl
      exact (nest_elses F hN es h2 hk2 hi3 hs3 (by omega) g4).2.1
  | some d =>
      simp only [okS, Bool.and_eq_true] at hk
      simp only [nestS] at hn
      obtain ⟨⟨⟨hc, hk1⟩, hk2⟩, hk3⟩ := hk
      simp only [visitS, C.bind_ok, C.at_ok, C.pure_ok] at h
      obtain ⟨_, _, rfl, x, s1, g1, _, s2, g2, bl, s3, g3, as, s4, g4, bl', s5, g5, -, rfl⟩ := h
      obtain ⟨⟨l, rfl⟩, _⟩ := visitE_line F hN (hi.line _) hc g1
      obtain ⟨_, rfl⟩ := condTag_ok g2
      have hi2 := (hi.line tok.line).line l
      obtain ⟨hi3, hq3⟩ := newBlock_kept F hN hk1 hi2 g3
      have hs3 := nest_newBlock F hN (n := n) h1 hk1 hi2 hs (by show s.ana.depth + _ ≤ n; omega) g3
      obtain ⟨l3, hl3⟩ := (hq3.step 0).ana
      have hd3 : s3.ana.depth = s.ana.depth := by rw [hl3]; rfl
      obtain ⟨hi4, hs4, hd4⟩ := nest_elses F hN es h2 hk2 hi3 hs3 (by omega) g4
      exact nest_newBlock F hN (h3 d rfl) hk3 hi4 hs4 (by omega) g5

theorem nest_enquanto (hN : X.Names) (tok : Token) (c : Expr) (sts : List Stmt) (h1 : ∀ st ∈ sts, NestsS X st) :
    NestsS X (.enquanto tok c sts) := by
  intro m n a s s' hk hi hs hn h
  simp only [okS, Bool.and_eq_true] at hk
  simp only [nestS] at hn
  simp only [visitS, C.bind_ok, C.at_ok, C.pure_ok, C.get_ok, C.modify_ok] at h
  obtain ⟨_, _, rfl, x, s1, g1, _, s2, g2, _, _, ⟨rfl, rfl⟩, _, s4, e4, bl, s5, g5, _, s6, e6, -, rfl⟩ := h
  obtain ⟨⟨l, rfl⟩, _⟩ := visitE_line F hN (hi.line _) hk.1 g1
  obtain ⟨_, rfl⟩ := condTag_ok g2
  have hi2 := (hi.line tok.line).line l
  have hi4 : Inv X s4 := by rw [e4]; exact hi2.move rfl rfl rfl hi2.ctx hi2.ctxLt hi2.top hi2.deep
  have hs4 : Shallow X n s4 := by rw [e4]; exact hs
  have hd4 : s4.ana.depth = s.ana.depth := by rw [e4]; rfl
  have := nest_newBlock F hN h1 hk.2 hi4 hs4 (by omega) g5
  rw [e6]
  exact this

theorem nest_para (hN : X.Names) (tok name : Token) (e1 e2 : Expr) (inc : Option Expr) (sts : List Stmt)
    (h1 : ∀ st ∈ sts, NestsS X st) : NestsS X (.para tok name e1 e2 inc sts) := by
  intro m n a s s' hk hi hs hn h
  have fin : ∀ {s s' s1 : CState} {sc : ScopeId} {bl : ABlock}, okSs X.K m.paraIn sts = true → name.str ∈ X.K.vars → Inv X s → Shallow X n s →
      s.ana.depth + (1 + nestSs sts) ≤ n → Check.paraScope X.cfg X.mod name s = .ok (sc, s1) →
      inBlock sc (visitSs X.cfg X.mod sts) s1 = .ok (bl, s') → Shallow X n s' := by
    intro s s' s1 sc bl hks hv hi hs hn g1 g2
    obtain ⟨rfl, hi1, hq, hsb, hp, _⟩ := paraScope_ok hN hi (all_vis s _) hv g1
    obtain ⟨l, hl⟩ := (hq.step 0).ana
    have hc : s1.ana.ctxScope = s.ana.ctxScope := by rw [hl]
    have hd : s1.ana.depth = s.ana.depth := by rw [hl]
    exact nest_block F hN h1 hks hi1 (hs.grow hi hq.later (paraScope_length hN hi g1) (by rw [← hc]; exact hp) (by omega)) hsb hp (by omega) g2
  cases inc with
  | none =>
      simp only [okS, Bool.and_eq_true] at hk
      simp only [nestS] at hn
      obtain ⟨⟨⟨hv, k1⟩, k2⟩, k3⟩ := hk
      simp only [visitS, C.bind_ok, C.at_ok, C.pure_ok] at h
      obtain ⟨_, _, rfl, x, s1, g1, y, s2, g2, _, s3, g3, sc, s4, g4, bl, s5, g5, -, rfl⟩ := h
      obtain ⟨⟨l, rfl⟩, ha⟩ := visitE_line F hN (hi.line _) k1 g1
      obtain ⟨⟨l2, rfl⟩, hc⟩ := visitE_line F hN ((hi.line _).line l) k2 g2
      obtain ⟨rfl, _⟩ := checkRange_ok (X := X) (by simp [ha, hc]) g3
      exact fin k3 (by simpa using hv) (((hi.line _).line l).line l2) hs hn g4 g5
  | some e3 =>
      simp only [okS, Bool.and_eq_true] at hk
      simp only [nestS] at hn
      obtain ⟨⟨⟨⟨hv, k1⟩, k2⟩, k4⟩, k3⟩ := hk
      simp only [visitS, C.bind_ok, C.at_ok, C.pure_ok] at h
      obtain ⟨_, _, rfl, x, s1, g1, y, s2, g2, z, s6, g6, _, s3, g3, sc, s4, g4, bl, s5, g5, -, rfl⟩ := h
      obtain ⟨⟨l, rfl⟩, ha⟩ := visitE_line F hN (hi.line _) k1 g1
      obtain ⟨⟨l2, rfl⟩, hc⟩ := visitE_line F hN ((hi.line _).line l) k2 g2
      obtain ⟨⟨l3, rfl⟩, hd⟩ := visitE_line F hN (((hi.line _).line l).line l2) k4 g6
      obtain ⟨rfl, _⟩ := checkRange_ok (X := X) (by simp [ha, hc, hd]) g3
      exact fin k3 (by simpa using hv) ((((hi.line _).line l).line l2).line l3) hs hn g4 g5

theorem nest_plain (hN : X.Names) (st : Stmt) (hst : (∃ e, st = .expr e) ∨ (∃ t, st = .loopCtl t) ∨ (∃ t e, st = .mostra t e) ∨ ∃ t e, st = .retorna t e) :
    NestsS X st := by
  intro m n a s s' hk hi hs hn h
  obtain ⟨e, rfl⟩ | ⟨t, rfl⟩ | ⟨t, e, rfl⟩ | ⟨t, e, rfl⟩ := hst
  · simp only [okS, Bool.and_eq_true] at hk
    simp only [visitS, Bool.false_eq_true, if_false, C.bind_ok, C.pure_ok] at h
    obtain ⟨x, s1, g1, -, rfl⟩ := h
    obtain ⟨⟨l, rfl⟩, _⟩ := visitE_line F hN hi hk.1 g1
    exact hs
  · simp only [visitS, C.bind_ok, C.at_ok, C.get_ok] at h
    obtain ⟨_, _, rfl, _, _, ⟨rfl, rfl⟩, h⟩ := h
    split at h
    · simp only [C.pure_ok] at h
      rw [h.2]; exact hs
    · simp only [C.error_ok] at h
  · simp only [okS] at hk
    simp only [visitS, C.bind_ok, C.at_ok, C.pure_ok] at h
    obtain ⟨_, _, rfl, x, s1, g1, -, rfl⟩ := h
    obtain ⟨⟨l, rfl⟩, _⟩ := visitE_line F hN (hi.line _) hk g1
    exact hs
  · cases e with
    | none =>
        simp only [visitS, C.bind_ok, C.at_ok, C.pure_ok] at h
        obtain ⟨_, _, rfl, x, s1, g1, -, rfl⟩ := h
        obtain ⟨rfl, -⟩ := retornaTy_ok (hi.line _) g1
        exact hs
    | some e =>
        simp only [okS, Bool.and_eq_true] at hk
        simp only [visitS, C.bind_ok, C.at_ok] at h
        obtain ⟨_, _, rfl, t', s1, g1, x, s2, g2, p, s3, g3, q, s4, g4, h⟩ := h
        obtain ⟨rfl, -⟩ := retornaTy_ok (hi.line _) g1
        obtain ⟨⟨l, rfl⟩, _⟩ := visitE_line F hN (hi.line _) hk.1 g2
        obtain ⟨-, rfl⟩ := promTy_ok g3
        obtain ⟨-, rfl⟩ := matchTy_ok g4
        split at h
        · rw [C.pure_ok] at h
          rw [h.2]; exact hs
        · simp only [C.error_ok] at h

theorem nestS_all (hN : X.Names) (st : Stmt) : NestsS X st := by
  cases st with
  | expr e => exact nest_plain F hN _ (.inl ⟨_, rfl⟩)
  | varDecl tok name ty init => exact nest_decl F hN tok name ty init
  | loopCtl tok => exact nest_plain F hN _ (.inr (.inl ⟨_, rfl⟩))
  | retorna tok e => exact nest_plain F hN _ (.inr (.inr (.inr ⟨_, _, rfl⟩)))
  | mostra tok e => exact nest_plain F hN _ (.inr (.inr (.inl ⟨_, _, rfl⟩)))
  | se tok c sts es last =>
      exact nest_se F hN tok c sts es last (fun st _ => nestS_all hN st)
        (fun t d ss hm st hs => nestS_all hN st) (fun d hd st _ => nestS_all hN st)
  | enquanto tok c sts => exact nest_enquanto F hN tok c sts fun st _ => nestS_all hN st
  | para tok name e1 e2 inc sts => exact nest_para F hN tok name e1 e2 inc sts fun st _ => nestS_all hN st
  | _ => intro m n a s s' hk; simp [okS] at hk
  termination_by sizeOf st
  decreasing_by
    all_goals
      subst_vars
      first
      | (have h1 := List.sizeOf_lt_of_mem ‹_ ∈ _›; simp; omega)
      | (have h1 := List.sizeOf_lt_of_mem hs; have h2 := List.sizeOf_lt_of_mem hm; simp at h2 ⊢; omega)

/-! ## Functions and modules -/

theorem nest_func (hN : X.Names) {name : Token} {params : List Param} {ret : Option TyExpr} {body : List Stmt}
    {as : List Annotation} {a : AStmt} (hk : okTop X.K (.func name params ret (some body) false as) = true) (hi : Inv X s) (hs : Shallow X n s)
    (hn : s.ana.depth + (1 + nestSs body) ≤ n)
    (h : visitS X.cfg X.mod false false (.func name params ret (some body) false as) s = .ok (a, s')) : Shallow X n s' := by
  simp only [okTop, Bool.and_eq_true, Bool.or_eq_true, Bool.not_eq_true', List.contains_iff_mem, List.all_eq_true] at hk
  obtain ⟨⟨⟨⟨⟨hname, hbu⟩, hps⟩, hret⟩, hbody⟩, -⟩ := hk
  rw [visitS] at h
  simp only [C.bind_ok, C.at_ok] at h
  obtain ⟨_, _, rfl, ⟨i, sc⟩, s1, h1, h⟩ := h
  obtain ⟨-, ps, t, hm, -⟩ := declareFunc_ok hN (hi.line _) hname hbu hps hret h1
  obtain ⟨l1, hana1⟩ := hm.ana
  have hs1 : Shallow X n s1 := by
    refine Shallow.grow (s := s.atLine name.line) hs (hi.line _) hm.later hm.one ?_ (by show s.ana.depth + 1 ≤ n; omega)
    rw [← hm.newest]; exact hm.tab
  simp only [hbu, Bool.or_self, Bool.false_eq_true, if_false, C.bind_ok, C.pure_ok] at h
  obtain ⟨b, s2, h2, -, rfl⟩ := h
  unfold inFunction at h2
  simp only [C.bind_ok, C.get_ok, C.modify_ok, C.pure_ok] at h2
  obtain ⟨_, _, ⟨e2, e3⟩, _, s4, e4, bl, s5, h5, _, s6, e6, -, rfl⟩ := h2
  obtain rfl := e2.symm
  obtain rfl := e3.symm
  have hd4 : s4.ana.depth = s.ana.depth := by rw [e4]; show s1.ana.depth = _; rw [hana1]; rfl
  have := nest_block F hN (n := n) (fun st _ => nestS_all F hN st) hbody (by rw [e4]; exact hm.move) (by rw [e4]; exact hs1) hm.scope (by
    obtain ⟨tab, ht, hp⟩ := hm.tab
    refine ⟨tab, by rw [e4]; exact ht, ?_⟩
    rw [hp, e4]
    show some s.ana.ctxScope = some s1.ana.ctxScope
    rw [hana1]
    rfl) (by omega) h5
  rw [e6]
  exact this

theorem nest_top (hN : X.Names) {st : Stmt} {a : AStmt} (hk : okTop X.K st = true) (hi : Inv X s) (hs : Shallow X n s)
    (hn : s.ana.depth + nestS st ≤ n) (h : visitS X.cfg X.mod false false st s = .ok (a, s')) : Shallow X n s' := by
  cases st with
  | func name params ret body native as =>
      cases body with
      | none => simp [okTop, okS] at hk
      | some body =>
          cases native with
          | true => simp [okTop, okS] at hk
          | false => exact nest_func F hN hk hi hs (by simpa only [nestS] using hn) h
  | _ => exact nestS_all F hN _ (by simpa only [okTop] using hk) hi hs hn h

variable {py : PyCfg} {files : Files} {load : Path → Token → UsaMode → LState CState → Except LErr (LState CState)}

theorem nest_children (hN : X.Names) : ∀ {sts : List Stmt} {ls ls' : LState CState},
    (∀ st ∈ sts, okTop X.K st = true) → Inv X ls.rest → ls.rest.ana.ctxScope = X.g → pstr ls.ctx = X.mod → Shallow X n ls.rest →
    ls.rest.ana.depth + nestSs sts ≤ n → visitChildren (icfg X.cfg py files) load sts ls = .ok ls' → Shallow X n ls'.rest
  | [], ls, ls', _, _, _, _, hs, _, h => by
      simp only [visitChildren, Except.ok.injEq] at h
      rw [← h]; exact hs
  | st :: sts, ls, ls', hk, hi, hctx, hp, hs, hn, h => by
      simp only [nestSs] at hn
      obtain ⟨a, s1, h1, h2⟩ := children_cons (okTop_usa (hk st (by simp))) h
      rw [hp] at h1
      obtain ⟨k1, -⟩ := top_kept F hN (hk st (by simp)) hi hctx h1
      obtain ⟨l, hl⟩ := k1.ana
      have hs1 := nest_top F hN (n := n) (hk st (by simp)) hi hs (by omega) h1
      refine nest_children hN (ls := { ls with rest := pushed s1 a }) (fun x hx => hk x (by simp [hx])) (k1.inv.pushed a) ?_ hp hs1 ?_ h2
      · show s1.ana.ctxScope = X.g
        rw [hl]; exact hctx
      · show s1.ana.depth + _ ≤ n
        rw [hl]
        show ls.rest.ana.depth + _ ≤ n
        omega

/-- The scopes of an accepted program of the fragment are no deeper than its statements are nested in its text. -/
theorem nest_tree {K : Frag} {cfg : CCfg} {t : Tree} {ls ls1 : LState CState} {main : Path} {lp : String}
    (hctx : ls.ctx = main) (hk : okTree K t = true) (hs : startOk K lp ls.rest = true) (hn : nestSs t.stmts ≤ n)
    (h : visitChildren (icfg cfg py files) load t.stmts
      { ls with log := ls.log ++ [ls.ctx], rest := { ls.rest with open_ := (false, []) :: ls.rest.open_ } } = .ok ls1) :
    Shallow (worldOf K cfg (pstr main) lp ls.rest ls1.rest) n ls1.rest := by
  obtain ⟨hN, htop⟩ := names_of (s := ls.rest) (cfg := cfg) (mod := pstr main) (lp := lp) (sf := ls1.rest) hk
  obtain ⟨hi, hc, -⟩ := start_inv (cfg := cfg) (mod := pstr main) (lp := lp) (sf := ls1.rest) hs
  refine nest_children F hN (ls := { ls with log := ls.log ++ [ls.ctx], rest := { ls.rest with open_ := (false, []) :: ls.rest.open_ } })
    htop (hi.reopen _) hc (by rw [← hctx]; rfl) ?_ ?_ h
  · intro k d hk hd
    exfalso
    have hlt : k < ls.rest.scopes.length := by
      cases hd with
      | root h _ => exact (List.getElem?_eq_some_iff.mp h).1
      | up h _ _ => exact (List.getElem?_eq_some_iff.mp h).1
    exact absurd hlt (Nat.not_lt_of_le hk)
  · show ls.rest.ana.depth + _ ≤ n
    rw [hi.top.mpr hc]
    omega

end

end Amanda.Check

import Verif.Frag
import Verif.TypedProg

/-!
# States of the checker while it visits a program of `Verif.Frag`

`Inv` is what holds of the tables of symbols and scopes between any two steps; `Later` and `Agree` say how
the tables change.
-/

namespace Amanda.Check

/-! ## The monad -/

theorem C.bind_ok {α β : Type} {m : C α} {f : α → C β} {s s' : CState} {b : β} :
    (m >>= f) s = .ok (b, s') ↔ ∃ a s1, m s = .ok (a, s1) ∧ f a s1 = .ok (b, s') := by
  change (match m s with
    | .error e => (Except.error e : Except PyErr (β × CState))
    | .ok (a, s') => f a s') = _ ↔ _
  cases h : m s with
  | error e => simp
  | ok p => obtain ⟨a, s1⟩ := p; simp

theorem C.pure_ok {α : Type} {a b : α} {s s' : CState} : (pure a : C α) s = .ok (b, s') ↔ b = a ∧ s' = s := by
  change Except.ok (a, s) = _ ↔ _
  simp [eq_comm]

theorem C.get_ok {s s' x : CState} : C.get s = .ok (x, s') ↔ x = s ∧ s' = s := by
  unfold C.get; simp [eq_comm]

theorem C.modify_ok {f : CState → CState} {u : Unit} {s s' : CState} : C.modify f s = .ok (u, s') ↔ s' = f s := by
  unfold C.modify; simp [eq_comm]

theorem C.raise_ok {α : Type} {n : String} {a : α} {s s' : CState} : (C.raise n : C α) s = .ok (a, s') ↔ False := by
  unfold C.raise; simp

theorem C.error_ok {α : Type} {m : String} {a : α} {s s' : CState} : (C.error m : C α) s = .ok (a, s') ↔ False := by
  unfold C.error; simp

theorem C.lift_ok {α : Type} {r : Except PyErr α} {a : α} {s s' : CState} :
    C.lift r s = .ok (a, s') ↔ r = .ok a ∧ s' = s := by
  unfold C.lift
  cases r <;> simp [eq_comm]

/-- The state with another line. -/
def CState.atLine (s : CState) (l : Nat) : CState := { s with ana := { s.ana with line := l } }

theorem C.at_ok {tok : Token} {u : Unit} {s s' : CState} : C.at_ tok s = .ok (u, s') ↔ s' = s.atLine tok.line := by
  unfold C.at_; rw [C.modify_ok]; rfl

theorem symOf_ok {i : SymId} {x : CSym} {s s' : CState} :
    symOf i s = .ok (x, s') ↔ s.syms[i]? = some x ∧ s' = s := by
  unfold symOf
  cases s.syms[i]? <;> simp [eq_comm]

theorem newSym_ok {x : CSym} {i : SymId} {s s' : CState} :
    newSym x s = .ok (i, s') ↔ i = s.syms.length ∧ s' = { s with syms := s.syms ++ [x] } := by
  unfold newSym; simp [eq_comm]

theorem newScope_ok {p : Option ScopeId} {k : ScopeId} {s s' : CState} :
    newScope p s = .ok (k, s') ↔ k = s.scopes.length ∧ s' = { s with scopes := s.scopes ++ [⟨[], p⟩] } := by
  unfold newScope; simp [eq_comm]

theorem symbolsOf_ok {k : ScopeId} {l : List (String × SymId)} {s s' : CState} :
    symbolsOf k s = .ok (l, s') ↔ l = ((s.scopes[k]?).map ScopeTab.symbols).getD [] ∧ s' = s := by
  unfold symbolsOf; simp [eq_comm]

/-! ## Scopes -/

/-- The symbol of a name in a scope. -/
def look (tab : ScopeTab) (n : String) : Option SymId := (tab.symbols.find? (·.1 == n)).map (·.2)

/-- The symbol of a name in the scope with a number. -/
def lookIn (scopes : List ScopeTab) (k : ScopeId) (n : String) : Option SymId := (scopes[k]?).bind fun t => look t n

/-- A name seen from a scope stands for a symbol. -/
inductive Seen (scopes : List ScopeTab) (n : String) : ScopeId → SymId → Prop
  | here {k tab i} : scopes[k]? = some tab → look tab n = some i → Seen scopes n k i
  | up {k tab p i} : scopes[k]? = some tab → look tab n = none → tab.parent = some p → Seen scopes n p i →
      Seen scopes n k i

theorem getIn_ok {k : ScopeId} {n : String} {r : Option SymId} {s s' : CState} :
    getIn k n s = .ok (r, s') ↔ r = lookIn s.scopes k n ∧ s' = s := by
  unfold getIn
  simp only [C.bind_ok, symbolsOf_ok, C.pure_ok]
  constructor
  · rintro ⟨a, s1, ⟨rfl, rfl⟩, rfl, rfl⟩
    refine ⟨?_, rfl⟩
    unfold lookIn look
    cases s'.scopes[k]? <;> simp
  · rintro ⟨rfl, rfl⟩
    refine ⟨_, _, ⟨rfl, rfl⟩, ?_, rfl⟩
    unfold lookIn look
    cases s'.scopes[k]? <;> simp

theorem seen_of_resolve {scopes : List ScopeTab} {syms : List Sym} {n : String} {i : SymId} :
    ∀ {fuel : Nat} {k : ScopeId}, SymEnv.resolveFrom ⟨syms, scopes⟩ fuel (some k) n = some i → Seen scopes n k i
  | 0, _, h => by simp [SymEnv.resolveFrom] at h
  | fuel + 1, k, h => by
      unfold SymEnv.resolveFrom at h
      simp only at h
      cases hk : scopes[k]? with
      | none => rw [hk] at h; cases h
      | some tab =>
          rw [hk] at h
          simp only at h
          cases hf : tab.symbols.find? (·.1 == n) with
          | some q =>
              rw [hf] at h
              refine .here hk ?_
              unfold look
              rw [hf]
              simpa using h
          | none =>
              rw [hf] at h
              simp only at h
              cases hp : tab.parent with
              | none => rw [hp] at h; cases fuel <;> simp [SymEnv.resolveFrom] at h
              | some p =>
                  rw [hp] at h
                  refine .up hk ?_ hp (seen_of_resolve h)
                  unfold look
                  rw [hf]
                  rfl

theorem resolve_of_seen {scopes : List ScopeTab} {syms : List Sym} {n : String} {k : ScopeId} {i : SymId}
    (wf : ∀ (k : Nat) (tab : ScopeTab) (p : Nat), scopes[k]? = some tab → tab.parent = some p → p < k)
    (h : Seen scopes n k i) : ∀ {fuel : Nat}, k < fuel → SymEnv.resolveFrom ⟨syms, scopes⟩ fuel (some k) n = some i := by
  induction h with
  | @here k tab i hk hl =>
      intro fuel hf
      obtain ⟨fuel, rfl⟩ := Nat.exists_eq_succ_of_ne_zero (Nat.ne_of_gt (Nat.lt_of_le_of_lt (Nat.zero_le _) hf))
      unfold SymEnv.resolveFrom
      simp only [hk]
      unfold look at hl
      cases hq : tab.symbols.find? (·.1 == n) with
      | none => rw [hq] at hl; cases hl
      | some q => rw [hq] at hl; simpa using hl
  | @up k tab p i hk hl hp _ ih =>
      intro fuel hf
      obtain ⟨fuel, rfl⟩ := Nat.exists_eq_succ_of_ne_zero (Nat.ne_of_gt (Nat.lt_of_le_of_lt (Nat.zero_le _) hf))
      unfold SymEnv.resolveFrom
      simp only [hk]
      unfold look at hl
      cases hq : tab.symbols.find? (·.1 == n) with
      | some q => rw [hq] at hl; cases hl
      | none =>
          simp only [hp]
          exact ih (Nat.lt_of_lt_of_le (wf k tab p hk hp) (Nat.le_of_lt_succ hf))

theorem Seen.lt {scopes : List ScopeTab} {n : String} {k : ScopeId} {i : SymId} (h : Seen scopes n k i) :
    k < scopes.length := by
  cases h with
  | here hk _ => exact (List.getElem?_eq_some_iff.mp hk).1
  | up hk _ _ _ => exact (List.getElem?_eq_some_iff.mp hk).1

theorem Seen.unique {scopes : List ScopeTab} {n : String} {k : ScopeId} {i j : SymId} (h : Seen scopes n k i)
    (h' : Seen scopes n k j) : i = j := by
  induction h with
  | here hk hl =>
      cases h' with
      | here hk' hl' => rw [hk] at hk'; cases hk'; rw [hl] at hl'; exact Option.some.inj hl'
      | up hk' hl' _ _ => rw [hk] at hk'; cases hk'; rw [hl] at hl'; cases hl'
  | up hk hl hp _ ih =>
      cases h' with
      | here hk' hl' => rw [hk] at hk'; cases hk'; rw [hl] at hl'; cases hl'
      | up hk' hl' hp' h' => rw [hk] at hk'; cases hk'; rw [hp] at hp'; cases hp'; exact ih h'

theorem resolveIn_ok {k : ScopeId} {n : String} {r : Option SymId} {s s' : CState} (h : resolveIn k n s = .ok (r, s')) :
    s' = s ∧ ∀ i, r = some i → Seen s.scopes n k i := by
  unfold resolveIn at h
  simp only [Except.ok.injEq, Prod.mk.injEq] at h
  obtain ⟨h, rfl⟩ := h
  exact ⟨rfl, fun i hi => seen_of_resolve (h.trans hi)⟩

theorem resolve_ok {n : String} {r : Option SymId} {s s' : CState} (h : resolve n s = .ok (r, s')) :
    s' = s ∧ ∀ i, r = some i → Seen s.scopes n s.ana.ctxScope i := by
  unfold resolve at h
  simp only [C.bind_ok, C.get_ok] at h
  obtain ⟨x, s1, ⟨rfl, rfl⟩, h⟩ := h
  exact resolveIn_ok h

/-! ## Types -/

/-- Types of variables. -/
def dataTy (r : Bool) : CTy → Bool
  | .prim .int | .prim .bool | .prim .texto => true
  | .prim .real => r
  | .vec t => dataTy r t
  | _ => false

/-- Types of expressions. -/
def exprTy (r : Bool) (t : CTy) : Bool := dataTy r t || t == .prim .vazio

theorem toTy_data {r : Bool} (syms : List CSym) : ∀ {t : CTy}, dataTy r t = true → toTy syms t = toTy [] t
  | .prim _, _ => by simp [toTy]
  | .vec t, h => by
      simp only [toTy]
      rw [toTy_data syms (t := t) (by simpa [dataTy] using h)]
  | .reg _, h | .uni _, h | .app _ _, h | .tvar _, h | .mod _, h => by simp [dataTy] at h

theorem toTy_expr {r : Bool} (syms : List CSym) {t : CTy} (h : exprTy r t = true) : toTy syms t = toTy [] t := by
  unfold exprTy at h
  rcases Bool.or_eq_true _ _ ▸ h with h | h
  · exact toTy_data syms h
  · have := eq_of_beq h
    subst this
    simp [toTy]

/-- The basic types among them. -/
theorem data_cases {r : Bool} : ∀ {t : CTy}, dataTy r t = true →
    t = .prim .int ∨ t = .prim .bool ∨ t = .prim .texto ∨ (r = true ∧ t = .prim .real) ∨
      ∃ u, t = .vec u ∧ dataTy r u = true
  | .prim p, h => by cases p <;> simp_all [dataTy]
  | .vec t, h => by right; right; right; right; exact ⟨t, rfl, by simpa [dataTy] using h⟩
  | .reg _, h | .uni _, h | .app _ _, h | .tvar _, h | .mod _, h => by simp [dataTy] at h

theorem expr_cases {r : Bool} {t : CTy} (h : exprTy r t = true) : dataTy r t = true ∨ t = .prim .vazio := by
  unfold exprTy at h
  rcases Bool.or_eq_true _ _ ▸ h with h | h
  · exact .inl h
  · exact .inr (eq_of_beq h)

theorem toTy_inj {r : Bool} : ∀ {t u : CTy}, dataTy r t = true → exprTy r u = true →
    (toTy [] t).eqv (toTy [] u) = true → t = u
  | .prim p, u, h, hu, he => by
      rcases expr_cases hu with hu | rfl
      · cases u with
        | prim q => simp [toTy, Ty.eqv, Ty.eqD] at he; rw [he]
        | vec => simp [toTy, Ty.eqv, Ty.eqD] at he
        | _ => simp [dataTy] at hu
      · simp [toTy, Ty.eqv, Ty.eqD] at he; rw [he]
  | .vec t, u, h, hu, he => by
      rcases expr_cases hu with hu | rfl
      · cases u with
        | prim q => simp [toTy, Ty.eqv, Ty.eqD] at he
        | vec u =>
            simp only [dataTy] at h hu
            simp only [toTy, Ty.eqv, Ty.eqD] at he
            rw [toTy_inj h (by simp [exprTy, hu]) he]
        | _ => simp [dataTy] at hu
      · simp [toTy, Ty.eqv, Ty.eqD] at he
  | .reg _, _, h, _, _ | .uni _, _, h, _, _ | .app _ _, _, h, _, _ | .tvar _, _, h, _, _ | .mod _, _, h, _, _ => by
      simp [dataTy] at h

/-- A value that is accepted where a type is wanted is of the type, or an integer for a real number; the
conversion asked for is the right one. -/
theorem match_cases {r : Bool} {t u : CTy} (ht : dataTy r t = true) (hu : exprTy r u = true)
    (h : Ty.typesMatch (toTy [] t) (toTy [] u) = .ok true) :
    u = t ∨ (r = true ∧ t = .prim .real ∧ u = .prim .int) := by
  unfold Ty.typesMatch at h
  split at h
  · rename_i he
    exact .inl (toTy_inj ht hu he).symm
  · right
    rcases data_cases ht with rfl | rfl | rfl | ⟨hr, rfl⟩ | ⟨v, rfl, hv⟩ <;>
      rcases expr_cases hu with hu | rfl <;>
      (try (rcases data_cases hu with rfl | rfl | rfl | ⟨hr', rfl⟩ | ⟨w, rfl, hw⟩)) <;>
      simp_all [toTy, Ty.promote, Ty.promotionTo, Ty.autoCast, Except.map]

theorem prom_same {r : Bool} {t : CTy} (ht : exprTy r t = true) : Ty.promote (toTy [] t) (toTy [] t) = .ok none := by
  rcases expr_cases ht with ht | rfl
  · rcases data_cases ht with rfl | rfl | rfl | ⟨hr, rfl⟩ | ⟨v, rfl, hv⟩ <;>
      simp [toTy, Ty.promote, Ty.promotionTo, Ty.autoCast]
  · simp [toTy, Ty.promote, Ty.promotionTo, Ty.autoCast]

open Source in
/-- The conversion asked for where types match. -/
theorem match_prom {r : Bool} {t u : CTy} {q : Option Ty} (ht : dataTy r t = true) (hu : exprTy r u = true)
    (h : Ty.typesMatch (toTy [] t) (toTy [] u) = .ok true)
    (hq : Ty.promote (toTy [] u) (toTy [] t) = .ok q) : Prom (q.getD .unknown) (toTy [] u) (toTy [] t) := by
  rcases match_cases ht hu h with rfl | ⟨_, rfl, rfl⟩
  · rw [prom_same hu] at hq
    cases hq
    exact .none _ _ (by simp)
  · simp [toTy, Ty.promote, Ty.promotionTo, Ty.autoCast] at hq
    subst hq
    exact .real

end Amanda.Check

import Verif.Elaborate
import Verif.FragState
import Verif.Props.Returns

/-!
# C37: the check of `retorna` is made for every declared function
-/

namespace Amanda.Check

/-- **C37**, the hypothesis of `function_returns_partial` about the checker: a function with a body that is declared
without an error has passed the check of its `retorna`, for the answer the checker found to whether its type is `vazio`. -/
theorem declared_returns {cfg : CCfg} {mod : String} {name : Token} {params : List Param} {ret : Option TyExpr}
    {body : List Stmt} {as : List Annotation} {s s' : CState} {r : SymId × ScopeId} (hb : builtinAnn as = false)
    (h : declareFunc cfg mod name params ret (some body) false as s = .ok (r, s')) :
    ∃ t v s₁ s₂ s₃ s₄, getTy? ret s₁ = .ok (t, s₂) ∧ sameTy t (.prim .vazio) s₃ = .ok (v, s₄) ∧ validReturn body v = true := by
  unfold declareFunc at h
  obtain ⟨_, _, -, h⟩ := C.bind_ok.1 h
  obtain ⟨_, _, -, h⟩ := C.bind_ok.1 h
  obtain ⟨t, _, ht, h⟩ := C.bind_ok.1 h
  obtain ⟨_, _, -, h⟩ := C.bind_ok.1 h
  obtain ⟨_, _, -, h⟩ := C.bind_ok.1 h
  rw [if_neg (by simp [hb])] at h
  obtain ⟨v, _, hv, h⟩ := C.bind_ok.1 h
  refine ⟨t, v, _, _, _, _, ht, hv, ?_⟩
  split at h
  · assumption
  · obtain ⟨_, _, -, h⟩ := C.bind_ok.1 h
    exact (C.error_ok.1 h).elim

/-- `func f() : int` with the given body, in a module with nothing else: whether it is declared. -/
def declares (body : List Stmt) : Bool :=
  match (freshAna >>= fun _ => declareFunc ⟨fun _ => true, []⟩ "/m.ama" ⟨.identifier, .text ['f'], 1, 0⟩ []
      (some (.name ⟨.identifier, .text ['i', 'n', 't'], 1, 0⟩ false none)) (some body) false []) (initState "/e.ama") with
  | .ok _ => true
  | .error _ => false

/-- It is declared with a `retorna`, and not without. -/
example : declares [.retorna ⟨.retorna, .text [], 1, 0⟩ (some (.const ⟨.integer, .int 1, 1, 0⟩))] = true ∧ declares [] = false := by
  decide +kernel

/-- The arms of an `iguala` keep their places: the arm that was visited as the `i`-th is the `i`-th of the result. -/
theorem arms_keep_places {done : List (Nat × AArm)} {x : Nat × AArm} : ∀ (as : List Arm) (k i : Nat), i < as.length →
    done.find? (·.1 == k + i) = some x → (armResults done as k)[i]? = some x.2
  | [], _, _, h, _ => nomatch h
  | .mk _ _ _ _ :: _, k, 0, _, hx => by
      unfold armResults
      rw [show k = k + 0 from rfl, hx]
      rfl
  | .mk _ _ _ _ :: rest, k, i + 1, h, hx => by
      unfold armResults
      exact arms_keep_places rest (k + 1) i (by simpa using h) (by rw [Nat.add_right_comm]; exact hx)

/-- Two arms, visited in the other order. -/
example (a b : AArm) (p q : Arm) : (armResults [(1, b), (0, a)] [p, q] 0)[1]? = some b :=
  arms_keep_places (x := (1, b)) [p, q] 0 1 (by simp) rfl

end Amanda.Check

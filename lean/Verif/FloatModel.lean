import Verif.Value

/-!
# A float implementation satisfying `LawfulFloatOps`

Whole numbers only.  It is no model of `f64`; it shows that the laws some statements assume
can be met, and it makes concrete examples computable.
-/

namespace Amanda

/-- Numbers of the example implementation. -/
structure WholeFloat where
  val : Int
  deriving DecidableEq, Repr

namespace WholeFloat

/-- Saturating conversion (`float as i64`, ama_value.rs:109). -/
def clamp (n : Int) : Int :=
  if n < -(2 ^ 63) then -(2 ^ 63) else if n ≥ 2 ^ 63 then 2 ^ 63 - 1 else n

/-- Decimal numerals with optional minus sign. -/
def parse (s : String) : Option WholeFloat :=
  match s.toList with
  | '-' :: cs => (parseDigits cs).map fun (n : Nat) => ⟨-(n : Int)⟩
  | cs => (parseDigits cs).map fun (n : Nat) => ⟨(n : Int)⟩

instance : FloatOps WholeFloat where
  ofInt n := ⟨n⟩
  toInt x := clamp x.val
  zero := ⟨0⟩
  pi := ⟨3⟩
  add a b := ⟨a.val + b.val⟩
  sub a b := ⟨a.val - b.val⟩
  mul a b := ⟨a.val * b.val⟩
  div a b := ⟨Int.tdiv a.val b.val⟩
  rem a b := ⟨Int.tmod a.val b.val⟩
  neg a := ⟨-a.val⟩
  eq a b := a.val == b.val
  lt a b := decide (a.val < b.val)
  le a b := decide (a.val ≤ b.val)
  isWhole _ := true
  display a := toString a.val
  parse := parse
  ofBits n := ⟨n⟩
  abs a := ⟨a.val.natAbs⟩
  pow a b := ⟨a.val ^ b.val.toNat⟩
  sqrt a := a
  round a := a
  floor a := a
  ceil a := a
  sin a := a
  cos a := a
  tan a := a
  log a _ := a
  toRadians a := a
  toDegrees a := a

theorem parse_quoted (s : String)
    (h : s.toList.head? = some '\'' ∨ s.toList.head? = some '"') : parse s = none := by
  have key : ∀ (c : Char) (rest : List Char), (c = '\'' ∨ c = '"') → parseDigits (c :: rest) = none := by
    intro c rest hc
    rcases hc with rfl | rfl <;> simp [parseDigits, List.foldlM, Char.isDigit]
  unfold parse
  rcases hs : s.toList with _ | ⟨c, cs⟩
  · simp [hs] at h
  · simp only [hs, List.head?_cons, Option.some.injEq] at h
    rcases h with rfl | rfl <;> simp [key]

instance : LawfulFloatOps WholeFloat where
  ofInt_zero n _ := by simp [FloatOps.eq, FloatOps.ofInt, FloatOps.zero]
  toInt_zero x h := by
    simp [FloatOps.eq, FloatOps.zero] at h
    simp [FloatOps.toInt, clamp, h]
  toInt_range x := by
    simp only [FloatOps.toInt, clamp, InI64]
    split
    · omega
    · split <;> omega
  parse_quoted s h := parse_quoted s h

end WholeFloat

end Amanda

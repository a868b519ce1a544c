import Verif.Value
import Mathlib.Tactic.ByContra
import Mathlib.Tactic.Tauto
import Mathlib.Data.List.Induction

/-!
# C10–C15: arithmetic, comparison, conversion

Specifications: exact `Int` arithmetic, the division law, linear order on `Int`, decimal
numerals.
-/

namespace Amanda

variable {F : Type} [FloatOps F]

/-! ## C10 -/

/-- The mathematical meaning of `+`, `-` and `*`. -/
inductive ExactOp : Op → (Int → Int → Int) → Prop
  | add : ExactOp .opAdd (· + ·)
  | sub : ExactOp .opMinus (· - ·)
  | mul : ExactOp .opMul (· * ·)

/-- **C10.** `+`, `-`, `*` on integers give the exact result when it fits 64 bits and the
out-of-range error otherwise. -/
theorem int_arith_exact {op : Op} {f : Int → Int → Int} (h : ExactOp op f) (a b : Int) :
    (InI64 (f a b) → binop (.int a : Val F) op (.int b) = .ok (.int (f a b))) ∧
    (¬ InI64 (f a b) → binop (.int a : Val F) op (.int b) = .error (.err msgOverflow)) := by
  cases h <;>
    constructor <;> intro hr <;>
    simp_all [binop, resType, Val.isFloat, Val.isInt, arithOps, Val.takeInt, checked]

example : ExactOp .opMul (· * ·) ∧ InI64 (3037000499 * 3037000499) ∧
    ¬ InI64 (3037000500 * 3037000500) := ⟨.mul, by decide, by decide⟩

/-! ## C11 -/

/-- **C11.** Division law, for every pair except minimum by `-1`: the quotient and
remainder exist, recompose the dividend, the remainder is smaller than the divisor and
has the sign of the dividend (so the quotient rounds toward zero). -/
theorem int_division_law [LawfulFloatOps F] (a b : Int) (ha : InI64 a) (hb : InI64 b)
    (hz : b ≠ 0) (hm : ¬ (a = -(2 ^ 63) ∧ b = -1)) :
    ∃ q r : Int,
      binop (.int a : Val F) .opFloordiv (.int b) = .ok (.int q) ∧
      binop (.int a : Val F) .opModulo (.int b) = .ok (.int r) ∧
      a = q * b + r ∧ r.natAbs < b.natAbs ∧ (0 ≤ a → 0 ≤ r) ∧ (a ≤ 0 → r ≤ 0) ∧
      (q * b).natAbs ≤ a.natAbs ∧ InI64 q ∧ InI64 r := by
  have hq : InI64 (Int.tdiv a b) := by
    have h1 : (Int.tdiv a b).natAbs ≤ a.natAbs := by
      rw [Int.natAbs_tdiv]; exact Nat.div_le_self _ _
    unfold InI64 at *
    by_cases h2 : (Int.tdiv a b).natAbs = a.natAbs
    · rw [Int.natAbs_tdiv] at h2
      change a.natAbs / b.natAbs = a.natAbs at h2
      by_cases h3 : a = -(2 ^ 63)
      · have h4 : b.natAbs = 1 := by
          rw [h3] at h2
          have h5 : b.natAbs ≤ 1 := by
            by_contra h6
            have := Nat.div_lt_self (n := (-(2 ^ 63) : Int).natAbs) (k := b.natAbs) (by decide)
              (by omega)
            rw [h2] at this; exact absurd this (by omega)
          omega
        have h5 : b = 1 := by omega
        subst h5
        rw [Int.tdiv_one]; exact ha
      · omega
    · omega
  have hz' : FloatOps.eq (FloatOps.ofInt b : F) FloatOps.zero = false := by
    cases h : FloatOps.eq (FloatOps.ofInt b : F) FloatOps.zero with
    | false => rfl
    | true => exact absurd ((LawfulFloatOps.ofInt_zero b hb).mp h) hz
  have hr : (Int.tmod a b).natAbs < b.natAbs := by
    rw [Int.natAbs_tmod]; exact Nat.mod_lt _ (by omega)
  have hs1 : 0 ≤ a → 0 ≤ Int.tmod a b := fun h => Int.tmod_nonneg b h
  have hs2 : a ≤ 0 → Int.tmod a b ≤ 0 := by
    intro h
    have := Int.tmod_nonneg b (a := -a) (by omega)
    rw [Int.neg_tmod] at this
    omega
  have hrec : a = Int.tdiv a b * b + Int.tmod a b := by
    have := Int.tdiv_mul_add_tmod a b
    omega
  refine ⟨Int.tdiv a b, Int.tmod a b, ?_, ?_, hrec, hr, hs1, hs2, ?_, hq, ?_⟩
  · simp [binop, resType, Val.isFloat, Val.isInt, Val.takeInt, arithOps, hz, checkedDiv, checked, hq]
  · simp [binop, resType, Val.isFloat, Val.isInt, Val.takeInt, Val.takeFloat, arithOps, hz',
      checkedRem, hq]
  · have : a.natAbs = a.natAbs / b.natAbs * b.natAbs + a.natAbs % b.natAbs := by
      rw [Nat.mul_comm]; exact (Nat.div_add_mod _ _).symm
    rw [Int.natAbs_mul, Int.natAbs_tdiv]
    exact Nat.div_mul_le_self _ _
  · unfold InI64 at *; omega

/-- **C11, remaining case.** Minimum integer by `-1` is the out-of-range error for both
operators. -/
theorem int_division_min [LawfulFloatOps F] :
    binop (.int (-(2 ^ 63)) : Val F) .opFloordiv (.int (-1)) = .error (.err msgOverflow) ∧
    binop (.int (-(2 ^ 63)) : Val F) .opModulo (.int (-1)) = .error (.err msgOverflow) := by
  have hz' : FloatOps.eq (FloatOps.ofInt (-1) : F) FloatOps.zero = false := by
    cases h : FloatOps.eq (FloatOps.ofInt (-1) : F) FloatOps.zero with
    | false => rfl
    | true => exact absurd ((LawfulFloatOps.ofInt_zero (F := F) (-1) (by decide)).mp h) (by decide)
  have hn : ¬ InI64 (Int.tdiv (-(2 ^ 63)) (-1)) := by decide
  constructor
  · simp only [binop, resType, Val.isFloat, Val.isInt, Val.takeInt, arithOps, checkedDiv, checked,
      except_bind_ok, if_neg hn]
    rfl
  · simp only [binop, resType, Val.isFloat, Val.isInt, Val.takeInt, Val.takeFloat, arithOps,
      checkedRem, except_bind_ok, hz', if_neg hn]
    rfl

/-! ## C12 -/

/-- The error each division operator reports for a zero divisor. -/
inductive ZeroError : Op → String → Prop
  | div : ZeroError .opDiv "não pode dividir um número por zero"
  | floordiv : ZeroError .opFloordiv "não pode dividir um número por zero"
  | modulo : ZeroError .opModulo "não pode calcular o resto da divisão de um número por zero"

/-- A number: integer or real. -/
inductive IsNumber : Val F → Prop
  | int (n : Int) : IsNumber (.int n)
  | real (x : F) : IsNumber (.f64 x)

/-- A number that is zero: the integer `0` or a real equal to `0.0`. -/
inductive IsZero : Val F → Prop
  | int : IsZero (.int 0)
  | real (x : F) : FloatOps.eq x FloatOps.zero = true → IsZero (.f64 x)

/-- **C12.** Dividing any number by zero is the division error. -/
theorem zero_divisor_stops [LawfulFloatOps F] {op : Op} {msg : String} (h : ZeroError op msg)
    (x y : Val F) (hx : IsNumber x) (hy : IsZero y) : binop x op y = .error (.err msg) := by
  have h0 : FloatOps.eq (FloatOps.ofInt 0 : F) FloatOps.zero = true :=
    (LawfulFloatOps.ofInt_zero (F := F) 0 (by decide)).mpr rfl
  cases hy with
  | int =>
    cases hx <;> cases h <;>
      simp [binop, resType, Val.isFloat, Val.isInt, Val.takeInt, Val.takeFloat, h0, msgDivZero,
        msgRemZero]
  | real z hz =>
    have h1 := LawfulFloatOps.toInt_zero z hz
    cases hx <;> cases h <;>
      simp [binop, resType, Val.isFloat, Val.takeInt, Val.takeFloat, hz, h1, msgDivZero,
        msgRemZero]

/-- **C12, converse.** No other integer divisor triggers that error. -/
theorem nonzero_divisor_no_zero_error [LawfulFloatOps F] {op : Op} {msg : String}
    (h : ZeroError op msg) (x : Val F) (hx : IsNumber x) (b : Int) (hb : InI64 b) (hz : b ≠ 0) :
    binop x op (.int b) ≠ .error (.err msg) := by
  have hz' : FloatOps.eq (FloatOps.ofInt b : F) FloatOps.zero = false := by
    cases h : FloatOps.eq (FloatOps.ofInt b : F) FloatOps.zero with
    | false => rfl
    | true => exact absurd ((LawfulFloatOps.ofInt_zero b hb).mp h) hz
  have hne1 : msgOverflow ≠ "não pode dividir um número por zero" := by decide
  have hne2 : msgOverflow ≠ "não pode calcular o resto da divisão de um número por zero" := by decide
  cases hx with
  | int n =>
    cases h
    · simp [binop, resType, Val.isFloat, Val.isInt, Val.takeFloat, hz']
    · simp only [binop, resType, Val.isFloat, Val.isInt, Val.takeInt, except_bind_ok, if_neg hz,
        arithOps]
      cases checkedDiv n b <;> simp [hne1]
    · simp only [binop, resType, Val.isFloat, Val.isInt, Val.takeInt, Val.takeFloat, except_bind_ok,
        hz', arithOps]
      cases checkedRem n b <;> simp [hne2]
  | real z =>
    cases h
    · simp [binop, resType, Val.isFloat, Val.takeFloat, hz']
    · simp only [binop, resType, Val.isFloat, Val.takeInt, except_bind_ok, if_neg hz, arithOps]
      cases checkedDiv (FloatOps.toInt z) b <;> simp [hne1]
    · simp [binop, resType, Val.isFloat, Val.takeFloat, hz', arithOps]

/-! ## C13 -/

/-- **C13.** Comparisons on integers are those of the linear order on `Int`; in
particular exactly one of `<`, `==`, `>` holds. -/
theorem int_comparisons (a b : Int) :
    binop (.int a : Val F) .opLess (.int b) = .ok (.bool (decide (a < b))) ∧
    binop (.int a : Val F) .opLesseq (.int b) = .ok (.bool (decide (a < b ∨ a = b))) ∧
    binop (.int a : Val F) .opGreater (.int b) = .ok (.bool (decide (b < a))) ∧
    binop (.int a : Val F) .opGreatereq (.int b) = .ok (.bool (decide (b < a ∨ a = b))) ∧
    binop (.int a : Val F) .opEq (.int b) = .ok (.bool (decide (a = b))) := by
  refine ⟨?_, ?_, ?_, ?_, ?_⟩ <;>
    simp [binop, resType, Val.isFloat, Val.isInt, Val.takeInt, compOps, eqOps] <;>
    (try rfl)
  · rw [← Bool.decide_or, decide_eq_decide]; omega
  · rw [← Bool.decide_or, decide_eq_decide]; omega

/-- Values `==` is meant for: two numbers, two booleans or two texts. -/
inductive Comparable : Val F → Val F → Prop
  | num {x y} : IsNumber x → IsNumber y → Comparable x y
  | bool (a b : Bool) : Comparable (.bool a) (.bool b)
  | str (a b : String) : Comparable (.str a) (.str b)

/-- **C13.** On comparable values `==` yields a boolean and `!=` its negation; on equal
booleans, texts and integers `==` is true, on different ones false. -/
theorem neq_is_negation {x y : Val F} (h : Comparable x y) :
    ∃ r : Bool, binop x .opEq y = .ok (.bool r) ∧ binop x .opNoteq y = .ok (.bool !r) ∧
      (x.isFloat = false → y.isFloat = false → (r = true ↔ x = y)) := by
  cases h with
  | bool a b => exact ⟨a == b, by cases a <;> cases b <;> rfl, by cases a <;> cases b <;> rfl, by simp⟩
  | str a b => exact ⟨a == b, by simp [binop, resType, Val.isFloat, Val.isInt, Val.isBool, Val.isStr,
      eqOps, Val.takeStr], by simp [binop, resType, Val.isFloat, Val.isInt, Val.isBool, Val.isStr,
      eqOps, Val.takeStr], by simp⟩
  | num hx hy =>
    cases hx with
    | int a =>
      cases hy with
      | int b => exact ⟨a == b, by simp [binop, resType, Val.isFloat, Val.isInt, eqOps, Val.takeInt],
          by simp [binop, resType, Val.isFloat, Val.isInt, eqOps, Val.takeInt], by simp⟩
      | real y => exact ⟨FloatOps.eq (FloatOps.ofInt a) y,
          by simp [binop, resType, Val.isFloat, eqOps, Val.takeFloat],
          by simp [binop, resType, Val.isFloat, eqOps, Val.takeFloat], by simp [Val.isFloat]⟩
    | real x =>
      cases hy with
      | int b => exact ⟨FloatOps.eq x (FloatOps.ofInt b),
          by simp [binop, resType, Val.isFloat, eqOps, Val.takeFloat],
          by simp [binop, resType, Val.isFloat, eqOps, Val.takeFloat], by simp [Val.isFloat]⟩
      | real y => exact ⟨FloatOps.eq x y,
          by simp [binop, resType, Val.isFloat, eqOps, Val.takeFloat],
          by simp [binop, resType, Val.isFloat, eqOps, Val.takeFloat], by simp [Val.isFloat]⟩

/-! ## C14 -/

/-- `ds` is a non-empty decimal numeral denoting `n` (most significant digit first). -/
inductive Decimal : List Char → Nat → Prop
  | digit (d : Char) : d.isDigit = true → Decimal [d] (d.toNat - '0'.toNat)
  | snoc {ds n} (d : Char) : Decimal ds n → d.isDigit = true →
      Decimal (ds ++ [d]) (n * 10 + (d.toNat - '0'.toNat))

/-- `s` is an optionally signed decimal numeral denoting `n`. -/
inductive SignedDecimal : String → Int → Prop
  | plain {s n} : Decimal s.toList n → SignedDecimal s n
  | plus {s ds n} : s.toList = '+' :: ds → Decimal ds n → SignedDecimal s n
  | minus {s ds n} : s.toList = '-' :: ds → Decimal ds n → SignedDecimal s (-n)

theorem foldlM_digits (cs : List Char) (acc n : Nat) :
    cs.foldlM (fun acc c => if c.isDigit then some (acc * 10 + (c.toNat - 48)) else none) acc = some n ↔
      (∀ c ∈ cs, c.isDigit = true) ∧ n = Nat.ofDigitChars 10 cs acc := by
  induction cs generalizing acc with
  | nil => simp [Nat.ofDigitChars]; exact eq_comm
  | cons c cs ih =>
    simp only [List.foldlM_cons]
    by_cases hc : c.isDigit = true
    · rw [if_pos hc]
      show (cs.foldlM _ (acc * 10 + (c.toNat - 48))) = some n ↔ _
      rw [ih]
      simp only [List.mem_cons, forall_eq_or_imp, hc, true_and, Nat.ofDigitChars, List.foldl_cons,
        Nat.mul_comm acc 10]
      rfl
    · simp [hc]

theorem parseDigits_iff (cs : List Char) (n : Nat) : parseDigits cs = some n ↔ Decimal cs n := by
  have key : parseDigits cs = some n ↔
      cs ≠ [] ∧ (∀ c ∈ cs, c.isDigit = true) ∧ n = Nat.ofDigitChars 10 cs 0 := by
    unfold parseDigits
    split
    · simp
    · rename_i h
      rw [foldlM_digits]
      constructor
      · intro h'; exact ⟨fun e => h e, h'⟩
      · intro h'; exact h'.2
  rw [key]
  clear key
  constructor
  · rintro ⟨hne, hd, rfl⟩
    induction cs using List.reverseRecOn with
    | nil => exact absurd rfl hne
    | append_singleton cs c ih =>
      have hc : c.isDigit = true := hd c (by simp)
      cases cs with
      | nil =>
        simpa [Nat.ofDigitChars] using Decimal.digit c hc
      | cons c0 cs =>
        have := ih (by simp) (fun x hx => hd x (by simp at hx ⊢; tauto))
        have h2 := Decimal.snoc c this hc
        simpa [Nat.ofDigitChars, Nat.mul_comm] using h2
  · intro h
    induction h with
    | digit d hd => simp [hd, Nat.ofDigitChars]
    | snoc d _ hd ih =>
      obtain ⟨_, h2, h3⟩ := ih
      refine ⟨by simp, ?_, ?_⟩
      · intro c hc
        simp at hc
        rcases hc with hc | rfl
        · exact h2 c hc
        · exact hd
      · subst h3; simp [Nat.ofDigitChars, Nat.mul_comm]

theorem Decimal.head_isDigit {ds : List Char} {n : Nat} (h : Decimal ds n) :
    ∃ c cs, ds = c :: cs ∧ c.isDigit = true := by
  have := (parseDigits_iff ds n).mpr h
  cases ds with
  | nil => simp [parseDigits] at this
  | cons c cs =>
    refine ⟨c, cs, rfl, ?_⟩
    unfold parseDigits at this
    rw [foldlM_digits] at this
    exact this.1 c (by simp)

theorem checked_eq_some {n m : Int} : checked n = some m ↔ InI64 n ∧ m = n := by
  unfold checked; split <;> simp_all [eq_comm]

/-- **C14.** A text converts to an integer exactly when it is an optionally signed decimal
numeral in range, and then to that number. -/
theorem parseI64_iff (s : String) (n : Int) :
    parseI64 s = some n ↔ InI64 n ∧ SignedDecimal s n := by
  have hneg : ∀ k : Nat, ¬ Decimal ('-' :: ([] : List Char)) k := by
    intro k h; obtain ⟨c, cs, h1, h2⟩ := h.head_isDigit
    simp at h1; rw [← h1.1] at h2; exact absurd h2 (by decide)
  unfold parseI64
  simp only [Option.bind_eq_some_iff, checked_eq_some]
  constructor
  · rintro ⟨m, hm, hr, rfl⟩
    refine ⟨hr, ?_⟩
    split at hm
    · rename_i cs heq
      simp only [Option.map_eq_some_iff] at hm
      obtain ⟨k, hk, rfl⟩ := hm
      exact .minus heq ((parseDigits_iff _ _).mp hk)
    · rename_i cs heq
      simp only [Option.map_eq_some_iff] at hm
      obtain ⟨k, hk, rfl⟩ := hm
      exact .plus heq ((parseDigits_iff _ _).mp hk)
    · simp only [Option.map_eq_some_iff] at hm
      obtain ⟨k, hk, rfl⟩ := hm
      exact .plain ((parseDigits_iff _ _).mp hk)
  · rintro ⟨hr, h⟩
    refine ⟨n, ?_, hr, rfl⟩
    cases h with
    | plain h =>
      obtain ⟨c, cs, h1, h2⟩ := h.head_isDigit
      have h3 := (parseDigits_iff _ _).mpr h
      rw [h1] at h3 ⊢
      split
      · rename_i heq; simp at heq; rw [heq.1] at h2; exact absurd h2 (by decide)
      · rename_i heq; simp at heq; rw [heq.1] at h2; exact absurd h2 (by decide)
      · rw [h3]; rfl
    | plus heq h => rw [heq]; simp [(parseDigits_iff _ _).mpr h]
    | minus heq h => rw [heq]; simp [(parseDigits_iff _ _).mpr h]

theorem decimal_repr (n : Nat) : Decimal (toString n).toList n := by
  apply (parseDigits_iff _ _).mp
  have h1 : (toString n).toList = Nat.toDigits 10 n := by
    show (Nat.repr n).toList = _
    simp [Nat.repr]
  rw [h1]
  have h2 : Nat.toDigits 10 n ≠ [] := by
    intro h
    have := Nat.ofDigitChars_toDigits (b := 10) (n := n) (by omega) (by omega)
    have h0 := Nat.length_toDigits_pos (b := 10) (n := n)
    rw [h] at h0; simp at h0
  unfold parseDigits
  split
  · rename_i h; exact absurd h h2
  · rw [foldlM_digits]
    exact ⟨fun c hc => Nat.isDigit_of_mem_toDigits (by omega) (by omega) hc,
      (Nat.ofDigitChars_toDigits (b := 10) (n := n) (by omega) (by omega)).symm⟩

theorem signedDecimal_toString (n : Int) : SignedDecimal (toString n) n := by
  cases n with
  | ofNat k => exact .plain (decimal_repr k)
  | negSucc k =>
    have h : (toString (Int.negSucc k)).toList = '-' :: (toString (k + 1)).toList := by
      show ("-" ++ Nat.repr (k + 1)).toList = _
      simp
    have := SignedDecimal.minus h (decimal_repr (k + 1))
    simpa [Int.negSucc_eq] using this

/-- **C14.** `n :> texto :> int` is `n`, for every 64-bit integer and heap. -/
theorem int_texto_int (heap : Heap F) (n : Int) (hn : InI64 n) :
    ∃ s : String, castVal heap (.int n) .texto = .ok (.str s) ∧
      castVal heap (.str s) .int = .ok (.int n) := by
  refine ⟨toString n, ?_, ?_⟩
  · simp [castVal, displayVal, displayFuel]
  · have := (parseI64_iff _ _).mpr ⟨hn, signedDecimal_toString n⟩
    simp only [castVal, this]

/-- **C14.** Conversion of a text to `int`, completely. -/
theorem texto_to_int (heap : Heap F) (s : String) :
    (∀ n, InI64 n → SignedDecimal s n → castVal heap (.str s) .int = .ok (.int n)) ∧
    ((¬ ∃ n, InI64 n ∧ SignedDecimal s n) →
      castVal heap (.str s) .int =
        .error (.err ("A sequência de caracteres '" ++ s ++ "' não é um inteiro válido"))) := by
  constructor
  · intro n hr hn
    simp [castVal, (parseI64_iff _ _).mpr ⟨hr, hn⟩]
  · intro h
    have : parseI64 s = none := by
      cases hp : parseI64 s with
      | none => rfl
      | some n => exact absurd ⟨n, (parseI64_iff _ _).mp hp⟩ h
    simp [castVal, this]

example : SignedDecimal "-042" (-42) := by
  have h : Decimal ['0', '4', '2'] 42 :=
    .snoc (ds := ['0', '4']) '2' (.snoc (ds := ['0']) '4' (.digit '0' (by decide)) (by decide)) (by decide)
  exact .minus (s := "-042") (by decide) h

/-! ## C15 -/

/-- Operators that accept an integer and a real. -/
def MixedOp (op : Op) : Prop :=
  op ∈ [Op.opAdd, .opMinus, .opMul, .opDiv, .opModulo, .opEq, .opNoteq, .opGreater, .opGreatereq,
    .opLess, .opLesseq]

/-- **C15.** An integer operand beside a real behaves as its conversion to real, on
either side, also for the errors. -/
theorem mixed_as_converted {op : Op} (h : MixedOp op) (n : Int) (x : F) :
    binop (.int n) op (.f64 x) = binop (.f64 (FloatOps.ofInt n)) op (.f64 x) ∧
    binop (.f64 x) op (.int n) = binop (.f64 x) op (.f64 (FloatOps.ofInt n)) := by
  simp only [MixedOp, List.mem_cons, List.not_mem_nil, or_false] at h
  rcases h with rfl | rfl | rfl | rfl | rfl | rfl | rfl | rfl | rfl | rfl | rfl <;>
    simp [binop, resType, Val.isFloat, Val.takeFloat, arithOps, compOps, eqOps]

/-- `//` is different: it converts the real to an integer instead, so `7 // 0.5` is the
division-by-zero error whenever `0.5` truncates to `0`. -/
theorem floordiv_truncates_real_divisor (n : Int) (x : F) (h : FloatOps.toInt x = 0) :
    binop (.int n) .opFloordiv (.f64 x) = .error (.err msgDivZero) := by
  simp [binop, resType, Val.isFloat, Val.takeInt, h]

end Amanda

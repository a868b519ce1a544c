import Verif.Lexer
import Verif.Props.Arith
import Mathlib.Tactic.ByContra

/-!
# A `PyCfg` satisfying `PyCfg.Lawful`

Python's classes restricted to ASCII and Latin-1.  It shows that the laws can be met and makes
concrete examples computable.
-/

namespace Amanda

/-- Characters of Latin-1 that Python's `str.isalpha` accepts, beyond ASCII. -/
def latin1Alpha (c : Char) : Bool :=
  c.toNat = 0xaa || c.toNat = 0xb5 || c.toNat = 0xba ||
    (decide (0xc0 ≤ c.toNat ∧ c.toNat ≤ 0xff) && c.toNat != 0xd7 && c.toNat != 0xf7)

/-- Characters of Latin-1 that Python's `str.isdigit` accepts, beyond ASCII: `²`, `³`, `¹`. -/
def latin1Digit (c : Char) : Bool := c.toNat = 0xb2 || c.toNat = 0xb3 || c.toNat = 0xb9

/-- Digits of `int(..)`: up to 4300 ASCII digits; superscripts are refused. -/
def pyInt (cs : List Char) : Option Nat := if cs.length ≤ 4300 then parseDigits cs else none

/-- The example implementation. -/
def samplePy : PyCfg where
  isAlpha c := c.isAlpha || latin1Alpha c
  isDigit c := c.isDigit || latin1Digit c
  isAlnum c := c.isAlphanum || latin1Alpha c || latin1Digit c
  isSpace c := decide (9 ≤ c.toNat ∧ c.toNat ≤ 13) || decide (28 ≤ c.toNat ∧ c.toNat ≤ 32) ||
    c.toNat = 0x85 || c.toNat = 0xa0
  parseInt := pyInt
  parseReal cs := if cs.all fun c => c.isDigit || c == '.' then some (String.ofList cs) else none

theorem latin1Alpha_ascii {c : Char} (h : c.toNat < 128) : latin1Alpha c = false := by
  simp only [latin1Alpha, Bool.or_eq_false_iff, decide_eq_false_iff_not]
  refine ⟨⟨⟨?_, ?_⟩, ?_⟩, ?_⟩ <;> first | omega | skip
  simp only [Bool.and_eq_false_iff, decide_eq_false_iff_not]
  left; left; omega

theorem latin1Digit_ascii {c : Char} (h : c.toNat < 128) : latin1Digit c = false := by
  simp only [latin1Digit, Bool.or_eq_false_iff, decide_eq_false_iff_not]
  refine ⟨⟨?_, ?_⟩, ?_⟩ <;> omega

theorem char_classes (c : Char) (h : c.isAlphanum = true) : c.toNat < 128 ∧ 48 ≤ c.toNat := by
  simp only [Char.isAlphanum, Char.isAlpha, Char.isUpper, Char.isLower, Char.isDigit, Bool.or_eq_true,
    Bool.and_eq_true, decide_eq_true_eq] at h
  have e : c.toNat = c.val.toNat := rfl
  rcases h with (h | h) | h
  all_goals
    obtain ⟨h1, h2⟩ := h
    rw [ge_iff_le, UInt32.le_iff_toNat_le] at h1
    rw [UInt32.le_iff_toNat_le] at h2
    simp at h1 h2
    omega

theorem samplePy_lawful : samplePy.Lawful where
  alpha c h := by simp [samplePy, latin1Alpha_ascii h]
  digit c h := by simp [samplePy, latin1Digit_ascii h]
  space c h := by
    have h1 : decide (c.toNat = 133) = false := by simp; omega
    have h2 : decide (c.toNat = 160) = false := by simp; omega
    simp only [samplePy, h1, h2, Bool.or_false]
  alnum c h := by simp [samplePy, latin1Alpha_ascii h, latin1Digit_ascii h]
  alpha_alnum c h := by
    simp only [samplePy, Bool.or_eq_true, Char.isAlphanum] at h ⊢
    rcases h with h | h <;> simp [h]
  digit_alnum c h := by
    simp only [samplePy, Bool.or_eq_true, Char.isAlphanum] at h ⊢
    rcases h with h | h <;> simp [h]
  alpha_digit c h := by
    simp only [samplePy, Bool.or_eq_true, Bool.or_eq_false_iff] at h ⊢
    rcases h with h | h
    · have hn : c.isAlphanum = true := by simp [Char.isAlphanum, h]
      refine ⟨?_, latin1Digit_ascii (char_classes c hn).1⟩
      simp only [Char.isAlpha, Char.isUpper, Char.isLower, Bool.or_eq_true, Bool.and_eq_true,
        decide_eq_true_eq] at h
      by_contra hd
      simp only [Char.isDigit, Bool.not_eq_false, Bool.and_eq_true, decide_eq_true_eq] at hd
      obtain ⟨_, hd⟩ := hd
      rw [UInt32.le_iff_toNat_le] at hd
      rcases h with ⟨h, _⟩ | ⟨h, _⟩ <;>
      · rw [ge_iff_le, UInt32.le_iff_toNat_le] at h
        simp at h hd
        omega
    · constructor
      · by_contra hd
        have hn : c.isAlphanum = true := by simp [Char.isAlphanum] at hd ⊢; exact .inr hd
        simp [latin1Alpha_ascii (char_classes c hn).1] at h
      · by_contra hd
        simp only [latin1Digit, Bool.not_eq_false, Bool.or_eq_true, decide_eq_true_eq] at hd
        rcases hd with (hd | hd) | hd <;> simp [latin1Alpha, hd] at h
  space_alnum c h := by
    simp only [samplePy, Bool.or_eq_true, decide_eq_true_eq, Bool.or_eq_false_iff] at h ⊢
    refine ⟨⟨?_, ?_⟩, ?_⟩
    · by_contra hd
      have := char_classes c (by simpa using hd)
      omega
    · simp only [latin1Alpha, Bool.or_eq_false_iff, decide_eq_false_iff_not, Bool.and_eq_false_iff]
      refine ⟨⟨⟨?_, ?_⟩, ?_⟩, .inl (.inl ?_)⟩ <;> omega
    · simp only [latin1Digit, Bool.or_eq_false_iff, decide_eq_false_iff_not]
      refine ⟨⟨?_, ?_⟩, ?_⟩ <;> omega
  int w hne hd hl := by
    simp only [samplePy, pyInt, hl, ↓reduceIte]
    unfold parseDigits
    split
    · exact absurd rfl hne
    · exact (foldlM_digits _ _ _).mpr ⟨hd, rfl⟩
  real a b _ ha _ hb := by
    have : (a ++ '.' :: b).all (fun c => c.isDigit || c == '.') = true := by
      simp only [List.all_append, List.all_cons, Bool.and_eq_true, List.all_eq_true]
      exact ⟨fun c hc => by simp [ha c hc], by simp, fun c hc => by simp [hb c hc]⟩
    simp only [samplePy, this, ↓reduceIte, Option.isSome_some]

end Amanda

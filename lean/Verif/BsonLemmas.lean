import Verif.Bson
import Verif.ExceptLemmas

/-! Helper lemmas for `Props/Image.lean`. -/

namespace Amanda.Bson

theorem leBytes_length (k n : Nat) : (leBytes k n).length = k := by
  induction k generalizing n with
  | zero => rfl
  | succ k ih => simp [leBytes, ih]

theorem leNat_leBytes (k n : Nat) : leNat (leBytes k n) = n % 256 ^ k := by
  induction k generalizing n with
  | zero => simp [leBytes, leNat, Nat.mod_one]
  | succ k ih =>
    simp only [leBytes, leNat, ih, UInt8.toNat_ofNat']
    rw [Nat.pow_succ 256 k, Nat.mul_comm (256 ^ k) 256, Nat.mod_mul]

theorem readBytes_append (a r : Bytes) : readBytes a.length (a ++ r) = .ok (a, r) := by
  simp [readBytes]

theorem readBytes_append' {n : Nat} (a r : Bytes) (h : a.length = n) :
    readBytes n (a ++ r) = .ok (a, r) := by
  subst h; exact readBytes_append a r

theorem readBytes_ok {n : Nat} {bs a r : Bytes} (h : readBytes n bs = .ok (a, r)) :
    bs = a ++ r ∧ a.length = n := by
  unfold readBytes at h
  split at h
  · cases h; simp; omega
  · cases h

theorem toArray_flatMap_utf8 (l : List Char) :
    (⟨(l.flatMap String.utf8EncodeChar).toArray⟩ : ByteArray) = l.utf8Encode := by
  rw [List.utf8Encode]
  apply ByteArray.ext
  simp

theorem decodeStr_encodeStr (s : String) : decodeStr (encodeStr s) = .ok s := by
  have h : (⟨(encodeStr s).toArray⟩ : ByteArray) = s.toByteArray := by
    rw [encodeStr, toArray_flatMap_utf8, String.utf8Encode_toList]
  unfold decodeStr
  rw [h]
  have : String.fromUTF8? s.toByteArray = some s := by
    unfold String.fromUTF8?
    rw [dif_pos s.isValidUTF8]
    rfl
  rw [this]

theorem encodeStr_length (s : String) : (encodeStr s).length = s.utf8ByteSize := by
  have h : (⟨(encodeStr s).toArray⟩ : ByteArray) = s.toByteArray := by
    rw [encodeStr, toArray_flatMap_utf8, String.utf8Encode_toList]
  rw [← String.size_toByteArray, ← h]
  simp [ByteArray.size]

/-- Characters whose UTF-8 form is one nonzero byte. -/
def AsciiChar (c : Char) : Prop := 0 < c.toNat ∧ c.toNat < 128

theorem utf8EncodeChar_ascii {c : Char} (h : AsciiChar c) :
    String.utf8EncodeChar c = [UInt8.ofNat c.toNat] := by
  have h2 : c.val.toNat ≤ 127 := Nat.le_of_lt_succ h.2
  unfold String.utf8EncodeChar
  simp only [h2, if_true]
  rfl

theorem readKeyChars_ascii (l : List Char) (h : ∀ c ∈ l, AsciiChar c) (r : Bytes) :
    readKeyChars (l.flatMap String.utf8EncodeChar ++ 0 :: r) = .ok (l, r) := by
  induction l with
  | nil => simp [readKeyChars]
  | cons c l ih =>
    have hc : AsciiChar c := h c (by simp)
    have ih' := ih (fun c hc => h c (by simp [hc]))
    simp only [List.flatMap_cons, utf8EncodeChar_ascii hc, List.cons_append, List.nil_append]
    unfold readKeyChars
    have h1 := hc.1
    have h2 := hc.2
    have hne : UInt8.ofNat c.toNat ≠ 0 := by
      intro he
      have := congrArg UInt8.toNat he
      rw [UInt8.toNat_ofNat'] at this
      simp at this
      omega
    have hto : (UInt8.ofNat c.toNat).toNat = c.toNat := by
      rw [UInt8.toNat_ofNat']; omega
    rw [if_neg hne, hto, ih', except_bind_ok]
    simp

theorem readKey_ascii (k : String) (h : ∀ c ∈ k.toList, AsciiChar c) (r : Bytes) :
    readKey (encodeStr k ++ [0] ++ r) = .ok (k, r) := by
  have : encodeStr k ++ [0] ++ r = k.toList.flatMap String.utf8EncodeChar ++ 0 :: r := by
    simp [encodeStr]
  rw [this, readKey, readKeyChars_ascii _ h]
  simp

end Amanda.Bson

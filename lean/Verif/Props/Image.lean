import Verif.BsonLemmas

/-!
# C01, C02, C03: module images

Specification: `WellKeyed` (distinct, ASCII, NUL-free keys, recursively) and
`Fits` with the independent size computation `payloadSize`.
-/

namespace Amanda.Bson

/-- Keys the image format can carry: ASCII without NUL. -/
def KeyOk (k : String) : Prop := ∀ c ∈ k.toList, AsciiChar c

mutual
/-- Every dictionary in the value has distinct `KeyOk` keys, and no value of an
unsupported type occurs. -/
def WellKeyed : Bson → Prop
  | .doc fields => WellKeyedFields fields
  | .arr items => WellKeyedItems items
  | _ => True
def WellKeyedFields : List (String × Bson) → Prop
  | [] => True
  | (k, v) :: rest =>
      KeyOk k ∧ (∀ kv ∈ rest, kv.1 ≠ k) ∧ WellKeyed v ∧ WellKeyedFields rest
def WellKeyedItems : List Bson → Prop
  | [] => True
  | v :: rest => WellKeyed v ∧ WellKeyedItems rest
end

/-! ## Round trip -/

theorem mapInsert_fresh (m : List (String × Bson)) (k : String) (v : Bson)
    (h : ∀ kv ∈ m, kv.1 ≠ k) : mapInsert m k v = m ++ [(k, v)] := by
  induction m with
  | nil => rfl
  | cons kv m ih =>
    obtain ⟨k', v'⟩ := kv
    have hne : k' ≠ k := h (k', v') (by simp)
    simp only [mapInsert, if_neg hne, List.cons_append]
    rw [ih (fun kv hkv => h kv (by simp [hkv]))]

theorem indexKey_ok (i : Nat) : KeyOk (indexKey i) := by
  intro c hc
  have hc' : c ∈ Nat.toDigits 10 i := by simpa [indexKey] using hc
  have hd : c.isDigit = true := Nat.isDigit_of_mem_toDigits (by omega) (by omega) hc'
  simp only [Char.isDigit, Bool.and_eq_true, decide_eq_true_eq] at hd
  have h1 : 48 ≤ c.val.toNat := UInt32.le_iff_toNat_le.mp hd.1
  have h2 : c.val.toNat ≤ 57 := UInt32.le_iff_toNat_le.mp hd.2
  exact ⟨Nat.lt_of_lt_of_le (by omega) h1, Nat.lt_of_le_of_lt h2 (by omega)⟩

theorem readSize_append {n : Nat} (hn : n < 2 ^ 31) (r : Bytes) :
    readSize (leBytes 4 n ++ r) = .ok (n, r) := by
  unfold readSize
  rw [readBytes_append' _ _ (leBytes_length 4 n), except_bind_ok]
  have : leNat (leBytes 4 n) = n := by
    rw [leNat_leBytes]; exact Nat.mod_eq_of_lt (by omega)
  simp only [this, hn, if_true]

theorem toSigned64_pack {n : Int} (h : -(2 ^ 63) ≤ n ∧ n < 2 ^ 63) :
    toSigned64 (leNat (leBytes 8 (n % 2 ^ 64).toNat)) = n := by
  rw [leNat_leBytes]
  have h0 : (0 : Int) ≤ n % 2 ^ 64 := Int.emod_nonneg _ (by omega)
  have h1 : n % 2 ^ 64 < 2 ^ 64 := Int.emod_lt_of_pos _ (by omega)
  have hm : (n % 2 ^ 64).toNat % 256 ^ 8 = (n % 2 ^ 64).toNat := Nat.mod_eq_of_lt (by omega)
  rw [hm]
  unfold toSigned64
  split <;> omega

theorem int32Len_ok {n : Nat} {b : Bytes} (h : int32Len n = .ok b) : n < 2 ^ 31 ∧ b = leBytes 4 n := by
  unfold int32Len at h
  split at h
  · cases h
  · cases h; exact ⟨by omega, rfl⟩

theorem packInt32_ok {n : Nat} {b : Bytes} (h : packInt32 n = .ok b) : n < 2 ^ 31 ∧ b = leBytes 4 n := by
  unfold packInt32 at h
  split at h
  · cases h
  · cases h; exact ⟨by omega, rfl⟩

theorem wrapDoc_ok {e d : Bytes} (h : wrapDoc e = .ok d) :
    e.length < 2 ^ 31 ∧ d = leBytes 4 e.length ++ e ++ [0] := by
  unfold wrapDoc at h
  obtain ⟨l, hl, h⟩ := except_bind_eq_ok.mp h
  obtain ⟨h1, rfl⟩ := int32Len_ok hl
  cases h; exact ⟨h1, rfl⟩

theorem dumpValue_type_ne_zero {v : Bson} {t : UInt8} {p : Bytes}
    (h : dumpValue v = .ok (t, p)) : t ≠ 0 := by
  cases v <;> simp only [dumpValue, except_bind_eq_ok, Except.ok.injEq, Prod.mk.injEq] at h
  case dbl => rw [← h.1]; decide
  case str => obtain ⟨_, _, h, _⟩ := h; rw [← h]; decide
  case doc => obtain ⟨_, _, _, _, h, _⟩ := h; rw [← h]; decide
  case arr => obtain ⟨_, _, _, _, h, _⟩ := h; rw [← h]; decide
  case bin => obtain ⟨_, _, h, _⟩ := h; rw [← h]; decide
  case int => obtain ⟨_, _, h, _⟩ := h; rw [← h]; decide
  case other => cases h

mutual
theorem unpackValue_dump (v : Bson) (hw : WellKeyed v) (t : UInt8) (p : Bytes)
    (h : dumpValue v = .ok (t, p)) (rest : Bytes) (fuel : Nat) (hf : p.length < fuel) :
    unpackValue fuel t (p ++ rest) = .ok (v, rest) := by
  obtain ⟨fuel, rfl⟩ : ∃ f, fuel = f + 1 := ⟨fuel - 1, by omega⟩
  cases v with
  | dbl bits =>
    simp only [dumpValue, Except.ok.injEq, Prod.mk.injEq] at h
    obtain ⟨rfl, rfl⟩ := h
    unfold unpackValue
    simp only [if_true]
    rw [readBytes_append' _ _ (leBytes_length 8 _), except_bind_ok]
    have : leNat (leBytes 8 bits.toNat) = bits.toNat := by
      rw [leNat_leBytes]; exact Nat.mod_eq_of_lt (by have := bits.toNat_lt; omega)
    simp [this]
  | str s =>
    simp only [dumpValue, except_bind_eq_ok, Except.ok.injEq, Prod.mk.injEq] at h
    obtain ⟨l, hl, rfl, rfl⟩ := h
    obtain ⟨hlt, rfl⟩ := int32Len_ok hl
    unfold unpackValue
    rw [if_neg (by decide), if_pos rfl]
    simp only [List.append_assoc]
    rw [readSize_append hlt, except_bind_ok]
    simp only
    rw [readBytes_append, except_bind_ok]
    simp only
    rw [readBytes_append' (n := 1) [0] rest rfl, except_bind_ok]
    simp only
    rw [decodeStr_encodeStr, except_bind_ok]
  | doc fields =>
    simp only [dumpValue, except_bind_eq_ok, Except.ok.injEq, Prod.mk.injEq] at h
    obtain ⟨body, hb, d, hd, rfl, rfl⟩ := h
    obtain ⟨hlt, rfl⟩ := wrapDoc_ok hd
    unfold unpackValue
    rw [if_neg (by decide), if_neg (by decide), if_pos rfl]
    simp only [List.append_assoc]
    rw [readBytes_append' _ _ (leBytes_length 4 _), except_bind_ok]
    simp only
    have hw' : WellKeyedFields fields := by simpa only [WellKeyed] using hw
    rw [unpackNested_dump fields hw' body hb rest fuel (by simp [leBytes_length] at hf; omega) []
      (by simp), except_bind_ok]
    simp
  | arr items =>
    simp only [dumpValue, except_bind_eq_ok, Except.ok.injEq, Prod.mk.injEq] at h
    obtain ⟨body, hb, d, hd, rfl, rfl⟩ := h
    obtain ⟨hlt, rfl⟩ := wrapDoc_ok hd
    unfold unpackValue
    rw [if_neg (by decide), if_neg (by decide), if_neg (by decide), if_pos rfl]
    simp only [List.append_assoc]
    rw [readBytes_append' _ _ (leBytes_length 4 _), except_bind_ok]
    simp only
    have hw' : WellKeyedItems items := by simpa only [WellKeyed] using hw
    rw [unpackArray_dump items hw' 0 body hb rest fuel (by simp [leBytes_length] at hf; omega) [],
      except_bind_ok]
    simp
  | bin b =>
    simp only [dumpValue, except_bind_eq_ok, Except.ok.injEq, Prod.mk.injEq] at h
    obtain ⟨l, hl, rfl, rfl⟩ := h
    obtain ⟨hlt, rfl⟩ := packInt32_ok hl
    unfold unpackValue
    rw [if_neg (by decide), if_neg (by decide), if_neg (by decide), if_neg (by decide), if_pos rfl]
    simp only [List.append_assoc]
    rw [readSize_append hlt, except_bind_ok]
    simp only
    rw [readBytes_append' (n := 1) [0x80] _ rfl, except_bind_ok]
    simp only
    rw [readBytes_append, except_bind_ok]
  | int n =>
    simp only [dumpValue, except_bind_eq_ok, Except.ok.injEq, Prod.mk.injEq] at h
    obtain ⟨q, hq, rfl, rfl⟩ := h
    unfold packInt64 at hq
    split at hq
    case isFalse => cases hq
    case isTrue hr =>
      cases hq
      unfold unpackValue
      rw [if_neg (by decide), if_neg (by decide), if_neg (by decide), if_neg (by decide),
        if_neg (by decide), if_pos rfl]
      rw [readBytes_append' _ _ (leBytes_length 8 _), except_bind_ok]
      simp only [toSigned64_pack hr]
  | other => simp [dumpValue] at h

theorem unpackNested_dump (fields : List (String × Bson)) (hw : WellKeyedFields fields)
    (body : Bytes) (h : dumpFields fields = .ok body) (rest : Bytes) (fuel : Nat)
    (hf : body.length < fuel) (acc : List (String × Bson))
    (hacc : ∀ kv ∈ acc, ∀ kv' ∈ fields, kv.1 ≠ kv'.1) :
    unpackNested fuel acc (body ++ ([0] ++ rest)) = .ok (acc ++ fields, rest) := by
  obtain ⟨fuel, rfl⟩ : ∃ f, fuel = f + 1 := ⟨fuel - 1, by omega⟩
  cases fields with
  | nil =>
    simp only [dumpFields, Except.ok.injEq] at h
    subst h
    unfold unpackNested
    rw [List.nil_append, readBytes_append' (n := 1) [0] rest rfl, except_bind_ok]
    simp
  | cons kv fields =>
    obtain ⟨k, v⟩ := kv
    simp only [dumpFields, except_bind_eq_ok, Except.ok.injEq, Prod.exists] at h
    obtain ⟨t, p, hv, r, hr, rfl⟩ := h
    simp only [WellKeyedFields] at hw
    obtain ⟨hk, hfresh, hwv, hwf⟩ := hw
    have ht := dumpValue_type_ne_zero hv
    unfold unpackNested
    have hsplit : (t :: (encodeStr k ++ [0] ++ p) ++ r) ++ ([0] ++ rest) =
        [t] ++ (encodeStr k ++ [0] ++ (p ++ (r ++ ([0] ++ rest)))) := by simp
    rw [hsplit, readBytes_append' (n := 1) [t] _ rfl, except_bind_ok]
    simp only [if_neg ht]
    rw [readKey_ascii k hk, except_bind_ok]
    simp only
    have hlen : p.length + r.length + 2 ≤ (t :: (encodeStr k ++ [0] ++ p) ++ r).length := by
      simp only [List.length_append, List.length_cons, List.length_nil]; omega
    rw [unpackValue_dump v hwv t p hv _ fuel (by omega), except_bind_ok]
    simp only
    rw [mapInsert_fresh acc k v (fun kv hkv => hacc kv hkv (k, v) (by simp))]
    rw [unpackNested_dump fields hwf r hr rest fuel (by omega) (acc ++ [(k, v)]) ?_]
    · simp
    · intro kv hkv kv' hkv'
      rcases List.mem_append.mp hkv with hm | hm
      · exact hacc kv hm kv' (by simp [hkv'])
      · simp only [List.mem_singleton] at hm
        subst hm
        exact fun he => hfresh kv' hkv' he.symm

theorem unpackArray_dump (items : List Bson) (hw : WellKeyedItems items) (i : Nat)
    (body : Bytes) (h : dumpItems i items = .ok body) (rest : Bytes) (fuel : Nat)
    (hf : body.length < fuel) (acc : List Bson) :
    unpackArray fuel acc (body ++ ([0] ++ rest)) = .ok (acc ++ items, rest) := by
  obtain ⟨fuel, rfl⟩ : ∃ f, fuel = f + 1 := ⟨fuel - 1, by omega⟩
  cases items with
  | nil =>
    simp only [dumpItems, Except.ok.injEq] at h
    subst h
    unfold unpackArray
    rw [List.nil_append, readBytes_append' (n := 1) [0] rest rfl, except_bind_ok]
    simp
  | cons v items =>
    simp only [dumpItems, except_bind_eq_ok, Except.ok.injEq, Prod.exists] at h
    obtain ⟨t, p, hv, r, hr, rfl⟩ := h
    simp only [WellKeyedItems] at hw
    have ht := dumpValue_type_ne_zero hv
    unfold unpackArray
    have hsplit : (t :: (encodeStr (indexKey i) ++ [0] ++ p) ++ r) ++ ([0] ++ rest) =
        [t] ++ (encodeStr (indexKey i) ++ [0] ++ (p ++ (r ++ ([0] ++ rest)))) := by simp
    rw [hsplit, readBytes_append' (n := 1) [t] _ rfl, except_bind_ok]
    simp only [if_neg ht]
    rw [readKey_ascii _ (indexKey_ok i), except_bind_ok]
    simp only
    have hlen : p.length + r.length + 2 ≤
        (t :: (encodeStr (indexKey i) ++ [0] ++ p) ++ r).length := by
      simp only [List.length_append, List.length_cons, List.length_nil]; omega
    rw [unpackValue_dump v hw.1 t p hv _ fuel (by omega), except_bind_ok]
    simp only
    rw [unpackArray_dump items hw.2 (i + 1) r hr rest fuel (by omega) (acc ++ [v])]
    simp
end

theorem unpackDoc_dump (fields : List (String × Bson)) (hw : WellKeyedFields fields)
    (body : Bytes) (h : dumpFields fields = .ok body) (rest : Bytes) (fuel : Nat)
    (hf : body.length < fuel) (acc : List (String × Bson))
    (hacc : ∀ kv ∈ acc, ∀ kv' ∈ fields, kv.1 ≠ kv'.1) :
    unpackDoc fuel acc (body ++ ([0] ++ rest)) = .ok (acc ++ fields) := by
  induction fields generalizing body fuel acc with
  | nil =>
    obtain ⟨fuel, rfl⟩ : ∃ f, fuel = f + 1 := ⟨fuel - 1, by omega⟩
    simp only [dumpFields, Except.ok.injEq] at h
    subst h
    simp [unpackDoc]
  | cons kv fields ih =>
    obtain ⟨fuel, rfl⟩ : ∃ f, fuel = f + 1 := ⟨fuel - 1, by omega⟩
    obtain ⟨k, v⟩ := kv
    simp only [dumpFields, except_bind_eq_ok, Except.ok.injEq, Prod.exists] at h
    obtain ⟨t, p, hv, r, hr, rfl⟩ := h
    simp only [WellKeyedFields] at hw
    obtain ⟨hk, hfresh, hwv, hwf⟩ := hw
    have ht := dumpValue_type_ne_zero hv
    have hsplit : (t :: (encodeStr k ++ [0] ++ p) ++ r) ++ ([0] ++ rest) =
        t :: (encodeStr k ++ [0] ++ (p ++ (r ++ ([0] ++ rest)))) := by simp
    have hlen : p.length + r.length + 2 ≤ (t :: (encodeStr k ++ [0] ++ p) ++ r).length := by
      simp only [List.length_append, List.length_cons, List.length_nil]; omega
    rw [hsplit]
    unfold unpackDoc
    rw [if_neg ht, readKey_ascii k hk, except_bind_ok]
    simp only
    rw [unpackValue_dump v hwv t p hv _ fuel (by omega), except_bind_ok]
    simp only
    rw [mapInsert_fresh acc k v (fun kv hkv => hacc kv hkv (k, v) (by simp))]
    rw [ih hwf r hr fuel (by omega) (acc ++ [(k, v)]) ?_]
    · simp
    · intro kv hkv kv' hkv'
      rcases List.mem_append.mp hkv with hm | hm
      · exact hacc kv hm kv' (by simp [hkv'])
      · simp only [List.mem_singleton] at hm
        subst hm
        exact fun he => hfresh kv' hkv' he.symm

/-- **C01.** Whatever the serialiser writes, the loader reads back: same keys, same
values, same order, at any nesting depth. -/
theorem image_round_trip (data : List (String × Bson)) (hw : WellKeyedFields data)
    (image : Bytes) (h : dumps data = .ok image) : loadImage image = .ok data := by
  unfold dumps at h
  obtain ⟨body, hb, h⟩ := except_bind_eq_ok.mp h
  obtain ⟨_, rfl⟩ := wrapDoc_ok h
  unfold loadImage
  have hl : (leBytes 4 body.length).length = 4 := leBytes_length 4 _
  rw [if_neg (by simp [hl])]
  have : (leBytes 4 body.length ++ body ++ [0]).drop 4 = body ++ ([0] ++ []) := by
    rw [List.append_assoc, List.drop_append_of_le_length (by omega),
      List.drop_of_length_le (by omega)]
    simp
  rw [this, unpackDoc_dump data hw body hb [] _ (by simp; omega) [] (by simp)]
  simp

/-- A module image in miniature: nested documents, lists, text with non-ASCII
characters, bytes, negative integers. -/
def sampleDoc : List (String × Bson) :=
  [("name", .str "olá"), ("ops", .bin [0, 255, 128]), ("entry_locals", .int (-3)),
   ("functions", .arr [.doc [("start_ip", .int 9), ("name", .str "")], .arr []])]

example : WellKeyedFields sampleDoc := by
  simp [sampleDoc, WellKeyedFields, WellKeyed, WellKeyedItems, KeyOk, AsciiChar]
example : ∃ image, dumps sampleDoc = .ok image ∧ 60 < image.length := by
  refine ⟨_, rfl, ?_⟩; decide

/-- **C03.** Reading a serialised value consumes exactly the bytes written for it,
whatever follows. -/
theorem value_self_delimiting (v : Bson) (hw : WellKeyed v) (t : UInt8) (p : Bytes)
    (h : dumpValue v = .ok (t, p)) (rest : Bytes) (fuel : Nat) (hf : p.length < fuel) :
    unpackValue fuel t (p ++ rest) = .ok (v, rest) :=
  unpackValue_dump v hw t p h rest fuel hf

example : WellKeyed (.arr [.str "a", .int 7]) := by simp [WellKeyed, WellKeyedItems]
example : ∃ tp, dumpValue (.arr [.str "a", .int 7]) = .ok tp := ⟨_, rfl⟩

/-! ## The recursion fuel of the reader model is never exhausted -/

theorem readKeyChars_len {bs r : Bytes} {k : List Char} (h : readKeyChars bs = .ok (k, r)) :
    r.length < bs.length := by
  induction bs generalizing k r with
  | nil => simp [readKeyChars] at h
  | cons b bs ih =>
    unfold readKeyChars at h
    split at h
    · cases h; simp
    · simp only [except_bind_eq_ok, Except.ok.injEq, Prod.mk.injEq, Prod.exists] at h
      obtain ⟨_, _, h1, _, rfl⟩ := h
      have := ih h1
      simp; omega

theorem readKey_len {bs r : Bytes} {k : String} (h : readKey bs = .ok (k, r)) :
    r.length < bs.length := by
  unfold readKey at h
  simp only [except_bind_eq_ok, Except.ok.injEq, Prod.mk.injEq, Prod.exists] at h
  obtain ⟨_, _, h1, _, rfl⟩ := h
  exact readKeyChars_len h1

theorem readBytes_len {n : Nat} {bs a r : Bytes} (h : readBytes n bs = .ok (a, r)) :
    r.length + n = bs.length := by
  obtain ⟨rfl, rfl⟩ := readBytes_ok h; simp; omega

theorem readSize_len {n : Nat} {bs r : Bytes} (h : readSize bs = .ok (n, r)) :
    r.length + 4 = bs.length := by
  unfold readSize at h
  simp only [except_bind_eq_ok, Prod.exists] at h
  obtain ⟨_, _, h1, h2⟩ := h
  split at h2
  · cases h2; exact readBytes_len h1
  · cases h2

theorem readBytes_no_fuel {n : Nat} {bs : Bytes} : readBytes n bs ≠ .error .fuel := by
  unfold readBytes; split <;> simp

theorem readSize_no_fuel {bs : Bytes} : readSize bs ≠ .error .fuel := by
  unfold readSize
  intro h
  rcases except_bind_eq_error.mp h with h | ⟨⟨a, r⟩, _, h⟩
  · exact readBytes_no_fuel h
  · simp only at h; split at h <;> cases h

theorem readKeyChars_no_fuel {bs : Bytes} : readKeyChars bs ≠ .error .fuel := by
  induction bs with
  | nil => simp [readKeyChars]
  | cons b bs ih =>
    unfold readKeyChars
    split
    · simp
    · intro h
      rcases except_bind_eq_error.mp h with h | ⟨⟨a, r⟩, _, h⟩
      · exact ih h
      · cases h

theorem readKey_no_fuel {bs : Bytes} : readKey bs ≠ .error .fuel := by
  unfold readKey
  intro h
  rcases except_bind_eq_error.mp h with h | ⟨⟨a, r⟩, _, h⟩
  · exact readKeyChars_no_fuel h
  · cases h

theorem decodeStr_no_fuel {bs : Bytes} : decodeStr bs ≠ .error .fuel := by
  unfold decodeStr; split <;> simp

theorem unpack_fuel (fuel : Nat) :
    (∀ t bs, bs.length < fuel → unpackValue fuel t bs ≠ .error .fuel ∧
      ∀ v r, unpackValue fuel t bs = .ok (v, r) → r.length ≤ bs.length) ∧
    (∀ acc bs, bs.length < fuel → unpackNested fuel acc bs ≠ .error .fuel ∧
      ∀ v r, unpackNested fuel acc bs = .ok (v, r) → r.length ≤ bs.length) ∧
    (∀ acc bs, bs.length < fuel → unpackArray fuel acc bs ≠ .error .fuel ∧
      ∀ v r, unpackArray fuel acc bs = .ok (v, r) → r.length ≤ bs.length) := by
  induction fuel with
  | zero => simp
  | succ fuel ih =>
    obtain ⟨ihV, ihN, ihA⟩ := ih
    refine ⟨?_, ?_, ?_⟩
    · intro t bs hlt
      unfold unpackValue
      split
      · constructor
        · intro h
          rcases except_bind_eq_error.mp h with h | ⟨⟨a, r⟩, _, h⟩
          · exact readBytes_no_fuel h
          · cases h
        · intro v r h
          simp only [except_bind_eq_ok, Except.ok.injEq, Prod.mk.injEq, Prod.exists] at h
          obtain ⟨_, _, h1, _, rfl⟩ := h
          have := readBytes_len h1; omega
      split
      · constructor
        · intro h
          rcases except_bind_eq_error.mp h with h | ⟨⟨a, r⟩, _, h⟩
          · exact readSize_no_fuel h
          rcases except_bind_eq_error.mp h with h | ⟨⟨a, r⟩, _, h⟩
          · exact readBytes_no_fuel h
          rcases except_bind_eq_error.mp h with h | ⟨⟨a, r⟩, _, h⟩
          · exact readBytes_no_fuel h
          rcases except_bind_eq_error.mp h with h | ⟨a, _, h⟩
          · exact decodeStr_no_fuel h
          · cases h
        · intro v r h
          simp only [except_bind_eq_ok, Except.ok.injEq, Prod.mk.injEq, Prod.exists] at h
          obtain ⟨_, _, h1, _, _, h2, _, _, h3, _, _, _, rfl⟩ := h
          have := readSize_len h1; have := readBytes_len h2; have := readBytes_len h3; omega
      split
      · constructor
        · intro h
          rcases except_bind_eq_error.mp h with h | ⟨⟨a, r⟩, h1, h⟩
          · exact readBytes_no_fuel h
          have := readBytes_len h1
          rcases except_bind_eq_error.mp h with h | ⟨⟨a, r⟩, _, h⟩
          · exact (ihN _ _ (by omega)).1 h
          · cases h
        · intro v r h
          simp only [except_bind_eq_ok, Except.ok.injEq, Prod.mk.injEq, Prod.exists] at h
          obtain ⟨_, _, h1, _, _, h2, _, rfl⟩ := h
          have := readBytes_len h1
          have := (ihN _ _ (by omega)).2 _ _ h2; omega
      split
      · constructor
        · intro h
          rcases except_bind_eq_error.mp h with h | ⟨⟨a, r⟩, h1, h⟩
          · exact readBytes_no_fuel h
          have := readBytes_len h1
          rcases except_bind_eq_error.mp h with h | ⟨⟨a, r⟩, _, h⟩
          · exact (ihA _ _ (by omega)).1 h
          · cases h
        · intro v r h
          simp only [except_bind_eq_ok, Except.ok.injEq, Prod.mk.injEq, Prod.exists] at h
          obtain ⟨_, _, h1, _, _, h2, _, rfl⟩ := h
          have := readBytes_len h1
          have := (ihA _ _ (by omega)).2 _ _ h2; omega
      split
      · constructor
        · intro h
          rcases except_bind_eq_error.mp h with h | ⟨⟨a, r⟩, _, h⟩
          · exact readSize_no_fuel h
          rcases except_bind_eq_error.mp h with h | ⟨⟨a, r⟩, _, h⟩
          · exact readBytes_no_fuel h
          rcases except_bind_eq_error.mp h with h | ⟨⟨a, r⟩, _, h⟩
          · exact readBytes_no_fuel h
          · cases h
        · intro v r h
          simp only [except_bind_eq_ok, Except.ok.injEq, Prod.mk.injEq, Prod.exists] at h
          obtain ⟨_, _, h1, _, _, h2, _, _, h3, _, rfl⟩ := h
          have := readSize_len h1; have := readBytes_len h2; have := readBytes_len h3; omega
      split
      · constructor
        · intro h
          rcases except_bind_eq_error.mp h with h | ⟨⟨a, r⟩, _, h⟩
          · exact readBytes_no_fuel h
          · cases h
        · intro v r h
          simp only [except_bind_eq_ok, Except.ok.injEq, Prod.mk.injEq, Prod.exists] at h
          obtain ⟨_, _, h1, _, rfl⟩ := h
          have := readBytes_len h1; omega
      · simp
    · intro acc bs hlt
      unfold unpackNested
      constructor
      · intro h
        rcases except_bind_eq_error.mp h with h | ⟨⟨a, r⟩, h1, h⟩
        · exact readBytes_no_fuel h
        have := readBytes_len h1
        simp only at h
        split at h
        · split at h
          · cases h
          · rcases except_bind_eq_error.mp h with h | ⟨⟨a, r⟩, h2, h⟩
            · exact readKey_no_fuel h
            have := readKey_len h2
            rcases except_bind_eq_error.mp h with h | ⟨⟨a, r⟩, h3, h⟩
            · exact (ihV _ _ (by dsimp only; omega)).1 h
            have := (ihV _ _ (by dsimp only; omega)).2 _ _ h3
            exact (ihN _ _ (by dsimp only at *; omega)).1 h
        · cases h
      · intro v r h
        simp only [except_bind_eq_ok, Prod.exists] at h
        obtain ⟨a, r1, h1, h⟩ := h
        have := readBytes_len h1
        split at h
        · split at h
          · cases h; omega
          · simp only [except_bind_eq_ok, Prod.exists] at h
            obtain ⟨_, _, h2, _, _, h3, h⟩ := h
            have := readKey_len h2
            have := (ihV _ _ (by omega)).2 _ _ h3
            have := (ihN _ _ (by omega)).2 _ _ h
            omega
        · cases h
    · intro acc bs hlt
      unfold unpackArray
      constructor
      · intro h
        rcases except_bind_eq_error.mp h with h | ⟨⟨a, r⟩, h1, h⟩
        · exact readBytes_no_fuel h
        have := readBytes_len h1
        simp only at h
        split at h
        · split at h
          · cases h
          · rcases except_bind_eq_error.mp h with h | ⟨⟨a, r⟩, h2, h⟩
            · exact readKey_no_fuel h
            have := readKey_len h2
            rcases except_bind_eq_error.mp h with h | ⟨⟨a, r⟩, h3, h⟩
            · exact (ihV _ _ (by dsimp only; omega)).1 h
            have := (ihV _ _ (by dsimp only; omega)).2 _ _ h3
            exact (ihA _ _ (by dsimp only at *; omega)).1 h
        · cases h
      · intro v r h
        simp only [except_bind_eq_ok, Prod.exists] at h
        obtain ⟨a, r1, h1, h⟩ := h
        have := readBytes_len h1
        split at h
        · split at h
          · cases h; omega
          · simp only [except_bind_eq_ok, Prod.exists] at h
            obtain ⟨_, _, h2, _, _, h3, h⟩ := h
            have := readKey_len h2
            have := (ihV _ _ (by omega)).2 _ _ h3
            have := (ihA _ _ (by omega)).2 _ _ h
            omega
        · cases h

/-- Loading terminates on every byte string whatsoever: the model's recursion fuel
is never the reason for failure, so `panic` and a document are the only outcomes. -/
theorem load_terminates (image : Bytes) : loadImage image ≠ .error .fuel := by
  unfold loadImage
  split
  · simp
  · have : ∀ fuel acc bs, bs.length < fuel → unpackDoc fuel acc bs ≠ .error .fuel := by
      intro fuel
      induction fuel with
      | zero => simp
      | succ fuel ih =>
        intro acc bs hlt
        cases bs with
        | nil => simp [unpackDoc]
        | cons t r =>
          unfold unpackDoc
          split
          · simp
          · intro h
            simp only [List.length_cons] at hlt
            rcases except_bind_eq_error.mp h with h | ⟨⟨a, r'⟩, h2, h⟩
            · exact readKey_no_fuel h
            have := readKey_len h2
            rcases except_bind_eq_error.mp h with h | ⟨⟨a, r''⟩, h3, h⟩
            · exact ((unpack_fuel fuel).1 _ _ (by omega)).1 h
            have := ((unpack_fuel fuel).1 _ _ (by omega)).2 _ _ h3
            exact ih _ _ (by omega) h
    exact this _ _ _ (by simp; omega)

/-! ## C02: what the serialiser accepts -/

mutual
/-- Number of bytes a value occupies in an image, computed without serialising. -/
def payloadSize : Bson → Nat
  | .dbl _ => 8
  | .str s => s.utf8ByteSize + 5
  | .doc fields => fieldsSize fields + 5
  | .arr items => itemsSize 0 items + 5
  | .bin b => b.length + 5
  | .int _ => 8
  | .other => 0
def fieldsSize : List (String × Bson) → Nat
  | [] => 0
  | (k, v) :: rest => (k.utf8ByteSize + 2 + payloadSize v) + fieldsSize rest
def itemsSize : Nat → List Bson → Nat
  | _, [] => 0
  | i, v :: rest => ((indexKey i).utf8ByteSize + 2 + payloadSize v) + itemsSize (i + 1) rest
end

mutual
/-- The values the image format can represent: integers in the signed 64-bit range;
texts, byte strings and (sub)documents shorter than 2^31 bytes; nothing of an
unsupported type. -/
def Fits : Bson → Prop
  | .dbl _ => True
  | .str s => s.utf8ByteSize < 2 ^ 31
  | .doc fields => FitsFields fields ∧ fieldsSize fields < 2 ^ 31
  | .arr items => FitsItems items ∧ itemsSize 0 items < 2 ^ 31
  | .bin b => b.length < 2 ^ 31
  | .int n => -(2 ^ 63) ≤ n ∧ n < 2 ^ 63
  | .other => False
def FitsFields : List (String × Bson) → Prop
  | [] => True
  | (_, v) :: rest => Fits v ∧ FitsFields rest
def FitsItems : List Bson → Prop
  | [] => True
  | v :: rest => Fits v ∧ FitsItems rest
end

mutual
theorem dumpValue_iff (v : Bson) :
    (Fits v → ∃ t p, dumpValue v = .ok (t, p) ∧ p.length = payloadSize v) ∧
    (∀ t p, dumpValue v = .ok (t, p) → Fits v) := by
  cases v with
  | dbl bits => exact ⟨fun _ => ⟨_, _, rfl, leBytes_length 8 _⟩, fun _ _ _ => trivial⟩
  | str s =>
    simp only [Fits, dumpValue, payloadSize, int32Len, encodeStr_length]
    constructor
    · intro h
      rw [if_neg (by omega)]
      exact ⟨_, _, rfl, by simp [leBytes_length, encodeStr_length]; omega⟩
    · intro t p h
      split at h
      · cases h
      · omega
  | doc fields =>
    have ih := dumpFields_iff fields
    simp only [Fits, dumpValue, payloadSize]
    constructor
    · intro ⟨h1, h2⟩
      obtain ⟨b, hb, hl⟩ := ih.1 h1
      simp only [hb, except_bind_ok, wrapDoc, int32Len, hl]
      rw [if_neg (by omega)]
      exact ⟨_, _, rfl, by simp [leBytes_length, hl]; omega⟩
    · intro t p h
      simp only [except_bind_eq_ok] at h
      obtain ⟨b, hb, d, hd, _⟩ := h
      have hf := ih.2 b hb
      obtain ⟨b', hb', hl⟩ := ih.1 hf
      rw [hb] at hb'; cases hb'
      have := (wrapDoc_ok hd).1
      exact ⟨hf, by omega⟩
  | arr items =>
    have ih := dumpItems_iff 0 items
    simp only [Fits, dumpValue, payloadSize]
    constructor
    · intro ⟨h1, h2⟩
      obtain ⟨b, hb, hl⟩ := ih.1 h1
      simp only [hb, except_bind_ok, wrapDoc, int32Len, hl]
      rw [if_neg (by omega)]
      exact ⟨_, _, rfl, by simp [leBytes_length, hl]; omega⟩
    · intro t p h
      simp only [except_bind_eq_ok] at h
      obtain ⟨b, hb, d, hd, _⟩ := h
      have hf := ih.2 b hb
      obtain ⟨b', hb', hl⟩ := ih.1 hf
      rw [hb] at hb'; cases hb'
      have := (wrapDoc_ok hd).1
      exact ⟨hf, by omega⟩
  | bin b =>
    simp only [Fits, dumpValue, payloadSize, packInt32]
    constructor
    · intro h
      rw [if_neg (by omega)]
      exact ⟨_, _, rfl, by simp [leBytes_length]; omega⟩
    · intro t p h
      split at h
      · cases h
      · omega
  | int n =>
    simp only [Fits, dumpValue, payloadSize, packInt64]
    constructor
    · intro h
      rw [if_pos h]
      exact ⟨_, _, rfl, by simp [leBytes_length]⟩
    · intro t p h
      split at h
      · assumption
      · cases h
  | other => simp [Fits, dumpValue]

theorem dumpFields_iff (fields : List (String × Bson)) :
    (FitsFields fields → ∃ b, dumpFields fields = .ok b ∧ b.length = fieldsSize fields) ∧
    (∀ b, dumpFields fields = .ok b → FitsFields fields) := by
  cases fields with
  | nil => simp [FitsFields, dumpFields, fieldsSize]
  | cons kv rest =>
    obtain ⟨k, v⟩ := kv
    have ihv := dumpValue_iff v
    have ihr := dumpFields_iff rest
    simp only [FitsFields, dumpFields, fieldsSize]
    constructor
    · intro ⟨h1, h2⟩
      obtain ⟨t, p, hp, hl⟩ := ihv.1 h1
      obtain ⟨b, hb, hbl⟩ := ihr.1 h2
      simp only [hp, hb, except_bind_ok]
      exact ⟨_, rfl, by simp [encodeStr_length, hl, hbl]; omega⟩
    · intro b h
      simp only [except_bind_eq_ok, Prod.exists] at h
      obtain ⟨t, p, hp, r, hr, _⟩ := h
      exact ⟨ihv.2 _ _ hp, ihr.2 _ hr⟩

theorem dumpItems_iff (i : Nat) (items : List Bson) :
    (FitsItems items → ∃ b, dumpItems i items = .ok b ∧ b.length = itemsSize i items) ∧
    (∀ b, dumpItems i items = .ok b → FitsItems items) := by
  cases items with
  | nil => simp [FitsItems, dumpItems, itemsSize]
  | cons v rest =>
    have ihv := dumpValue_iff v
    have ihr := dumpItems_iff (i + 1) rest
    simp only [FitsItems, dumpItems, itemsSize]
    constructor
    · intro ⟨h1, h2⟩
      obtain ⟨t, p, hp, hl⟩ := ihv.1 h1
      obtain ⟨b, hb, hbl⟩ := ihr.1 h2
      simp only [hp, hb, except_bind_ok]
      exact ⟨_, rfl, by simp [encodeStr_length, hl, hbl]; omega⟩
    · intro b h
      simp only [except_bind_eq_ok, Prod.exists] at h
      obtain ⟨t, p, hp, r, hr, _⟩ := h
      exact ⟨ihv.2 _ _ hp, ihr.2 _ hr⟩
end

/-- **C02.** The serialiser produces an image exactly for the representable
documents, and that image has exactly the predicted size. -/
theorem dumps_accepts_iff (data : List (String × Bson)) :
    (∃ image, dumps data = .ok image) ↔ Fits (.doc data) := by
  have ih := dumpFields_iff data
  simp only [Fits]
  constructor
  · intro ⟨image, h⟩
    obtain ⟨b, hb, hd⟩ := except_bind_eq_ok.mp h
    have hf := ih.2 b hb
    obtain ⟨b', hb', hl⟩ := ih.1 hf
    rw [hb] at hb'; cases hb'
    have := (wrapDoc_ok hd).1
    exact ⟨hf, by omega⟩
  · intro ⟨h1, h2⟩
    obtain ⟨b, hb, hl⟩ := ih.1 h1
    simp only [dumps, hb, except_bind_ok, wrapDoc, int32Len, hl]
    rw [if_neg (by omega)]
    exact ⟨_, rfl⟩

/-- The size header and total size of an accepted image. -/
theorem dumps_size (data : List (String × Bson)) (image : Bytes) (h : dumps data = .ok image) :
    image.length = fieldsSize data + 5 ∧ leNat (image.take 4) = fieldsSize data := by
  obtain ⟨b, hb, hd⟩ := except_bind_eq_ok.mp h
  obtain ⟨b', hb', hl⟩ := (dumpFields_iff data).1 ((dumpFields_iff data).2 b hb)
  rw [hb] at hb'; cases hb'
  obtain ⟨hlt, rfl⟩ := wrapDoc_ok hd
  constructor
  · simp [leBytes_length, hl]; omega
  · rw [List.append_assoc, List.take_append_of_le_length (by simp [leBytes_length]),
      List.take_of_length_le (by simp [leBytes_length]), leNat_leBytes, hl]
    exact Nat.mod_eq_of_lt (by omega)

example : Fits (.doc sampleDoc) := (dumps_accepts_iff _).mp ⟨_, rfl⟩
example : ¬ Fits (.doc [("x", .arr [.int (2 ^ 63)])]) := by
  simp [Fits, FitsFields, FitsItems]
example : dumps [("x", .arr [.int (2 ^ 63)])] = .error .structError := by rfl
example : dumps [("flag", .other)] = .error .notImplemented := by rfl

/-! ## Limits of C01

Keys outside `KeyOk` do not survive: a non-ASCII key comes back as different text
and a key with a NUL is cut and shifts everything after it.  The generator only
uses fixed ASCII keys, so these are limits of the format, not observed failures. -/

/-- A non-ASCII key is read back as different text. -/
theorem non_ascii_key_is_garbled :
    ∃ image, dumps [("é", .int 1)] = .ok image ∧
      loadImage image = .ok [("Ã©", .int 1)] := ⟨_, rfl, by rfl⟩

end Amanda.Bson

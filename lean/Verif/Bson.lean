/-!
# Module images: `bindump.py` and the reader half of `binload.rs`

Bytes are `UInt8`.  A Python `dict` is an association list in insertion order;
the Rust `HashMap` the reader fills is an association list built by `mapInsert`
(replace an existing key in place, otherwise add at the end).

Floats are carried as their 64-bit pattern, because both sides only move the
eight bytes around (`struct.pack("<d")`, `f64::from_le_bytes`).
-/

namespace Amanda.Bson

abbrev Bytes := List UInt8

/-- Values `dumps` dispatches on with `type(value)` (amanda/compiler/bindump.py:47-93).
`other` stands for any Python value of a type without a branch, such as `bool`. -/
inductive Bson where
  | dbl (bits : UInt64)
  | str (s : String)
  | doc (fields : List (String × Bson))
  | arr (items : List Bson)
  | bin (b : Bytes)
  | int (n : Int)
  | other
  deriving Repr

/-- Python exceptions `dumps` can raise: `OverflowError` (bindump.py:27-29),
`struct.error` from `struct.pack` (bindump.py:7-16), `NotImplementedError`
(bindump.py:93). -/
inductive DumpErr where
  | overflow
  | structError
  | notImplemented
  deriving Repr, DecidableEq

/-- `k` little-endian bytes of `n` (the `<` formats of `struct.pack`,
bindump.py:6-16; `from_le_bytes` on the reading side). -/
def leBytes : Nat → Nat → Bytes
  | 0, _ => []
  | k + 1, n => UInt8.ofNat n :: leBytes k (n / 256)

/-- Unsigned value of little-endian bytes (`from_le_bytes`, binload.rs:112-161). -/
def leNat : Bytes → Nat
  | [] => 0
  | b :: bs => b.toNat + 256 * leNat bs

/-- `str.encode()` (bindump.py:50-63): UTF-8. -/
def encodeStr (s : String) : Bytes := s.toList.flatMap String.utf8EncodeChar

/-- `bson_int32_len` (bindump.py:25-30): four length bytes, or `OverflowError`. -/
def int32Len (n : Nat) : Except DumpErr Bytes :=
  if n ≥ 2 ^ 31 then .error .overflow else .ok (leBytes 4 n)

/-- `into_bson_int32(size)` for the raw bytes branch (bindump.py:85, 6-7):
`struct.pack("<l", n)` raises `struct.error` out of range. -/
def packInt32 (n : Nat) : Except DumpErr Bytes :=
  if n ≥ 2 ^ 31 then .error .structError else .ok (leBytes 4 n)

/-- `into_bson_int64` (bindump.py:10-11): `struct.pack("<q", n)`, two's complement. -/
def packInt64 (n : Int) : Except DumpErr Bytes :=
  if -(2 ^ 63) ≤ n ∧ n < 2 ^ 63 then .ok (leBytes 8 (n % 2 ^ 64).toNat)
  else .error .structError

/-- The decimal array key `str(i)` (bindump.py:72-73). -/
def indexKey (i : Nat) : String := String.ofList (Nat.toDigits 10 i)

/-- Tail of `dumps` (bindump.py:94-100): length header, element list, NUL. -/
def wrapDoc (eList : Bytes) : Except DumpErr Bytes := do
  let len ← int32Len eList.length
  .ok (len ++ eList ++ [0])

mutual
/-- One branch of the loop body of `dumps` (bindump.py:45-93): the type byte and
the payload written after the key. -/
def dumpValue : Bson → Except DumpErr (UInt8 × Bytes)
  | .dbl bits => .ok (0x01, leBytes 8 bits.toNat)
  | .str s => do
      let len ← int32Len (encodeStr s).length
      .ok (0x02, len ++ encodeStr s ++ [0])
  | .doc fields => do
      let body ← dumpFields fields
      let d ← wrapDoc body
      .ok (0x03, d)
  | .arr items => do
      let body ← dumpItems 0 items
      let d ← wrapDoc body
      .ok (0x04, d)
  | .bin b => do
      let len ← packInt32 b.length
      .ok (0x05, len ++ [0x80] ++ b)
  | .int n => do
      let p ← packInt64 n
      .ok (0x12, p)
  | .other => .error .notImplemented
/-- The loop over `data.items()` (bindump.py:44-93). -/
def dumpFields : List (String × Bson) → Except DumpErr Bytes
  | [] => .ok []
  | (k, v) :: rest => do
      let (t, p) ← dumpValue v
      let r ← dumpFields rest
      .ok (t :: (encodeStr k ++ [0] ++ p) ++ r)
/-- The same loop over the dict `{"0": .., "1": ..}` a list is turned into
(bindump.py:70-80). -/
def dumpItems : Nat → List Bson → Except DumpErr Bytes
  | _, [] => .ok []
  | i, v :: rest => do
      let (t, p) ← dumpValue v
      let r ← dumpItems (i + 1) rest
      .ok (t :: (encodeStr (indexKey i) ++ [0] ++ p) ++ r)
end

/-- `dumps` (bindump.py:38-104). -/
def dumps (data : List (String × Bson)) : Except DumpErr Bytes := do
  let body ← dumpFields data
  wrapDoc body

/-! ## Reader -/

/-- What can go wrong while reading: a Rust panic (`unwrap` on a failed
`read_exact`, invalid UTF-8, `unimplemented!`, a negative length), or running out
of the model's recursion fuel (shown impossible in `Props/Image.lean`). -/
inductive ReadErr where
  | panic
  | fuel
  deriving Repr, DecidableEq

/-- `HashMap::insert` on an association list (binload.rs:133, 182). -/
def mapInsert (m : List (String × Bson)) (k : String) (v : Bson) : List (String × Bson) :=
  match m with
  | [] => [(k, v)]
  | (k', v') :: rest => if k' = k then (k, v) :: rest else (k', v') :: mapInsert rest k v

/-- `read_exact` into an `n` byte buffer followed by `unwrap`
(`read_bytes`, binload.rs:102-106). -/
def readBytes (n : Nat) (bs : Bytes) : Except ReadErr (Bytes × Bytes) :=
  if n ≤ bs.length then .ok (bs.take n, bs.drop n) else .error .panic

/-- `read_bson_key` (binload.rs:89-100): every byte up to the first NUL becomes the
character with that code (`as char`, i.e. Latin-1). -/
def readKeyChars : Bytes → Except ReadErr (List Char × Bytes)
  | [] => .error .panic
  | b :: bs =>
    if b = 0 then .ok ([], bs)
    else do
      let (k, r) ← readKeyChars bs
      .ok (Char.ofNat b.toNat :: k, r)

/-- `read_bson_key` (binload.rs:89-100) as a string. -/
def readKey (bs : Bytes) : Except ReadErr (String × Bytes) := do
  let (k, r) ← readKeyChars bs
  .ok (String.ofList k, r)

/-- `i32::from_le_bytes(read_bytes::<4>(..))` used as an allocation size
(binload.rs:116-117, 153-156): a negative value converts to a huge `usize`, whose
allocation panics. -/
def readSize (bs : Bytes) : Except ReadErr (Nat × Bytes) := do
  let (b, r) ← readBytes 4 bs
  if leNat b < 2 ^ 31 then .ok (leNat b, r) else .error .panic

/-- Reinterpretation of 64 bits as a signed integer (`i64::from_le_bytes`,
binload.rs:161). -/
def toSigned64 (n : Nat) : Int := if n < 2 ^ 63 then n else (n : Int) - 2 ^ 64

/-- `String::from_utf8(..).unwrap()` (binload.rs:120). -/
def decodeStr (bs : Bytes) : Except ReadErr String :=
  match String.fromUTF8? ⟨bs.toArray⟩ with
  | some s => .ok s
  | none => .error .panic

mutual
/-- `unpack_bson_value` (binload.rs:108-170). -/
def unpackValue : Nat → UInt8 → Bytes → Except ReadErr (Bson × Bytes)
  | 0, _, _ => .error .fuel
  | fuel + 1, t, bs =>
    if t = 0x01 then do
      let (b, r) ← readBytes 8 bs
      .ok (.dbl (UInt64.ofNat (leNat b)), r)
    else if t = 0x02 then do
      let (n, r) ← readSize bs
      let (s, r) ← readBytes n r
      let (_, r) ← readBytes 1 r
      let str ← decodeStr s
      .ok (.str str, r)
    else if t = 0x03 then do
      let (_, r) ← readBytes 4 bs
      let (m, r) ← unpackNested fuel [] r
      .ok (.doc m, r)
    else if t = 0x04 then do
      let (_, r) ← readBytes 4 bs
      let (l, r) ← unpackArray fuel [] r
      .ok (.arr l, r)
    else if t = 0x05 then do
      let (n, r) ← readSize bs
      let (_, r) ← readBytes 1 r
      let (b, r) ← readBytes n r
      .ok (.bin b, r)
    else if t = 0x12 then do
      let (b, r) ← readBytes 8 bs
      .ok (.int (toSigned64 (leNat b)), r)
    else .error .panic
/-- The loop of the `0x03` branch (binload.rs:122-137). -/
def unpackNested : Nat → List (String × Bson) → Bytes → Except ReadErr (List (String × Bson) × Bytes)
  | 0, _, _ => .error .fuel
  | fuel + 1, acc, bs => do
      let (t, r) ← readBytes 1 bs
      match t with
      | [t] =>
        if t = 0 then .ok (acc, r)
        else do
          let (k, r) ← readKey r
          let (v, r) ← unpackValue fuel t r
          unpackNested fuel (mapInsert acc k v) r
      | _ => .error .panic
/-- The loop of the `0x04` branch (binload.rs:138-151). -/
def unpackArray : Nat → List Bson → Bytes → Except ReadErr (List Bson × Bytes)
  | 0, _, _ => .error .fuel
  | fuel + 1, acc, bs => do
      let (t, r) ← readBytes 1 bs
      match t with
      | [t] =>
        if t = 0 then .ok (acc, r)
        else do
          let (_, r) ← readKey r
          let (v, r) ← unpackValue fuel t r
          unpackArray fuel (acc ++ [v]) r
      | _ => .error .panic
end

/-- `unpack_bson_doc` (binload.rs:172-185).  Unlike the nested readers it stops
quietly at the end of the input. -/
def unpackDoc : Nat → List (String × Bson) → Bytes → Except ReadErr (List (String × Bson))
  | 0, _, _ => .error .fuel
  | _ + 1, acc, [] => .ok acc
  | fuel + 1, acc, t :: r =>
    if t = 0 then .ok acc
    else do
      let (k, r) ← readKey r
      let (v, r) ← unpackValue fuel t r
      unpackDoc fuel (mapInsert acc k v) r

/-- `run_module` skips the four size bytes (amanda/vm/src/lib.rs:18-23) and
`load_bin` unpacks the rest (binload.rs:241-250).  The slice `[4..]` panics on
shorter inputs. -/
def loadImage (image : Bytes) : Except ReadErr (List (String × Bson)) :=
  if image.length < 4 then .error .panic
  else unpackDoc (image.length + 1) [] (image.drop 4)

end Amanda.Bson

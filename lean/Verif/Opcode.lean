import Verif.ExceptLemmas

/-!
# Instructions: `OpCode`, `op_size`, `write_op_bytes` (codegen.py), `OpCode::from`
(opcode.rs) and the operand fetching of `run` (vm.rs).

The two sides are transcribed separately: `Op.value`/`Op.size` and
`writeOpBytes` from the Python file, `vmOps`, `opOfByte`, `vmOperands` and
`fetch` from the Rust files.
-/

namespace Amanda

abbrev Bytes := List UInt8

/-- The operations, named after the Python enum (amanda/compiler/codegen.py:39-125). -/
inductive Op where
  | mostra
  | loadConst
  | loadName
  | opAdd
  | opMinus
  | opMul
  | opDiv
  | opFloordiv
  | opModulo
  | opInvert
  | opAnd
  | opOr
  | opNot
  | opEq
  | opNoteq
  | opGreater
  | opGreatereq
  | opLess
  | opLesseq
  | opIndexGet
  | opIndexSet
  | getGlobal
  | setGlobal
  | jump
  | jumpIfFalse
  | getLocal
  | setLocal
  | callFunction
  | ret
  | cast
  | buildStr
  | buildVec
  | loadRegisto
  | buildObj
  | getProp
  | setProp
  | opUnwrap
  | opIsnull
  | loadModuleDef
  | buildVariant
  | bindMatchArgs
  | matchVariant
  | halt
  deriving DecidableEq, Repr, Inhabited

namespace Op

/-- `OpCode.value` (codegen.py:41-125): `MOSTRA = 0x00`, then `auto()` counts up,
`HALT = 0xFF`. -/
def value : Op → Nat
  | mostra => 0
  | loadConst => 1
  | loadName => 2
  | opAdd => 3
  | opMinus => 4
  | opMul => 5
  | opDiv => 6
  | opFloordiv => 7
  | opModulo => 8
  | opInvert => 9
  | opAnd => 10
  | opOr => 11
  | opNot => 12
  | opEq => 13
  | opNoteq => 14
  | opGreater => 15
  | opGreatereq => 16
  | opLess => 17
  | opLesseq => 18
  | opIndexGet => 19
  | opIndexSet => 20
  | getGlobal => 21
  | setGlobal => 22
  | jump => 23
  | jumpIfFalse => 24
  | getLocal => 25
  | setLocal => 26
  | callFunction => 27
  | ret => 28
  | cast => 29
  | buildStr => 30
  | buildVec => 31
  | loadRegisto => 32
  | buildObj => 33
  | getProp => 34
  | setProp => 35
  | opUnwrap => 36
  | opIsnull => 37
  | loadModuleDef => 38
  | buildVariant => 39
  | bindMatchArgs => 40
  | matchVariant => 41
  | halt => 0xFF

/-- `op_size() // OP_SIZE` (codegen.py:127-161, 36): bytes used, operands included. -/
def size : Op → Nat
  | callFunction | cast | buildStr | buildVec | buildObj | opUnwrap | buildVariant
  | bindMatchArgs => 2
  | loadConst | loadName | setLocal | getLocal | getGlobal | setGlobal | loadRegisto => 3
  | jump | jumpIfFalse | matchVariant => 9
  | loadModuleDef => 17
  | _ => 1

/-- All operations, for statements about the whole table. -/
def all : List Op := [
  mostra, loadConst, loadName, opAdd, opMinus, opMul, opDiv, opFloordiv, opModulo, opInvert, opAnd, opOr, opNot, opEq, opNoteq, opGreater, opGreatereq, opLess, opLesseq, opIndexGet, opIndexSet, getGlobal, setGlobal, jump, jumpIfFalse, getLocal, setLocal, callFunction, ret, cast, buildStr, buildVec, loadRegisto, buildObj, getProp, setProp, opUnwrap, opIsnull, loadModuleDef, buildVariant, bindMatchArgs, matchVariant, halt]

end Op

/-- `Instruction = tuple[OpCode, tuple[int, ...]]` (codegen.py:167). -/
structure Ins where
  op : Op
  args : List Nat
  deriving DecidableEq, Repr

/-- Python exceptions raised while encoding: `IndexError` for a missing operand,
`KeyError` for an unknown label (codegen.py:352), `ValueError` from `bytes([...])`
when an operand exceeds 255 (codegen.py:357), `struct.error` from
`struct.pack(">Q")` (codegen.py:340). -/
inductive EncErr where
  | indexError
  | keyError
  | valueError
  | structError
  deriving DecidableEq, Repr

/-- `k` big-endian bytes of `n` (`struct.pack(">Q")`, codegen.py:340, for `k = 8`). -/
def beBytes : Nat → Nat → Bytes
  | 0, _ => []
  | k + 1, n => UInt8.ofNat (n / 256 ^ k) :: beBytes k n

/-- `format_u64_arg` (codegen.py:339-341). -/
def formatU64 (arg : Nat) : Except EncErr Bytes :=
  if arg < 2 ^ 64 then .ok (beBytes 8 arg) else .error .structError

/-- `format_u16_arg` (codegen.py:343-346): keeps the low sixteen bits only. -/
def formatU16 (arg : Nat) : Bytes :=
  [UInt8.ofNat (arg % 65536 / 256), UInt8.ofNat (arg % 256)]

/-- `args[i]` (codegen.py:357-369). -/
def argAt (args : List Nat) (i : Nat) : Except EncErr Nat :=
  match args[i]? with
  | some a => .ok a
  | none => .error .indexError

/-- First part of `write_op_bytes` (codegen.py:349-354): the label of a jump is
replaced by its address.  `labels` is the label dictionary, which always has the keys
`0 .. labels.length - 1` (codegen.py:305-308). -/
def resolveLabels (labels : List Nat) (ins : Ins) : Except EncErr (List Nat) :=
  if ins.op = .jumpIfFalse ∨ ins.op = .jump then do
    let l ← argAt ins.args 0
    match labels[l]? with
    | some addr => .ok [addr]
    | none => .error .keyError
  else .ok ins.args

/-- `write_op_bytes` (codegen.py:348-376). -/
def writeOpBytes (labels : List Nat) (ins : Ins) : Except EncErr Bytes := do
  let args ← resolveLabels labels ins
  let opByte := UInt8.ofNat ins.op.value
  if ins.op.size = 1 then .ok [opByte]
  else if ins.op.size = 2 then do
    let a ← argAt args 0
    if a < 256 then .ok [opByte, UInt8.ofNat a] else .error .valueError
  else if ins.op.size = 3 then do
    let a ← argAt args 0
    .ok (opByte :: formatU16 a)
  else if ins.op.size = 9 then do
    let a ← argAt args 0
    let b ← formatU64 a
    .ok (opByte :: b)
  else do
    let a ← argAt args 0
    let b ← formatU64 a
    let a' ← argAt args 1
    let b' ← formatU64 a'
    .ok (opByte :: (b ++ b'))

/-- The loop that writes all instructions (codegen.py:270-273). -/
def writeAll (labels : List Nat) : List Ins → Except EncErr Bytes
  | [] => .ok []
  | i :: is => do
      let b ← writeOpBytes labels i
      let r ← writeAll labels is
      .ok (b ++ r)

/-! ## VM side -/

/-- The lookup array of `impl From<&u8> for OpCode` (amanda/vm/src/opcode.rs:54-97).
Names follow `Op`; `Op.ret` is `OpCode::Return`, `Op.opUnwrap` is `OpCode::Unwrap`,
`Op.opIsnull` is `OpCode::IsNull`. -/
def vmOps : List Op := [
  .mostra, .loadConst, .loadName, .opAdd, .opMinus, .opMul, .opDiv, .opFloordiv, .opModulo, .opInvert, .opAnd, .opOr, .opNot, .opEq, .opNoteq, .opGreater, .opGreatereq, .opLess, .opLesseq, .opIndexGet, .opIndexSet, .getGlobal, .setGlobal, .jump, .jumpIfFalse, .getLocal, .setLocal, .callFunction, .ret, .cast, .buildStr, .buildVec, .loadRegisto, .buildObj, .getProp, .setProp, .opUnwrap, .opIsnull, .loadModuleDef, .buildVariant, .bindMatchArgs, .matchVariant]

/-- `OpCode::from(&byte)` (opcode.rs:52-104); `none` is the out-of-bounds panic of
the array access. -/
def opOfByte (b : UInt8) : Option Op :=
  if b = 0xff then some .halt else vmOps[b.toNat]?

/-- Widths in bytes of the operands each branch of `run` fetches, in order
(amanda/vm/src/vm.rs:184-547: `get_byte` is 1, `get_u16_arg` 2, `get_u64_arg` 8). -/
def vmOperands : Op → List Nat
  | .loadConst => [2]                       -- vm.rs:186
  | .loadName => [2]                        -- vm.rs:190
  | .loadModuleDef => [8, 8]                -- vm.rs:194-195
  | .loadRegisto => [2]                     -- vm.rs:202
  | .matchVariant => [8]                    -- vm.rs:232
  | .getGlobal | .setGlobal => [2]          -- vm.rs:317, 323
  | .jump | .jumpIfFalse => [8]             -- vm.rs:329, 338
  | .getLocal | .setLocal => [2]            -- vm.rs:346, 350
  | .callFunction => [1]                    -- vm.rs:354
  | .buildStr | .buildVec | .buildObj | .buildVariant | .bindMatchArgs => [1]  -- vm.rs:409, 421, 436, 462, 475
  | .opUnwrap => [1]                        -- vm.rs:505
  | .cast => [1]                            -- vm.rs:525
  | _ => []

/-- Unsigned value of big-endian bytes (`get_u16_arg`, `u64::from_be_bytes`,
vm.rs:138-148). -/
def beNat (bs : Bytes) : Nat := bs.foldl (fun acc b => acc * 256 + b.toNat) 0

/-- Read `k` bytes after position `ip`, one `get_byte` at a time (vm.rs:133-148):
`ip` is incremented before each access.  `none` is the index panic. -/
def getBytes (code : Bytes) : Nat → Nat → Option (Bytes × Nat)
  | 0, ip => some ([], ip)
  | k + 1, ip => do
      let b ← code[ip + 1]?
      let (r, ip') ← getBytes code k (ip + 1)
      some (b :: r, ip')

/-- Read the operands of the given widths starting after position `ip`. -/
def getOperands (code : Bytes) : List Nat → Nat → Option (List Nat × Nat)
  | [], ip => some ([], ip)
  | w :: ws, ip => do
      let (b, ip) ← getBytes code w ip
      let (r, ip) ← getOperands code ws ip
      some (beNat b :: r, ip)

/-- Head of the loop of `run` (vm.rs:182-184) followed by the operand fetches of the
selected branch.  Gives the operation, its operands and the instruction pointer
after the last operand byte (before the `ip += 1` of vm.rs:548); `none` is a panic. -/
def fetch (code : Bytes) (ip : Nat) : Option (Op × List Nat × Nat) := do
  let b ← code[ip]?
  let op ← opOfByte b
  let (args, ip') ← getOperands code (vmOperands op) ip
  some (op, args, ip')

end Amanda

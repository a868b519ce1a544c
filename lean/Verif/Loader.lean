import Verif.Vm
import Verif.Bson

/-!
# From image to modules: `Const::from_str`, `build_module`, `load_bin` (binload.rs),
`run_module` (lib.rs)
-/

namespace Amanda

open Bson (Bson)

/-- `i64 as usize` / `i64 as u64`: two's complement reinterpretation. -/
def asUsize (n : Int) : Nat := (n % 2 ^ 64).toNat

/-- `HashMap::remove(key).unwrap()` followed by `bson_take!` or a `match`
(binload.rs:187-195); `none` is a panic. -/
def field (doc : List (String × Bson)) (key : String) : Option Bson := assocGet doc key

/-- `bson_take!(BSONType::Int, ..)` (binload.rs:187-195). -/
def takeBInt : Bson → Option Int | .int n => some n | _ => none
/-- `bson_take!(BSONType::String, ..)` (binload.rs:187-195). -/
def takeBStr : Bson → Option String | .str s => some s | _ => none
/-- `bson_take!(BSONType::Array, ..)`, `take_vec` (binload.rs:79-87, 187-195). -/
def takeBArr : Bson → Option (List Bson) | .arr l => some l | _ => none
/-- `bson_take!(BSONType::Bytes, ..)` (binload.rs:187-195). -/
def takeBBytes : Bson → Option Bytes | .bin b => some b | _ => none
/-- `bson_take!(BSONType::Doc, ..)` (binload.rs:187-195). -/
def takeBDoc : Bson → Option (List (String × Bson)) | .doc d => some d | _ => none

section
variable {F : Type} [FloatOps F]

/-- The text branch of `Const::from_str` (binload.rs:59-64) on characters.  `&constant[..1]`
panics on the empty text and when the first character takes more than one byte; the slice
`[1..len - 1]` panics for a lone quote and when the last character takes more than one
byte. -/
def unquote : List Char → Option (List Char)
  | [] => none
  | c :: cs =>
      if c.utf8Size ≠ 1 then none
      else if c = '"' ∨ c = '\'' then
        match cs.getLast? with
        | none => none
        | some l => if l.utf8Size ≠ 1 then none else some cs.dropLast
      else some (c :: cs)

/-- `Const::from_str` and `consume_const` (binload.rs:41-67, 231-239). -/
def constOfStr (s : String) : Option (Val F) :=
  if s = "verdadeiro" then some (.bool true)
  else if s = "falso" then some (.bool false)
  else if s = "nulo" then some .none
  else
    match parseI64 s with
    | some n => some (.int n)
    | none =>
        match (FloatOps.parse s : Option F) with
        | some x => some (.f64 x)
        | none => (unquote s.toList).map fun cs => .str (String.ofList cs)

/-- `Const::from(BSONType)` and `consume_const` (binload.rs:30-39, 231-239). -/
def constOfBson : Bson → Option (Val F)
  | .str s => constOfStr s
  | .int n => some (.int n)
  | .dbl b => some (.f64 (FloatOps.ofBits b.toNat))
  | _ => none

/-- `doc_into_amafn` and the `AmaFunc` built from it (binload.rs:197-215, 281-294). -/
def funcOfBson (b : Bson) : Option AmaFunc := do
  let d ← takeBDoc b
  let startIp ← (field d "start_ip").bind takeBInt
  let module ← (field d "module").bind takeBInt
  let name ← (field d "name").bind takeBStr
  let locals ← (field d "locals").bind takeBInt
  some { name := name, startIp := asUsize startIp, ip := asUsize startIp,
         lastI := asUsize startIp, bp := -1, locals := asUsize locals,
         module := if module ≥ 0 then .imported module.toNat else .main }

/-- `doc_into_reg` and the `Registo` built from it (binload.rs:217-229, 303-311). -/
def registoOfBson (b : Bson) : Option Registo := do
  let d ← takeBDoc b
  let name ← (field d "name").bind takeBStr
  let fs ← (field d "fields").bind takeBArr
  let fs ← fs.mapM takeBStr
  some { name := name, fields := fs }

/-- `build_module` (binload.rs:252-345). -/
def buildModule (d : List (String × Bson)) : Option (Module F) := do
  let consts ← (field d "constants").bind takeBArr
  let constants ← consts.mapM constOfBson
  let names ← (field d "names").bind takeBArr
  let names ← names.mapM takeBStr
  let ops ← (field d "ops").bind takeBBytes
  let entry ← (field d "entry_locals").bind takeBInt
  let sm ← (field d "src_map").bind takeBArr
  let sm ← sm.mapM takeBInt
  let fns ← (field d "functions").bind takeBArr
  let fns ← fns.mapM funcOfBson
  let regs ← (field d "registos").bind takeBArr
  let regs ← regs.mapM registoOfBson
  let b ← (field d "builtin").bind takeBInt
  let name ← (field d "name").bind takeBStr
  some { name := name, builtin := b != 0, constants := constants, names := names, code := ops,
         main := { name := "_inicio_", startIp := 0, ip := 0, lastI := 0, bp := -1,
                   locals := asUsize entry, module := .main },
         functions := fns, registos := regs, srcMap := sm.map asUsize }

/-- `load_bin` after `unpack_bson_doc` (binload.rs:244-249). -/
def loadProgram (d : List (String × Bson)) : Option (Program F) := do
  let imps ← (field d "imports").bind takeBArr
  let imps ← imps.mapM fun m => (takeBDoc m).bind buildModule
  let main ← buildModule d
  some { main := main, imports := imps }

/-- What `run_module` shows to its caller (lib.rs:17-35): the status with the text on the
two output streams, or an abort by panic. -/
inductive RunResult where
  | exited (status : Nat) (out : String) (err : String)
  | panicked (out : String)
  | outOfFuel (out : String)
  deriving DecidableEq, Repr

/-- `run_module` (lib.rs:17-35), every module for at most `fuel` instructions. -/
def runImage (F : Type) [FloatOps F] (cfg : Cfg) (fuel : Nat) (inp : List String)
    (image : Bytes) : RunResult :=
  match Bson.loadImage image with
  | .error _ => .panicked ""
  | .ok d =>
      match (loadProgram d : Option (Program F)) with
      | none => .panicked ""
      | some prog =>
          match runProgram cfg prog fuel inp with
          | .done vm => .exited 0 vm.world.out ""
          | .err msg vm => .exited 1 vm.world.out msg
          | .panic vm => .panicked vm.world.out
          | .outOfFuel vm => .outOfFuel vm.world.out

end

end Amanda

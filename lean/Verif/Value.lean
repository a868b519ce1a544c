import Verif.Opcode

/-!
# Values: `AmaValue`, `binop`, `cast`, `Display` (amanda/vm/src/ama_value.rs), `Type`
(values/amatype.rs), `AmaFunc` (values/function.rs), `Registo`/`RegObj` (values/registo.rs).

Machine floats are a parameter: a type `F` with the operations of `FloatOps`, about which
nothing is assumed unless `LawfulFloatOps` appears in a statement.
Reference-counted storage (`Rc<RefCell<..>>`) is a heap of numbered cells.
-/

namespace Amanda

/-- The range of `i64`. -/
def InI64 (n : Int) : Prop := -(2 ^ 63) ≤ n ∧ n < 2 ^ 63

instance (n : Int) : Decidable (InI64 n) := inferInstanceAs (Decidable (_ ∧ _))

/-- The operations on `f64` used by the VM (ama_value.rs, vm.rs, mat.rs).  Uninterpreted. -/
class FloatOps (F : Type) where
  /-- `int as f64` (ama_value.rs:101) -/
  ofInt : Int → F
  /-- `float as i64` (ama_value.rs:109), saturating -/
  toInt : F → Int
  zero : F
  pi : F
  add : F → F → F
  sub : F → F → F
  mul : F → F → F
  div : F → F → F
  rem : F → F → F
  neg : F → F
  eq : F → F → Bool
  lt : F → F → Bool
  le : F → F → Bool
  /-- `float.fract() == 0.0` (ama_value.rs:260) -/
  isWhole : F → Bool
  /-- `format!("{}", float)` -/
  display : F → String
  /-- `str::parse::<f64>` -/
  parse : String → Option F
  /-- `f64::from_le_bytes` (binload.rs:113), on the eight bytes as a number -/
  ofBits : Nat → F
  /-- the functions of builtins/mat.rs -/
  abs : F → F
  pow : F → F → F
  sqrt : F → F
  round : F → F
  floor : F → F
  ceil : F → F
  sin : F → F
  cos : F → F
  tan : F → F
  log : F → F → F
  toRadians : F → F
  toDegrees : F → F

/-- The facts about `f64` some statements need. -/
class LawfulFloatOps (F : Type) [FloatOps F] : Prop where
  /-- an `i64` converted to `f64` equals `0.0` exactly when it is zero -/
  ofInt_zero : ∀ n : Int, InI64 n → (FloatOps.eq (FloatOps.ofInt n : F) FloatOps.zero = true ↔ n = 0)
  /-- what equals `0.0` converts to `0` -/
  toInt_zero : ∀ x : F, FloatOps.eq x FloatOps.zero = true → FloatOps.toInt x = 0
  /-- conversion to `i64` saturates -/
  toInt_range : ∀ x : F, InI64 (FloatOps.toInt x)
  /-- a text that begins with a quote is not a number -/
  parse_quoted : ∀ s : String, (s.toList.head? = some '\'' ∨ s.toList.head? = some '"') →
    (FloatOps.parse s : Option F) = none

/-- `Type` (values/amatype.rs:3-10). -/
inductive VTy where
  | int | real | texto | bool | vector
  deriving DecidableEq, Repr

/-- `Type::name` (amatype.rs:12-21). -/
def VTy.name : VTy → String
  | .int => "int"
  | .real => "real"
  | .texto => "texto"
  | .bool => "bool"
  | .vector => "Vector"

/-- `FuncModule` (values/function.rs:27-30). -/
inductive FuncModule where
  | main
  | imported (idx : Nat)
  deriving DecidableEq, Repr

/-- `AmaFunc` (values/function.rs:33-41). -/
structure AmaFunc where
  name : String
  startIp : Nat
  ip : Nat
  lastI : Nat
  bp : Int
  locals : Nat
  module : FuncModule
  deriving DecidableEq, Repr

/-- `Registo` (values/registo.rs:12-16). -/
structure Registo where
  name : String
  fields : List String
  deriving DecidableEq, Repr

/-- `AmaValue` (ama_value.rs:68-84).  `vector`, `regobj` and the payload of `variant`
hold the number of a heap cell; a native function is known by module and name; borrowed
and owned strings are not distinguished. -/
inductive Val (F : Type) where
  | int (n : Int)
  | f64 (x : F)
  | bool (b : Bool)
  | func (f : AmaFunc)
  | nativeFn (module name : String)
  | type (t : VTy)
  | none
  | vector (cell : Nat)
  | str (s : String)
  | registo (r : Registo)
  | regobj (cell : Nat)
  | variant (tag : Nat) (payload : Option Nat)
  deriving DecidableEq, Repr

/-- Contents of reference-counted storage: `Vec<AmaValue>`, `RegObj` (registo.rs:18-22;
the hash map is an association list, keys are field names) and the payload of a variant
(ama_value.rs:83). -/
inductive Cell (F : Type) where
  | vec (items : List (Val F))
  | obj (reg : Registo) (state : List (String × Val F))
  | payload (items : List (Val F))
  deriving DecidableEq, Repr

abbrev Heap (F : Type) := List (Cell F)

/-- How Rust code stops: a reported error (`Err(message)`) or a panic
(`panic!`, `unimplemented!`, `unreachable!`, failed `unwrap`, index out of bounds). -/
inductive RErr where
  | err (msg : String)
  | panic
  deriving DecidableEq, Repr

abbrev Res := Except RErr

namespace Val

variable {F : Type}

/-- `is_float` (ama_value.rs:145). -/
def isFloat : Val F → Bool | f64 _ => true | _ => false
/-- `is_str` (ama_value.rs:146). -/
def isStr : Val F → Bool | str _ => true | _ => false
/-- `is_bool` (ama_value.rs:147). -/
def isBool : Val F → Bool | bool _ => true | _ => false
/-- `is_int` (ama_value.rs:148). -/
def isInt : Val F → Bool | int _ => true | _ => false
/-- `is_none` (ama_value.rs:150-155). -/
def isNone : Val F → Bool | none => true | _ => false

/-- `get_type` (ama_value.rs:87-96). -/
def getType : Val F → Res VTy
  | str _ => .ok .texto
  | int _ => .ok .int
  | f64 _ => .ok .real
  | bool _ => .ok .bool
  | vector _ => .ok .vector
  | _ => .error .panic

/-- `take_float` (ama_value.rs:98-104). -/
def takeFloat [FloatOps F] : Val F → Res F
  | f64 x => .ok x
  | int n => .ok (FloatOps.ofInt n)
  | _ => .error .panic

/-- `take_int` (ama_value.rs:106-112). -/
def takeInt [FloatOps F] : Val F → Res Int
  | int n => .ok n
  | f64 x => .ok (FloatOps.toInt x)
  | _ => .error .panic

/-- `take_type` (ama_value.rs:114-119). -/
def takeType : Val F → Res VTy
  | type t => .ok t
  | _ => .error .panic

/-- `take_str` (ama_value.rs:121-127). -/
def takeStr : Val F → Res String
  | str s => .ok s
  | _ => .error .panic

/-- `take_bool` (ama_value.rs:129-135). -/
def takeBool : Val F → Res Bool
  | bool b => .ok b
  | _ => .error .panic

end Val

/-- `checked_add` etc.: `None` when the result is outside `i64` (ama_value.rs:193-215). -/
def checked (n : Int) : Option Int := if InI64 n then some n else none

/-- `i64::checked_div` for a non-zero divisor: truncating. -/
def checkedDiv (a b : Int) : Option Int := checked (Int.tdiv a b)

/-- `i64::checked_rem` for a non-zero divisor: truncating; `None` for `MIN % -1`, whose
quotient overflows. -/
def checkedRem (a b : Int) : Option Int :=
  if InI64 (Int.tdiv a b) then some (Int.tmod a b) else none

def msgOverflow : String :=
  "Erro ao realizar operação aritmética. Resultado fora do intervalo de inteiros representáveis"
def msgRemZero : String := "não pode calcular o resto da divisão de um número por zero"
def msgDivZero : String := "não pode dividir um número por zero"

section
variable {F : Type} [FloatOps F]
open FloatOps

/-- macro `arith_ops!` (ama_value.rs:18-33). -/
def arithOps (ty : VTy) (l : Val F) (fop : F → F → F) (iop : Int → Int → Option Int)
    (r : Val F) : Res (Val F) :=
  match ty with
  | .real => do
      let a ← l.takeFloat
      let b ← r.takeFloat
      .ok (.f64 (fop a b))
  | .int => do
      let a ← l.takeInt
      let b ← r.takeInt
      match iop a b with
      | some n => .ok (.int n)
      | none => .error (.err msgOverflow)
  | _ => .error .panic

/-- macro `comp_ops!` (ama_value.rs:35-43). -/
def compOps (ty : VTy) (l : Val F) (fop : F → F → Bool) (iop : Int → Int → Bool)
    (r : Val F) : Res (Val F) :=
  match ty with
  | .real => do
      let a ← l.takeFloat
      let b ← r.takeFloat
      .ok (.bool (fop a b))
  | .int => do
      let a ← l.takeInt
      let b ← r.takeInt
      .ok (.bool (iop a b))
  | _ => .error .panic

/-- macro `eq_ops!` (ama_value.rs:45-55); `neg` is `true` for `!=`. -/
def eqOps (ty : VTy) (l : Val F) (neg : Bool) (r : Val F) : Res (Val F) :=
  match ty with
  | .int => do
      let a ← l.takeInt
      let b ← r.takeInt
      .ok (.bool ((a == b) != neg))
  | .real => do
      let a ← l.takeFloat
      let b ← r.takeFloat
      .ok (.bool (FloatOps.eq a b != neg))
  | .bool => do
      let a ← l.takeBool
      let b ← r.takeBool
      .ok (.bool ((a == b) != neg))
  | .texto => do
      let a ← l.takeStr
      let b ← r.takeStr
      .ok (.bool ((a == b) != neg))
  | .vector => .error .panic

/-- The `res_type` of `binop` (ama_value.rs:179-191). -/
def resType (l r : Val F) : Res VTy :=
  if l.isFloat || r.isFloat then .ok .real
  else if l.isInt && r.isInt then .ok .int
  else if l.isBool && r.isBool then .ok .bool
  else if l.isStr && r.isStr then .ok .texto
  else if l.isNone && r.isStr then .ok .texto
  else .error .panic

/-- `AmaValue::binop` (ama_value.rs:178-228). -/
def binop (l : Val F) (op : Op) (r : Val F) : Res (Val F) := do
  let ty ← resType l r
  match op with
  | .opAdd => arithOps ty l add (fun a b => checked (a + b)) r
  | .opMinus => arithOps ty l sub (fun a b => checked (a - b)) r
  | .opMul => arithOps ty l mul (fun a b => checked (a * b)) r
  | .opModulo => do
      let z ← r.takeFloat
      if FloatOps.eq z zero then .error (.err msgRemZero)
      else arithOps ty l rem checkedRem r
  | .opDiv => do
      let z ← r.takeFloat
      if FloatOps.eq z zero then .error (.err msgDivZero)
      else do
        let a ← l.takeFloat
        .ok (.f64 (FloatOps.div a z))
  | .opFloordiv => do
      let z ← r.takeInt
      if z = 0 then .error (.err msgDivZero)
      else arithOps .int l FloatOps.div checkedDiv r
  | .opAnd => do
      let a ← l.takeBool
      if a then do
        let b ← r.takeBool
        .ok (.bool b)
      else .ok (.bool false)
  | .opOr => do
      let a ← l.takeBool
      if a then .ok (.bool true)
      else do
        let b ← r.takeBool
        .ok (.bool b)
  | .opEq => eqOps ty l false r
  | .opNoteq => eqOps ty l true r
  | .opGreater => compOps ty l (fun a b => lt b a) (fun a b => decide (a > b)) r
  | .opGreatereq => compOps ty l (fun a b => le b a) (fun a b => decide (a ≥ b)) r
  | .opLess => compOps ty l lt (fun a b => decide (a < b)) r
  | .opLesseq => compOps ty l le (fun a b => decide (a ≤ b)) r
  | _ => .error .panic

/-! ## Display -/

/-- `format!("{}", bool)` in Amanda (ama_value.rs:265-268). -/
def displayBool (b : Bool) : String := if b then "verdadeiro" else "falso"

/-- `format!("{}", float)` with `.0` for whole numbers (ama_value.rs:259-264). -/
def displayFloat (x : F) : String := if isWhole x then display x ++ ".0" else display x

/-- `impl Display for AmaValue` (ama_value.rs:254-293).  The recursion over vector
elements is bounded by `fuel`; running out stands for unbounded recursion (a vector that
contains itself), which overflows the native stack. -/
def displayFuel (heap : Heap F) : Nat → Val F → Res String
  | _, .str s => .ok s
  | _, .int n => .ok (toString n)
  | _, .f64 x => .ok (displayFloat x)
  | _, .bool b => .ok (displayBool b)
  | 0, .vector _ => .error .panic
  | fuel + 1, .vector c =>
      match heap[c]? with
      | some (.vec items) => do
          let parts ← items.mapM (displayFuel heap fuel)
          .ok ("[" ++ String.intercalate ", " parts ++ "]")
      | _ => .error .panic
  | _, .none => .ok "nulo"
  | _, .regobj c =>
      match heap[c]? with
      | some (.obj reg _) => .ok ("<Instância do tipo " ++ reg.name ++ ">")
      | _ => .error .panic
  | _, .variant tag _ => .ok ("<Variante(" ++ toString tag ++ ")>")
  | _, _ => .error .panic

/-- `Display`: nesting deeper than the number of cells means a cycle. -/
def displayVal (heap : Heap F) (v : Val F) : Res String := displayFuel heap (heap.length + 1) v

/-! ## Conversions -/

/-- Digits of `str::parse::<i64>`: at least one ASCII digit, nothing else. -/
def parseDigits : List Char → Option Nat
  | [] => none
  | cs => cs.foldlM (fun acc c => if c.isDigit then some (acc * 10 + (c.toNat - 48)) else none) 0

/-- `str::parse::<i64>` (used at ama_value.rs:301, binload.rs:52): an optional sign, then
digits; fails outside the range of `i64`. -/
def parseI64 (s : String) : Option Int :=
  let n : Option Int :=
    match s.toList with
    | '-' :: cs => (parseDigits cs).map fun (n : Nat) => -(n : Int)
    | '+' :: cs => (parseDigits cs).map fun (n : Nat) => (n : Int)
    | cs => (parseDigits cs).map fun (n : Nat) => (n : Int)
  n.bind checked

/-- `cast` (ama_value.rs:295-348). -/
def castVal (heap : Heap F) (v : Val F) (target : VTy) : Res (Val F) :=
  match target with
  | .texto => do
      let s ← displayVal heap v
      .ok (.str s)
  | .int =>
      match v with
      | .f64 x => .ok (.int (toInt x))
      | .str s =>
          match parseI64 s with
          | some n => .ok (.int n)
          | none => .error (.err ("A sequência de caracteres '" ++ s ++ "' não é um inteiro válido"))
      | _ => .error .panic
  | .real =>
      match v with
      | .int n => .ok (.f64 (ofInt n))
      | .str s =>
          match (parse s : Option F) with
          | some x => .ok (.f64 x)
          | none =>
              .error (.err ("A sequência de caracteres '" ++ s ++ "' não é um número real válido"))
      | _ => .error .panic
  | .bool =>
      match v with
      | .int n => .ok (.bool (n != 0))
      | .f64 x => .ok (.bool (!FloatOps.eq x zero))
      | .str s => .ok (.bool (s != ""))
      | _ => .error .panic
  | .vector => .error .panic

/-- `check_cast` (ama_value.rs:371-374). -/
def checkCast (valT target : VTy) : Bool := valT = target

end

end Amanda

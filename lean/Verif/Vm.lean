import Verif.Builtins

/-!
# The virtual machine: amanda/vm/src/vm.rs, modules/module.rs, values/registo.rs
-/

namespace Amanda

/-- `Module` (modules/module.rs:11-23) without its mutable `globals`, which are part of the
machine state here. -/
structure Module (F : Type) where
  name : String
  builtin : Bool
  constants : List (Val F)
  names : List String
  code : Bytes
  main : AmaFunc
  functions : List AmaFunc
  registos : List Registo
  srcMap : List Nat

/-- The two arguments of `AmaVM::new` (vm.rs:89): main module and imports. -/
structure Program (F : Type) where
  main : Module F
  imports : List (Module F)

/-- A reference to a module (`&Module`): the main one or an import. -/
inductive ModRef where
  | main
  | imp (idx : Nat)
  deriving DecidableEq, Repr

/-- The module a reference stands for; `none` is an index panic of `imports[i]`. -/
def Program.get {F : Type} (p : Program F) : ModRef → Option (Module F)
  | .main => some p.main
  | .imp i => p.imports[i]?

/-- `AmaVM` (vm.rs:65-76).  `frames` is the part of `FrameStack` up to its `sp`, top first
(vm.rs:22-25; slots above `sp` are never read).  `globals` holds the globals of all
modules. -/
structure VM (F : Type) where
  frames : List AmaFunc
  values : List (Val F)
  sp : Int
  ctx : ModRef
  globals : List ((ModRef × String) × Val F)
  world : World F
  deriving DecidableEq, Repr

/-- How execution of one instruction can end the run. -/
inductive Stop (F : Type) where
  | halt (vm : VM F)
  | err (msg : String) (vm : VM F)
  | panic (vm : VM F)
  deriving DecidableEq, Repr

/-- Hash map lookup. -/
def assocGet {K V : Type} [DecidableEq K] (m : List (K × V)) (k : K) : Option V :=
  match m with
  | [] => none
  | (k', v) :: rest => if k' = k then some v else assocGet rest k

/-- Hash map insertion: replaces the value of a present key. -/
def assocSet {K V : Type} [DecidableEq K] (m : List (K × V)) (k : K) (v : V) : List (K × V) :=
  match m with
  | [] => [(k, v)]
  | (k', v') :: rest => if k' = k then (k, v) :: rest else (k', v') :: assocSet rest k v

/-- `RECURSION_LIMIT` (vm.rs:18). -/
def recursionLimit : Nat := 1000

/-- `DEFAULT_STACK_SIZE` (vm.rs:19). -/
def defaultStackSize : Nat := 256

/-- `offset_to_line` (vm.rs:79-86); `none` is an index panic on a list whose length is not
a multiple of three. -/
def offsetToLine (offset : Nat) : List Nat → Option Nat
  | [] => some 0
  | s :: e :: l :: rest => if s ≤ offset ∧ offset ≤ e then some l else offsetToLine offset rest
  | [s, e] => if s ≤ offset ∧ offset ≤ e then none else some 0
  | [s] => if s ≤ offset then none else some 0

section
variable {F : Type} [FloatOps F]

/-- The loop of `panic_and_throw` (vm.rs:565-580), from the top frame down. -/
def traceLines (srcMap : List Nat) (error : String) : List AmaFunc → Option String
  | [] => none
  | [f] => do
      let l ← offsetToLine f.lastI srcMap
      some ("Erro na linha " ++ toString l ++ ": " ++ error ++ ".")
  | f :: fs => do
      let l ← offsetToLine f.lastI srcMap
      let rest ← traceLines srcMap error fs
      some ("    Linha " ++ toString l ++ ", na função " ++ f.name ++ "\n" ++ rest)

/-- `panic_and_throw` (vm.rs:558-582). -/
def throwErr (prog : Program F) (vm : VM F) (error : String) : Stop F :=
  match prog.get vm.ctx with
  | none => .panic vm
  | some m =>
      match traceLines m.srcMap error vm.frames with
      | none => .panic vm
      | some s =>
          .err ((if vm.frames.length > 1 then "Fluxo de execução: \n" else "") ++ s) vm

/-- Error results of value operations at instruction level: `return
self.panic_and_throw(msg)` or a panic. -/
def Res.lift {α : Type} (r : Res α) (prog : Program F) (vm : VM F) : Except (Stop F) α :=
  match r with
  | .ok a => .ok a
  | .error (.err msg) => .error (throwErr prog vm msg)
  | .error .panic => .error (.panic vm)

/-- `unwrap`, indexing and the like. -/
def orPanic {α : Type} (o : Option α) (vm : VM F) : Except (Stop F) α :=
  match o with
  | some a => .ok a
  | none => .error (.panic vm)

/-- `op_push` (vm.rs:109-117).  With `sp` already beyond the vector nothing is stored. -/
def VM.push (vm : VM F) (v : Val F) : Except (Stop F) (VM F) :=
  let sp := vm.sp + 1
  if sp = vm.values.length then .ok { vm with sp := sp, values := vm.values ++ [v] }
  else if sp < vm.values.length then
    if sp < 0 then .error (.panic vm)
    else .ok { vm with sp := sp, values := vm.values.set sp.toNat v }
  else .ok { vm with sp := sp }

/-- `op_pop` (vm.rs:119-131).  On an empty vector every branch panics, in debug builds
already at `len() - 1`. -/
def VM.pop (vm : VM F) : Except (Stop F) (Val F × VM F) :=
  let size : Int := vm.values.length - 1
  if vm.sp = size then do
    let v ← orPanic vm.values.getLast? vm
    .ok (v, { vm with sp := vm.sp - 1, values := vm.values.dropLast })
  else if vm.sp < size then
    if vm.sp < 0 then .error (.panic vm)
    else do
      let v ← orPanic vm.values[vm.sp.toNat]? vm
      .ok (v, { vm with sp := vm.sp - 1, values := vm.values.set vm.sp.toNat .none })
  else .error (.panic vm)

/-- `reserve_stack_space` (vm.rs:150-154). -/
def VM.reserve (vm : VM F) (size : Nat) : VM F :=
  let values := vm.values ++ List.replicate size .none
  { vm with values := values, sp := (values.length : Int) - 1 }

/-- `self.values[start..=sp]` / `self.values.drain(start..=sp)` bounds: the slice, or
`none` for a panic. -/
def VM.slice (vm : VM F) (start : Int) : Option (List (Val F)) :=
  if 0 ≤ start ∧ start ≤ vm.sp + 1 ∧ vm.sp + 1 ≤ vm.values.length then
    some ((vm.values.take (vm.sp + 1).toNat).drop start.toNat)
  else none

/-- `self.values.drain(sp + 1..)` (vm.rs:389, 417, 433). -/
def VM.dropAbove (vm : VM F) : Except (Stop F) (VM F) :=
  if 0 ≤ vm.sp + 1 ∧ vm.sp + 1 ≤ vm.values.length then
    .ok { vm with values := vm.values.take (vm.sp + 1).toNat }
  else .error (.panic vm)

/-- The vector after `drain(start..=sp)` (vm.rs:452, 470, 478). -/
def VM.drainRange (vm : VM F) (start : Int) : List (Val F) :=
  vm.values.take start.toNat ++ vm.values.drop (vm.sp + 1).toNat

/-- `self.frames.peek_mut().ip += 1` (vm.rs:548 and others). -/
def VM.advance (vm : VM F) : Except (Stop F) (VM F) :=
  match vm.frames with
  | [] => .error (.panic vm)
  | f :: fs => .ok { vm with frames := { f with ip := f.ip + 1 } :: fs }

/-- `self.frames.peek()` (vm.rs:55-57). -/
def VM.top (vm : VM F) : Except (Stop F) AmaFunc := orPanic vm.frames.head? vm

/-- Address of a local: `bp as usize + idx` (vm.rs:346, 350, 484).  For `bp = -1` the
addition overflows: a panic in debug builds, wrap-around otherwise. -/
def localIndex (cfg : Cfg) (bp : Int) (idx : Int) : Option Nat :=
  if bp < 0 ∧ cfg.debug then none
  else if bp + idx < 0 then none
  else some (bp + idx).toNat

/-- `FuncModule` to module reference (vm.rs:368-370, 400-404). -/
def FuncModule.ref : FuncModule → ModRef
  | .main => .main
  | .imported i => .imp i

/-- `RegObj::with_fields` (registo.rs:32-47): keys and values alternate.  Keys of compiled
programs are names; other key types are treated as a panic here. -/
def withFields : List (Val F) → List (String × Val F) → Option (List (String × Val F))
  | [], st => some st
  | .str k :: v :: rest, st => withFields rest (assocSet st k v)
  | _, _ => none

/-- Operand of an instruction, always present after `fetch`. -/
def operand (args : List Nat) (i : Nat) (vm : VM F) : Except (Stop F) Nat := orPanic args[i]? vm

/-- Binary operators of `run` (vm.rs:207-230). -/
def execBin (prog : Program F) (vm : VM F) (op : Op) : Except (Stop F) (VM F) := do
  let (right, vm) ← vm.pop
  let (left, vm) ← vm.pop
  let r ← (binop left op right).lift prog vm
  let vm ← vm.push r
  vm.advance

/-- The value of `OpCode::OpInvert` and `OpCode::OpNot` (vm.rs:248-260).  Negating the minimum integer
overflows: a panic in debug builds, wrap-around otherwise. -/
def unary (cfg : Cfg) (op : Op) (v : Val F) : Option (Val F) :=
  match op, v with
  | .opInvert, .int n =>
      if InI64 (-n) then some (.int (-n)) else if cfg.debug then none else some (.int n)
  | .opInvert, .f64 x => some (.f64 (FloatOps.neg x))
  | .opNot, .bool b => some (.bool (!b))
  | _, _ => none

/-- `OpCode::OpInvert` and `OpCode::OpNot` (vm.rs:244-261). -/
def execUnary (cfg : Cfg) (vm : VM F) (op : Op) : Except (Stop F) (VM F) := do
  let (v, vm) ← vm.pop
  let r ← orPanic (unary cfg op v) vm
  let vm ← vm.push r
  vm.advance

def msgNegStrIndex : String :=
  "Erro de índice inválido. Strings só podem ser indexadas com inteiros positivos"

def msgStrIndex (len : Nat) (idx : Int) : String :=
  "Erro de índice inválido. O tamanho da string é " ++ toString len ++ ", mas o índice é " ++
    toString idx

/-- The value read by `OpCode::OpIndexGet` (vm.rs:266-298). -/
def indexGet (cfg : Cfg) (heap : Heap F) (target : Val F) (idx : Int) : Res (Val F) :=
  match target with
  | .str s =>
      if idx < 0 then .error (.err msgNegStrIndex)
      else
        match (cfg.graphemes s)[idx.toNat]? with
        | some g => .ok (.str g)
        | none => .error (.err (msgStrIndex (cfg.graphemes s).length idx))
  | .vector c => do
      vecIndexCheck heap target idx
      match heap[c]? with
      | some (.vec items) =>
          match items[idx.toNat]? with
          | some v => .ok v
          | none => .error .panic
      | _ => .error .panic
  | _ => .error .panic

/-- `OpCode::OpIndexGet` (vm.rs:262-299). -/
def execIndexGet (cfg : Cfg) (prog : Program F) (vm : VM F) : Except (Stop F) (VM F) := do
  let (i, vm) ← vm.pop
  let idx ← i.takeInt.lift prog vm
  let (target, vm) ← vm.pop
  let v ← (indexGet cfg vm.world.heap target idx).lift prog vm
  let vm ← vm.push v
  vm.advance

/-- The store of `OpCode::OpIndexSet` (vm.rs:305-313). -/
def indexSet (heap : Heap F) (target : Val F) (idx : Int) (v : Val F) : Res (Heap F) :=
  match target with
  | .vector c => do
      vecIndexCheck heap target idx
      match heap[c]? with
      | some (.vec items) => .ok (heap.set c (.vec (items.set idx.toNat v)))
      | _ => .error .panic
  | _ => .error .panic

/-- `OpCode::OpIndexSet` (vm.rs:300-315). -/
def execIndexSet (prog : Program F) (vm : VM F) : Except (Stop F) (VM F) := do
  let (v, vm) ← vm.pop
  let (i, vm) ← vm.pop
  let idx ← i.takeInt.lift prog vm
  let (target, vm) ← vm.pop
  let heap ← (indexSet vm.world.heap target idx v).lift prog vm
  VM.advance { vm with world := { vm.world with heap := heap } }

/-- Base pointer and space for locals (vm.rs:358-365). -/
def prepareCall (vm : VM F) (func : AmaFunc) (args : Nat) : Except (Stop F) (AmaFunc × VM F) :=
  if args > 0 then
    if func.locals < args then .error (.panic vm)
    else .ok ({ func with bp := vm.sp - ((args : Int) - 1) }, vm.reserve (func.locals - args))
  else if func.locals > 0 then
    .ok ({ func with bp := vm.sp + 1 }, vm.reserve func.locals)
  else .ok (func, vm)

/-- Switch to the module of an imported function (vm.rs:368-370). -/
def switchModule (func : AmaFunc) (vm : VM F) : VM F :=
  match func.module with
  | .imported i => { vm with ctx := .imp i }
  | .main => vm

/-- `OpCode::CallFunction` for an `AmaValue::Func` (vm.rs:357-375), `args` arguments. -/
def callAma (prog : Program F) (vm : VM F) (func : AmaFunc) (args : Nat) :
    Except (Stop F) (VM F) := do
  let (func, vm) ← prepareCall vm func args
  let vm ← vm.advance
  let vm := switchModule func vm
  if vm.frames.length = recursionLimit then
    .error (throwErr prog vm "Limite máximo de recursão atingido")
  else .ok { vm with frames := func :: vm.frames }

/-- The arguments of a native call (vm.rs:377-382). -/
def nativeArgs (vm : VM F) (args : Nat) : Except (Stop F) (List (Val F) × VM F) :=
  if args > 0 then do
    let start := vm.sp - ((args : Int) - 1)
    let a ← orPanic (vm.slice start) vm
    .ok (a, { vm with sp := start - 1 })
  else .ok ([], vm)

/-- `OpCode::CallFunction` for an `AmaValue::NativeFn` (vm.rs:376-390). -/
def callNativeFn (cfg : Cfg) (prog : Program F) (vm : VM F) (module name : String) (args : Nat) :
    Except (Stop F) (VM F) := do
  let (fnArgs, vm) ← nativeArgs vm args
  match callNative cfg module name fnArgs vm.world with
  | .error (.err msg, w) => .error (throwErr prog { vm with world := w } msg)
  | .error (.panic, w) => .error (.panic { vm with world := w })
  | .ok (v, w) => do
      let vm ← { vm with world := w }.push v
      let vm ← vm.dropAbove
      vm.advance

/-- `OpCode::CallFunction` (vm.rs:353-393). -/
def execCall (cfg : Cfg) (prog : Program F) (vm : VM F) (args : Nat) : Except (Stop F) (VM F) := do
  let (f, vm) ← vm.pop
  match f with
  | .func func => callAma prog vm func args
  | .nativeFn module name => callNativeFn cfg prog vm module name args
  | _ => .error (.panic vm)

/-- `OpCode::Return` (vm.rs:394-407). -/
def execReturn (vm : VM F) : Except (Stop F) (VM F) := do
  let (v, vm) ← vm.pop
  match vm.frames with
  | [] => .error (.panic vm)
  | f :: fs => do
      let vm := { vm with sp := if f.bp > -1 then f.bp - 1 else vm.sp, frames := fs }
      let vm ← vm.push v
      match vm.frames with
      | [] => .error (.panic vm)
      | g :: _ => .ok { vm with ctx := g.module.ref }

/-- `OpCode::BuildStr` (vm.rs:408-419). -/
def execBuildStr (prog : Program F) (vm : VM F) (n : Nat) : Except (Stop F) (VM F) := do
  let start := vm.sp - ((n : Int) - 1)
  let parts ← orPanic (vm.slice start) vm
  let ss ← (parts.mapM (displayVal vm.world.heap)).lift prog vm
  let vm := { vm with sp := start - 1 }
  let vm ← vm.dropAbove
  let vm ← vm.push (.str (String.join ss))
  vm.advance

/-- `OpCode::BuildVec` (vm.rs:420-434). -/
def execBuildVec (vm : VM F) (n : Nat) : Except (Stop F) (VM F) :=
  if n = 0 then do
    let (heap, c) := alloc vm.world.heap (.vec [])
    let vm ← { vm with world := { vm.world with heap := heap } }.push (.vector c)
    vm.advance
  else do
    let start := vm.sp - ((n : Int) - 1)
    let items ← orPanic (vm.slice start) vm
    let (heap, c) := alloc vm.world.heap (.vec items)
    let vm ← { vm with sp := start - 1, world := { vm.world with heap := heap } }.push (.vector c)
    let vm ← vm.dropAbove
    vm.advance

/-- `OpCode::BuildObj` (vm.rs:435-460). -/
def execBuildObj (vm : VM F) (n : Nat) : Except (Stop F) (VM F) := do
  let (r, vm) ← vm.pop
  match r with
  | .registo reg =>
      if n = 0 then do
        let (heap, c) := alloc vm.world.heap (.obj reg [])
        let vm ← { vm with world := { vm.world with heap := heap } }.push (.regobj c)
        vm.advance
      else do
        let start := vm.sp - ((n : Int) * 2 - 1)
        let items ← orPanic (vm.slice start) vm
        let st ← orPanic (withFields items []) vm
        let (heap, c) := alloc vm.world.heap (.obj reg st)
        let vm ← { vm with values := vm.drainRange start, sp := start - 1,
                           world := { vm.world with heap := heap } }.push (.regobj c)
        vm.advance
  | _ => .error (.panic vm)

/-- `OpCode::BuildVariant` (vm.rs:461-473). -/
def execBuildVariant (cfg : Cfg) (prog : Program F) (vm : VM F) (n : Nat) :
    Except (Stop F) (VM F) := do
  let (t, vm) ← vm.pop
  let tag ← t.takeInt.lift prog vm
  let tag := (tag % 2 ^ 64).toNat
  if n = 0 then do
    let vm ← vm.push (.variant tag none)
    vm.advance
  else do
    let start := vm.sp - ((n : Int) - 1)
    let items ← orPanic (vm.slice start) vm
    if start = 0 ∧ cfg.debug then .error (.panic vm)
    else do
      let (heap, c) := alloc vm.world.heap (.payload items)
      let vm ← { vm with values := vm.drainRange start, sp := start - 1,
                         world := { vm.world with heap := heap } }.push (.variant tag (some c))
      vm.advance

/-- The loop of `OpCode::BindMatchArgs` (vm.rs:483-486). -/
def bindArgs (cfg : Cfg) (bp : Int) : List (Int × Val F) → List (Val F) → Option (List (Val F))
  | [], values => some values
  | (idx, v) :: rest, values => do
      let i ← localIndex cfg bp idx
      if i < values.length then bindArgs cfg bp rest (values.set i v) else none

/-- `OpCode::BindMatchArgs` (vm.rs:474-490). -/
def execBindMatchArgs (cfg : Cfg) (prog : Program F) (vm : VM F) (n : Nat) :
    Except (Stop F) (VM F) :=
  if n = 0 ∧ cfg.debug then .error (.panic vm)
  else do
    let start := vm.sp - ((n : Int) - 1)
    let items ← orPanic (vm.slice start) vm
    let idxs ← (items.mapM Val.takeInt).lift prog vm
    if start = 0 ∧ cfg.debug then .error (.panic vm)
    else do
      let vm := { vm with values := vm.drainRange start, sp := start - 1 }
      let (o, vm) ← vm.pop
      match o with
      | .variant _ (some c) =>
          match vm.world.heap[c]? with
          | some (.payload args) => do
              let f ← vm.top
              if idxs.length ≤ args.length then do
                let values ← orPanic (bindArgs cfg f.bp (idxs.zip args) vm.values) vm
                VM.advance { vm with values := values }
              else .error (.panic vm)
          | _ => .error (.panic vm)
      | _ => .error (.panic vm)

/-- `OpCode::GetProp` with `RegObj::get` (vm.rs:491-496, registo.rs:49-51). -/
def execGetProp (vm : VM F) : Except (Stop F) (VM F) := do
  let (field, vm) ← vm.pop
  let (r, vm) ← vm.pop
  match r, field with
  | .regobj c, .str k =>
      match vm.world.heap[c]? with
      | some (.obj _ st) => do
          let v ← orPanic (assocGet st k) vm
          let vm ← vm.push v
          vm.advance
      | _ => .error (.panic vm)
  | _, _ => .error (.panic vm)

/-- `OpCode::SetProp` with `RegObj::set` (vm.rs:497-503, registo.rs:53-55). -/
def execSetProp (vm : VM F) : Except (Stop F) (VM F) := do
  let (v, vm) ← vm.pop
  let (field, vm) ← vm.pop
  let (r, vm) ← vm.pop
  match r, field with
  | .regobj c, .str k =>
      match vm.world.heap[c]? with
      | some (.obj reg st) =>
          VM.advance { vm with world := { vm.world with heap := vm.world.heap.set c (.obj reg (assocSet st k v)) } }
      | _ => .error (.panic vm)
  | _, _ => .error (.panic vm)

def msgNullRef : String := "Não pode aceder uma referência nula"

/-- `OpCode::Unwrap` (vm.rs:504-523). -/
def execUnwrap (prog : Program F) (vm : VM F) (arg : Nat) : Except (Stop F) (VM F) :=
  if arg = 1 then do
    let (d, vm) ← vm.pop
    let (o, vm) ← vm.pop
    let vm ← vm.push (if o.isNone then d else o)
    vm.advance
  else do
    let (o, vm) ← vm.pop
    if o.isNone then .error (throwErr prog vm msgNullRef)
    else do
      let vm ← vm.push o
      vm.advance

/-- `OpCode::Cast` (vm.rs:524-545). -/
def execCast (prog : Program F) (vm : VM F) (arg : Nat) : Except (Stop F) (VM F) := do
  let (t, vm) ← vm.pop
  let newTy ← t.takeType.lift prog vm
  let (v, vm) ← vm.pop
  if arg = 0 then do
    let r ← (castVal vm.world.heap v newTy).lift prog vm
    let vm ← vm.push r
    vm.advance
  else if arg = 1 then do
    let vt ← v.getType.lift prog vm
    if checkCast vt newTy then do
      let vm ← vm.push v
      vm.advance
    else
      .error (throwErr prog vm ("Conversão inválida. O tipo original do valor é '" ++ vt.name ++
        "', mas tentou converter o valor para o tipo '" ++ newTy.name ++ "'"))
  else vm.advance

/-- `OpCode::Halt` and the `debug_assert!` after the loop (vm.rs:546, 550-554). -/
def execHalt (cfg : Cfg) (vm : VM F) : Except (Stop F) (VM F) :=
  if cfg.debug ∧ vm.frames.head?.map (·.name) ≠ some "_inicio_" then .error (.panic vm) else .error (.halt vm)

/-- The body of the `match` in `run` (vm.rs:184-547) followed by `ip += 1` (vm.rs:548)
where the branch does not `continue`.  `m` is `ctx_module`; operands are fetched and the
instruction pointer stands on the last operand byte. -/
def exec (cfg : Cfg) (prog : Program F) (m : Module F) (vm : VM F) (op : Op) (args : List Nat) :
    Except (Stop F) (VM F) :=
  match op with
  | .loadConst => do
      let idx ← operand args 0 vm
      let v ← orPanic m.constants[idx]? vm
      let vm ← vm.push v
      vm.advance
  | .loadName => do
      let idx ← operand args 0 vm
      let s ← orPanic m.names[idx]? vm
      let vm ← vm.push (.str s)
      vm.advance
  | .loadModuleDef => do
      let modIdx ← operand args 0 vm
      let d ← operand args 1 vm
      if modIdx < prog.imports.length then do
        let name ← orPanic m.names[d]? vm
        let v ← orPanic (assocGet vm.globals (.imp modIdx, name)) vm
        let vm ← vm.push v
        vm.advance
      else .error (.panic vm)
  | .loadRegisto => do
      let idx ← operand args 0 vm
      let r ← orPanic m.registos[idx]? vm
      let vm ← vm.push (.registo r)
      vm.advance
  | .mostra => do
      let (v, vm) ← vm.pop
      let s ← (displayVal vm.world.heap v).lift prog vm
      VM.advance { vm with world := { vm.world with out := vm.world.out ++ s ++ "\n" } }
  | .opAdd | .opMinus | .opMul | .opDiv | .opFloordiv | .opModulo | .opAnd | .opOr | .opEq
  | .opNoteq | .opGreater | .opGreatereq | .opLess | .opLesseq => execBin prog vm op
  | .matchVariant => do
      let tag ← operand args 0 vm
      let (o, vm) ← vm.pop
      match o with
      | .variant t _ => do
          let vm ← vm.push (.bool (decide (tag = t)))
          vm.advance
      | _ => .error (.panic vm)
  | .opIsnull => do
      let (v, vm) ← vm.pop
      let vm ← vm.push (.bool v.isNone)
      vm.advance
  | .opInvert | .opNot => execUnary cfg vm op
  | .opIndexGet => execIndexGet cfg prog vm
  | .opIndexSet => execIndexSet prog vm
  | .getGlobal => do
      let idx ← operand args 0 vm
      let name ← orPanic m.names[idx]? vm
      let v ← orPanic (assocGet vm.globals (vm.ctx, name)) vm
      let vm ← vm.push v
      vm.advance
  | .setGlobal => do
      let idx ← operand args 0 vm
      let name ← orPanic m.names[idx]? vm
      let (v, vm) ← vm.pop
      VM.advance { vm with globals := assocSet vm.globals (vm.ctx, name) v }
  | .jump => do
      let addr ← operand args 0 vm
      match vm.frames with
      | [] => .error (.panic vm)
      | f :: fs => .ok { vm with frames := { f with ip := addr } :: fs }
  | .jumpIfFalse => do
      let addr ← operand args 0 vm
      let (v, vm) ← vm.pop
      match v with
      | .bool false =>
          match vm.frames with
          | [] => .error (.panic vm)
          | f :: fs => .ok { vm with frames := { f with ip := addr } :: fs }
      | _ => vm.advance
  | .getLocal => do
      let idx ← operand args 0 vm
      let f ← vm.top
      let i ← orPanic (localIndex cfg f.bp idx) vm
      let v ← orPanic vm.values[i]? vm
      let vm ← vm.push v
      vm.advance
  | .setLocal => do
      let idx ← operand args 0 vm
      let f ← vm.top
      let i ← orPanic (localIndex cfg f.bp idx) vm
      let (v, vm) ← vm.pop
      if i < vm.values.length then VM.advance { vm with values := vm.values.set i v }
      else .error (.panic vm)
  | .callFunction => do
      let n ← operand args 0 vm
      execCall cfg prog vm n
  | .ret => execReturn vm
  | .buildStr => do
      let n ← operand args 0 vm
      execBuildStr prog vm n
  | .buildVec => do
      let n ← operand args 0 vm
      execBuildVec vm n
  | .buildObj => do
      let n ← operand args 0 vm
      execBuildObj vm n
  | .buildVariant => do
      let n ← operand args 0 vm
      execBuildVariant cfg prog vm n
  | .bindMatchArgs => do
      let n ← operand args 0 vm
      execBindMatchArgs cfg prog vm n
  | .getProp => execGetProp vm
  | .setProp => execSetProp vm
  | .opUnwrap => do
      let a ← operand args 0 vm
      execUnwrap prog vm a
  | .cast => do
      let a ← operand args 0 vm
      execCast prog vm a
  | .halt => execHalt cfg vm

/-- One round of the loop of `run` (vm.rs:178-549). -/
def step (cfg : Cfg) (prog : Program F) (vm : VM F) : Except (Stop F) (VM F) :=
  match prog.get vm.ctx, vm.frames with
  | some m, f :: fs =>
      match fetch m.code f.ip with
      | some (op, args, ipEnd) =>
          exec cfg prog m { vm with frames := { f with lastI := f.ip, ip := ipEnd } :: fs } op args
      | none => .error (.panic vm)
  | _, _ => .error (.panic vm)

/-- `Module::initialize` (module.rs:25-44); `none` is the panic for an unknown builtin. -/
def initModule (ref : ModRef) (m : Module F) (vm : VM F) : Option (VM F) :=
  if m.builtin then do
    let defs ← builtinDefs m.name
    some { vm with globals := defs.foldl (fun g (k, v) => assocSet g (ref, k) v) vm.globals }
  else
    some { vm with globals :=
      m.functions.foldl (fun g f => assocSet g (ref, f.name) (.func f)) vm.globals }

/-- `init` (vm.rs:103-107) with the frame stack empty, as it is at the start and after
`reset` (vm.rs:160-163). -/
def enter (ref : ModRef) (m : Module F) (vm : VM F) : VM F :=
  let sp : Int := (vm.values.length : Int) - 1
  { vm with ctx := ref, sp := sp,
            frames := [{ m.main with bp := if sp > -1 then 0 else -1 }] }

/-- How a run ends. -/
inductive Outcome (F : Type) where
  | done (vm : VM F)
  | err (msg : String) (vm : VM F)
  | panic (vm : VM F)
  | outOfFuel (vm : VM F)
  deriving Repr

/-- The loop of `run` (vm.rs:178-549) for at most `fuel` instructions. -/
def runLoop (cfg : Cfg) (prog : Program F) : Nat → VM F → Outcome F
  | 0, vm => .outOfFuel vm
  | fuel + 1, vm =>
      match step cfg prog vm with
      | .ok vm' => runLoop cfg prog fuel vm'
      | .error (.halt vm') => .done vm'
      | .error (.err msg vm') => .err msg vm'
      | .error (.panic vm') => .panic vm'

/-- `run` for one module: initialise, enter, loop (vm.rs:174-556). -/
def runModule (cfg : Cfg) (prog : Program F) (fuel : Nat) (ref : ModRef) (m : Module F)
    (vm : VM F) : Outcome F :=
  match initModule ref m vm with
  | none => .panic vm
  | some vm => runLoop cfg prog fuel (enter ref m vm)

/-- The import loop of `run` (vm.rs:167-173), starting with import number `i`.  The
`initialize` before the recursive `run` inserts the same entries as the one inside it. -/
def runImports (cfg : Cfg) (prog : Program F) (fuel : Nat) : Nat → List (Module F) → VM F → Outcome F
  | _, [], vm => .done vm
  | i, m :: ms, vm =>
      match runModule cfg prog fuel (.imp i) m vm with
      | .done vm => runImports cfg prog fuel (i + 1) ms vm
      | o => o

/-- `AmaVM::new` (vm.rs:89-101). -/
def VM.new (inp : List String) : VM F :=
  { frames := [], values := List.replicate defaultStackSize .none, sp := -1, ctx := .main,
    globals := [], world := { heap := [], out := "", inp := inp } }

/-- `AmaVM::new` and `run(&main_module)` (lib.rs:25-28, vm.rs:165-556), each module for at
most `fuel` instructions. -/
def runProgram (cfg : Cfg) (prog : Program F) (fuel : Nat) (inp : List String) : Outcome F :=
  match runImports cfg prog fuel 0 prog.imports (VM.new inp) with
  | .done vm => runModule cfg prog fuel .main prog.main vm
  | o => o

end

end Amanda

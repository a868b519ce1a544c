import Verif.Annot
import Verif.Opcode
import Verif.Bson

/-!
# Code generation: `ByteGen` (amanda/compiler/codegen.py)

Errors are Python exceptions: they stop the compiler.
-/

namespace Amanda

/-- Keys of the constant table (codegen.py:187, 459): Python keeps `1` and `"1"` apart. -/
inductive ConstKey where
  | str (s : String)
  | int (n : Int)
  deriving DecidableEq, Repr

/-- Entries of `funcs` (codegen.py:856-864); `module` is an index or `-1`. -/
structure FuncOut where
  name : String
  startIp : Nat
  locals : Nat
  module : Int
  deriving DecidableEq, Repr

/-- Entries of `registos` (codegen.py:975-980). -/
structure RegistoOut where
  name : String
  fields : List String
  deriving DecidableEq, Repr

/-- The attributes of `ByteGen` (codegen.py:180-201).  A dictionary whose values are
`0, 1, 2, …` in order of insertion is the list of its keys.  `loopStart` and `loopExit` are
`none` where the code has `-1`, which is not a label.  `finished` and `emitted` are history variables that
nothing reads: the tables `func_locals` had at the end of each function, and `lineno` and `ip` at the time of
each `append_op`. -/
structure Gen where
  depth : Int := -1
  scope : Option ScopeId := none
  funcLocals : List (String × Nat) := []
  consts : List ConstKey := []
  variants : List String := []
  names : List String := []
  labels : List Nat := []
  ops : List Ins := []
  funcs : List FuncOut := []
  registos : List RegistoOut := []
  ip : Nat := 0
  line : Int := -1
  loopStart : Option Nat := none
  loopExit : Option Nat := none
  srcMap : List (Int × List Nat) := []
  finished : List (List (String × Nat)) := []
  emitted : List (Int × Nat) := []
  deriving DecidableEq, Repr

/-- What does not change while one module is compiled: symbols and scopes, `ctx_module.fpath`,
`modules` (codegen.py:197, 201) and the path of the module of the built-in types
(types/builtins.py:9). -/
structure GenCtx where
  env : SymEnv
  modPath : String
  modules : List String
  builtinPath : String
  deriving DecidableEq, Repr

/-- Code generation steps: they may raise an exception and change `ByteGen`. -/
abbrev G (α : Type) := Gen → Except PyErr (α × Gen)

namespace G

/-- No effect. -/
def pure (a : α) : G α := fun s => .ok (a, s)

/-- One step after another. -/
def bind (m : G α) (f : α → G β) : G β := fun s =>
  match m s with
  | .ok (a, s') => f a s'
  | .error e => .error e

instance : Monad G where
  pure := G.pure
  bind := G.bind

/-- `raise`. -/
def raise (e : PyErr) : G α := fun _ => .error e

/-- Read `self`. -/
def get : G Gen := fun s => .ok (s, s)

/-- Change `self`. -/
def modify (f : Gen → Gen) : G Unit := fun s => .ok ((), f s)

/-- A lookup that raises the given exception when there is nothing. -/
def need (o : Option α) (exc : String) : G α :=
  match o with
  | some a => pure a
  | none => raise (.exc exc)

end G

namespace Codegen

/-- `d[k]` of a list of pairs with distinct keys. -/
def lookup (d : List (String × Nat)) (k : String) : Option Nat := (d.find? (·.1 == k)).map (·.2)

/-- `d[k] = v`: an existing key keeps its place. -/
def store (d : List (String × Nat)) (k : String) (v : Nat) : List (String × Nat) :=
  if (lookup d k).isSome then d.map fun p => if p.1 == k then (k, v) else p else d ++ [(k, v)]

/-- `new_label` (codegen.py:305-308). -/
def newLabel : G Nat := fun s => .ok (s.labels.length, { s with labels := s.labels ++ [s.ip] })

/-- `patch_label_loc` (codegen.py:310-315); it is only called with labels that exist. -/
def patchLabel (l : Nat) : G Unit := fun s =>
  if s.ip > 2 ^ 64 - 1 then .error (.exc "Exception")
  else .ok ((), { s with labels := s.labels.set l s.ip })

/-- The update of `src_map` in `append_op` (codegen.py:318-325). -/
def noteLine (line : Int) (ip : Nat) : List (Int × List Nat) → List (Int × List Nat)
  | [] => [(line, [ip])]
  | (l, offs) :: rest =>
      if l = line then
        (l, match offs with
          | [] => [ip]
          | [a] => [a, ip]
          | a :: b :: more => if b < ip then a :: ip :: more else a :: b :: more) :: rest
      else (l, offs) :: noteLine line ip rest

/-- `append_op` (codegen.py:317-327). -/
def emit (op : Op) (args : List Nat := []) : G Unit := fun s =>
  .ok ((), { s with
    srcMap := noteLine s.line s.ip s.srcMap
    ip := s.ip + op.size
    ops := s.ops ++ [⟨op, args⟩]
    emitted := s.emitted ++ [(s.line, s.ip)] })

/-- Position of an item in a table. -/
def indexIn [DecidableEq α] (x : α) : List α → Option Nat
  | [] => none
  | y :: ys => if y = x then some 0 else (indexIn x ys).map (· + 1)

/-- The index an item has or gets in a table, and the table with the item (codegen.py:462-466). -/
def tableIndex [DecidableEq α] (x : α) (tab : List α) : Nat × List α :=
  match indexIn x tab with
  | some i => (i, tab)
  | none => (tab.length, tab ++ [x])

/-- The assertion of `get_table_index` (codegen.py:467-469). -/
def checkIndex (i : Nat) : G Nat :=
  if i < 2 ^ 16 - 1 then G.pure i else G.raise (.exc "AssertionError")

/-- `get_table_index(item, CONST_TABLE)` (codegen.py:459-470). -/
def constIndex (c : ConstKey) : G Nat := do
  let i ← (fun s => .ok ((tableIndex c s.consts).1, { s with consts := (tableIndex c s.consts).2 }) : G Nat)
  checkIndex i

/-- `get_table_index(item, NAME_TABLE)` (codegen.py:459-470). -/
def nameIndex (n : String) : G Nat := do
  let i ← (fun s => .ok ((tableIndex n s.names).1, { s with names := (tableIndex n s.names).2 }) : G Nat)
  checkIndex i

/-- `load_const` (codegen.py:329-332). -/
def loadConst (c : ConstKey) : G Unit := do
  let i ← constIndex c
  emit .loadConst [i]

/-- `load_name` (codegen.py:334-337). -/
def loadName (n : String) : G Unit := do
  let i ← nameIndex n
  emit .loadName [i]

/-- `load_variable` (codegen.py:478-494). -/
def loadVariable (ctx : GenCtx) (sym : SymRef) : G Unit := do
  let i ← nameIndex sym.name
  if sym.modPath ≠ ctx.modPath then do
    let m ← G.need (indexIn sym.modPath ctx.modules) "KeyError"
    emit .loadModuleDef [m, i]
  else if sym.isGlobal then emit .getGlobal [i]
  else do
    let s ← G.get
    let l ← G.need (lookup s.funcLocals sym.outId) "KeyError"
    emit .getLocal [l]

/-- `declare_local` (codegen.py:560-563). -/
def declareLocal (sym : SymRef) : G Nat := fun s =>
  .ok (s.funcLocals.length, { s with funcLocals := store s.funcLocals sym.outId s.funcLocals.length })

/-- The slot of a local variable, declared when it has none (codegen.py:555-558). -/
def localSlot (sym : SymRef) : G Nat := do
  let s ← G.get
  match lookup s.funcLocals sym.outId with
  | some l => G.pure l
  | none => declareLocal sym

/-- `set_variable` (codegen.py:549-558). -/
def setVariable (sym : SymRef) : G Unit := do
  if sym.isGlobal then do
    let i ← nameIndex sym.name
    emit .setGlobal [i]
  else do
    let l ← localSlot sym
    emit .setLocal [l]

/-- A symbol of the table; the numbers in a tree are those of existing symbols, anything else
is Python's `None`. -/
def symOf (ctx : GenCtx) (id : Option SymId) : G Sym :=
  G.need (id.bind fun i => ctx.env.syms[i]?) "AttributeError"

/-- A type as a symbol (symbols/base.py:56-63, types/core.py:48-56, 262-275, 566-570): named, global
and declared in some module.  Vectors are never loaded. -/
def tyRef (ctx : GenCtx) (t : Ty) : SymRef :=
  { name := t.name, outId := t.name, isGlobal := true
    modPath := match t with
      | .prim _ => ctx.builtinPath
      | .registo m _ | .uniao m _ | .app m _ _ => m
      | _ => ctx.modPath }

/-- `gen_auto_cast` (codegen.py:911-915). -/
def autoCast (ctx : GenCtx) (prom : Ty) : G Unit :=
  if prom = .real then do
    loadVariable ctx (tyRef ctx prom)
    emit .cast [0]
  else G.pure ()

/-- The operator of a `BinOp` (codegen.py:623-651). -/
def binOpcode : TT → Option Op
  | .plus => some .opAdd
  | .minus => some .opMinus
  | .star => some .opMul
  | .slash => some .opDiv
  | .doubleslash => some .opFloordiv
  | .modulo => some .opModulo
  | .e => some .opAnd
  | .ou => some .opOr
  | .doubleequal => some .opEq
  | .notequal => some .opNoteq
  | .greater => some .opGreater
  | .greatereq => some .opGreatereq
  | .less => some .opLess
  | .lesseq => some .opLesseq
  | _ => none

/-- The operator of a `UnaryOp` (codegen.py:584-592). -/
def unOpcode : TT → Option Op
  | .minus => some .opInvert
  | .nao => some .opNot
  | _ => none

/-- `self.lineno = node.lineno` (codegen.py:426). -/
def setLine (line : Nat) : G Unit := G.modify fun s => { s with line := line }

/-- `enter_block` (codegen.py:433-435). -/
def enterBlock (sc : ScopeId) : G Unit :=
  G.modify fun s => { s with depth := s.depth + 1, scope := some sc }

/-- `exit_block` (codegen.py:437-440). -/
def exitBlock (ctx : GenCtx) : G Unit :=
  G.modify fun s =>
    { s with depth := s.depth - 1, scope := (s.scope.bind (ctx.env.scopes[·]?)).bind (·.parent) }

/-- The choice made by the match in `gen_binop` (codegen.py:595-620): which operand is compared
with `nulo` and whether the answer is negated. -/
def nullTest (op : TT) (lty rty : Ty) : Option (Bool × Bool) :=
  if op = .doubleequal then
    if lty = .nulo then some (false, false)
    else if rty = .nulo then some (true, false)
    else none
  else if op = .notequal then
    if lty = .nulo then some (false, true)
    else if rty = .nulo then some (true, true)
    else none
  else none

/-- `init_values` (codegen.py:536-541, 545). -/
def initConst (ty : Ty) : ConstKey :=
  if ty.str = "int" then .int 0
  else if ty.str = "real" then .str "0.0"
  else if ty.str = "bool" then .str "falso"
  else if ty.str = "texto" then .str "''"
  else .str "falso"

/-- `get_variant_index` (codegen.py:454-457). -/
def variantIndex (v : VariantRef) : G Unit :=
  G.modify fun s => { s with variants := (tableIndex v.id s.variants).2 }

/-- `uniao_variants[variant_id]` (codegen.py:519, 779). -/
def variantTag (v : VariantRef) : G Nat := do
  let s ← G.get
  G.need (indexIn v.id s.variants) "KeyError"

/-- `gen_path` (codegen.py:512-526). -/
def genPath (variant : Option VariantRef) : G Unit := do
  let v ← G.need variant "ValueError"
  let tag ← variantTag v
  loadConst (.int tag)
  if v.arity = 0 then emit .buildVariant [0] else G.pure ()

/-- `gen_iguala_test` (codegen.py:768-782). -/
def genTest (ctx : GenCtx) (subject : SymId) (c : ConsRef) : G Unit := do
  let v ← symOf ctx (some subject)
  loadVariable ctx v.toSymRef
  match c with
  | .int n => do
      loadConst (.int n)
      emit .opEq
  | .str s => do
      loadConst (.str s)
      emit .opEq
  | .variant w => do
      let tag ← variantTag w
      emit .matchVariant [tag]
  | .other => G.raise (.exc "NotImplementedError")

/-- The loop over the arguments in `gen_iguala_case_bindings` (codegen.py:791-794). -/
def genMatchArgs (ctx : GenCtx) : List SymId → G Unit
  | [] => G.pure ()
  | a :: rest => do
      let v ← symOf ctx (some a)
      let idx ← declareLocal v.toSymRef
      loadConst (.int idx)
      genMatchArgs ctx rest

/-- `gen_iguala_case_bindings` (codegen.py:784-797). -/
def genCaseBindings (ctx : GenCtx) (subject : SymId) (c : ConsRef) (args : List SymId) : G Unit := do
  let v ← symOf ctx (some subject)
  loadVariable ctx v.toSymRef
  match c with
  | .variant _ =>
      if args.isEmpty then G.pure ()
      else do
        genMatchArgs ctx args
        emit .bindMatchArgs [args.length]
  | _ => G.pure ()

/-- The bindings of an arm (codegen.py:756-760). -/
def genArmBindings (ctx : GenCtx) (scope : ScopeId) : List (String × SymId) → G Unit
  | [] => G.pure ()
  | (name, id) :: rest => do
      let v ← symOf ctx (some id)
      loadVariable ctx v.toSymRef
      let b ← G.need ((ctx.env.resolve (some scope) name).bind (ctx.env.syms[·]?)) "ValueError"
      setVariable b.toSymRef
      genArmBindings ctx scope rest

/-- The parameters as first locals (codegen.py:837-840). -/
def paramLocals (ctx : GenCtx) : List SymId → List (String × Nat) → Except PyErr (List (String × Nat))
  | [], acc => .ok acc
  | p :: ps, acc =>
      match ctx.env.syms[p]? with
      | none => .error (.exc "AttributeError")
      | some sym => paramLocals ctx ps (store acc sym.outId acc.length)

/-- What follows the callee in `gen_call` (codegen.py:876-883). -/
def genCallOp (ctx : GenCtx) (sym : Sym) (n : Nat) (prom : Ty) : G Unit :=
  match sym.kind with
  | .variant => emit .buildVariant [n]
  | .type | .prim => do
      emit .buildObj [n]
      autoCast ctx prom
  | _ => do
      emit .callFunction [n]
      autoCast ctx prom

/-- `gen_loopctlstmt` (codegen.py:940-945).  The jump to label `-1` fails when it is written
(codegen.py:354); here it fails at once. -/
def genLoopCtl (isBreak : Bool) : G Unit := do
  let s ← G.get
  let l ← G.need (if isBreak then s.loopExit else s.loopStart) "KeyError"
  emit .jump [l]

/-- The end of `gen_functiondecl` (codegen.py:847-864). -/
def endFunc (ctx : GenCtx) (sym : Sym) (funcEnd funcStart : Nat) (prev : List (String × Nat)) : G Unit := do
  loadConst (.str "falso")
  emit .ret
  let s ← G.get
  let numLocals := s.funcLocals.length
  G.modify fun s => { s with funcLocals := prev, finished := s.finished ++ [s.funcLocals] }
  patchLabel funcEnd
  let s ← G.get
  let start ← G.need s.labels[funcStart]? "KeyError"
  let module : Int := match indexIn sym.modPath ctx.modules with
    | some i => i
    | none => -1
  G.modify fun s => { s with funcs := s.funcs ++ [⟨sym.name, start, numLocals, module⟩] }

/-- `gen_registo` (codegen.py:972-982). -/
def genRegisto (ctx : GenCtx) (name : String) (fields : List String) : G Unit := do
  let _ ← nameIndex name
  let s ← G.get
  G.modify fun s => { s with registos := s.registos ++ [⟨name, fields⟩] }
  emit .loadRegisto [s.registos.length]
  let sym ← symOf ctx (ctx.env.resolve s.scope name)
  setVariable sym.toSymRef

/-- The loop over the variants in `gen_uniao` (codegen.py:988-989). -/
def genVariants : List VariantRef → G Unit
  | [] => G.pure ()
  | v :: vs => do
      variantIndex v
      genVariants vs

/-- `ctx_loop_exit` and `ctx_loop_start` of a loop (codegen.py:681-690, 707-710). -/
def setLoop (start exit : Option Nat) : G Unit :=
  G.modify fun s => { s with loopStart := start, loopExit := exit }

/-! The `gen_…` methods.  Where Python calls `self.gen(child)`, these take the code generation of
the child as an argument; `genExpr` and `genStmt` below tie the knot. -/

/-- `gen_constant` (codegen.py:472-476). -/
def genConstant (ctx : GenCtx) (lexeme : String) (prom : Ty) : G Unit := do
  loadConst (.str lexeme)
  autoCast ctx prom

/-- `gen_fmtstr` (codegen.py:935-938). -/
def genFmtStr (parts : G Unit) (n : Nat) : G Unit := do
  parts
  emit .buildStr [n]

/-- `gen_variable` (codegen.py:499-510). -/
def genVariable (ctx : GenCtx) (name : String) (sym : Option SymId) (prom : Ty) : G Unit := do
  let s ← G.get
  let v ← symOf ctx (sym.orElse fun _ => ctx.env.resolve s.scope name)
  loadVariable ctx v.toSymRef
  autoCast ctx prom

/-- `gen_converta` (codegen.py:899-909). -/
def genConverta (ctx : GenCtx) (target : G Unit) (fromTy toTy : Ty) : G Unit := do
  target
  if toTy.eqv fromTy || toTy.eqv .indef then G.pure ()
  else do
    loadVariable ctx (tyRef ctx toTy)
    emit .cast [if fromTy.eqv .indef then 1 else 0]

/-- `gen_alvo` (codegen.py:921-922). -/
def genAlvo (ctx : GenCtx) (sym : SymId) : G Unit := do
  let v ← symOf ctx (some sym)
  loadVariable ctx v.toSymRef

/-- The comparison with `nulo` (codegen.py:598-620). -/
def genNullTest (operand : G Unit) (neg : Bool) : G Unit := do
  operand
  emit .opIsnull
  if neg then emit .opNot else G.pure ()

/-- The other operators (codegen.py:621-652). -/
def genOperator (ctx : GenCtx) (op : TT) (left right : G Unit) (prom : Ty) : G Unit := do
  left
  right
  let o ← G.need (binOpcode op) "NotImplementedError"
  emit o
  autoCast ctx prom

/-- `gen_binop` (codegen.py:595-652). -/
def genBinop (ctx : GenCtx) (op : TT) (left right : G Unit) (lty rty prom : Ty) : G Unit :=
  match nullTest op lty rty with
  | some (true, neg) => genNullTest left neg
  | some (false, neg) => genNullTest right neg
  | none => genOperator ctx op left right prom

/-- `gen_unaryop` (codegen.py:582-593). -/
def genUnaryop (ctx : GenCtx) (op : TT) (operand : G Unit) (prom : Ty) : G Unit := do
  operand
  let o ← G.need (unOpcode op) "NotImplementedError"
  emit o
  autoCast ctx prom

/-- `isinstance(expr, ast.Assign)` and `expr.left.var_symbol` (codegen.py:571-572). -/
def assignedSym : TExpr → Option SymId
  | .assign _ s _ => some s
  | _ => none

/-- What an assignment on the right side leaves is its variable (codegen.py:570-574). -/
def genChain (ctx : GenCtx) : Option SymId → G Unit
  | some inner => do
      let v ← symOf ctx (some inner)
      loadVariable ctx v.toSymRef
  | none => G.pure ()

/-- `gen_assign` (codegen.py:567-580); `chained` is the variable of an assignment on the right
side. -/
def genAssign (ctx : GenCtx) (right : G Unit) (chained : Option SymId) (sym : SymId) : G Unit := do
  right
  genChain ctx chained
  let v ← symOf ctx (some sym)
  setVariable v.toSymRef

/-- `gen_call` (codegen.py:869-883). -/
def genCall (ctx : GenCtx) (callee args : G Unit) (n : Nat) (sym : SymId) (prom : Ty) : G Unit := do
  args
  callee
  let f ← symOf ctx (some sym)
  genCallOp ctx f n prom

/-- `gen_listliteral` (codegen.py:947-951). -/
def genList (elements : G Unit) (n : Nat) : G Unit := do
  elements
  emit .buildVec [n]

/-- `gen_namedarg` (codegen.py:885-887). -/
def genNamed (name : String) (arg : G Unit) : G Unit := do
  loadName name
  arg

/-- `gen_get` (codegen.py:953-959). -/
def genGet (target : G Unit) (member : String) (inSet : Bool) : G Unit := do
  target
  loadName member
  if inSet then G.pure () else emit .getProp

/-- `gen_indexget` (codegen.py:924-928). -/
def genIndexGet (target index : G Unit) : G Unit := do
  target
  index
  emit .opIndexGet

/-- `gen_indexset` (codegen.py:930-933). -/
def genIndexSet (target index value : G Unit) : G Unit := do
  target
  index
  value
  emit .opIndexSet

/-- `gen_set` (codegen.py:961-964). -/
def genSet (target expr : G Unit) : G Unit := do
  target
  expr
  emit .setProp

/-- `gen_unwrap` (codegen.py:966-970). -/
def genUnwrap (option : G Unit) : Option (G Unit) → G Unit
  | none => do
      option
      emit .opUnwrap [0]
  | some d => do
      option
      d
      emit .opUnwrap [1]

/-- `gen_yieldblock` and `compile_block` (codegen.py:442-452). -/
def genScoped (ctx : GenCtx) (scope : ScopeId) (body : G Unit) : G Unit := do
  enterBlock scope
  body
  exitBlock ctx

/-- The success case of `gen_iguala_from_ir` (codegen.py:755-761). -/
def genSuccess (ctx : GenCtx) (bindings : List (String × SymId)) (line : Nat) (scope : ScopeId)
    (body : G Unit) : G Unit := do
  genArmBindings ctx scope bindings
  setLine line
  genScoped ctx scope body

/-- One case: test, bindings, body, jump over the rest (codegen.py:805-813, 817-823). -/
def genCaseCode (ctx : GenCtx) (subject : SymId) (cons : ConsRef) (args : List SymId) (body : G Unit)
    (afterIf after : Nat) : G Unit := do
  genTest ctx subject cons
  emit .jumpIfFalse [after]
  genCaseBindings ctx subject cons args
  body
  emit .jump [afterIf]
  patchLabel after

/-- `gen_iguala_cases` (codegen.py:799-825). -/
def genSwitch (first : Nat → Nat → G Unit) (rest : Nat → G Unit) : G Unit := do
  let afterIf ← newLabel
  let afterBlock ← newLabel
  first afterIf afterBlock
  rest afterIf
  patchLabel afterIf

/-- `gen_vardecl` without a value (codegen.py:531, 544-547). -/
def genDeclare (ctx : GenCtx) (name : String) (ty : Ty) : G Unit := do
  let s ← G.get
  loadConst (initConst ty)
  let v ← symOf ctx (ctx.env.resolve s.scope name)
  setVariable v.toSymRef

/-- `gen_retorna` (codegen.py:889-894). -/
def genRetorna : Option (G Unit) → G Unit
  | some e => do
      e
      emit .ret
  | none => do
      loadConst (.str "falso")
      emit .ret

/-- `gen_mostra` (codegen.py:917-919). -/
def genMostra (e : G Unit) : G Unit := do
  e
  emit .mostra

/-- One conditional branch of `gen_se` (codegen.py:661-665, 669-673). -/
def genBranch (cond body : G Unit) (afterIf after : Nat) : G Unit := do
  cond
  emit .jumpIfFalse [after]
  body
  emit .jump [afterIf]
  patchLabel after

/-- A `senaose` branch and those after it (codegen.py:667-673). -/
def genElsif (cond body : G Unit) (afterIf : Nat) (rest : G Unit) : G Unit := do
  let after ← newLabel
  genBranch cond body afterIf after
  rest

/-- `gen_se` (codegen.py:654-678). -/
def genSe (cond thenB : G Unit) (elsifs : Nat → G Unit) (elseB : G Unit) : G Unit := do
  let afterIf ← newLabel
  let afterThen ← newLabel
  genBranch cond thenB afterIf afterThen
  elsifs afterIf
  elseB
  patchLabel afterIf

/-- The loop between its labels (codegen.py:692-705). -/
def genLoopBody (ctx : GenCtx) (scope : ScopeId) (cond body : G Unit) (afterLoop loop : Nat) : G Unit := do
  enterBlock scope
  patchLabel loop
  cond
  emit .jumpIfFalse [afterLoop]
  body
  emit .jump [loop]
  patchLabel afterLoop
  exitBlock ctx

/-- `gen_enquanto` (codegen.py:680-710). -/
def genEnquanto (ctx : GenCtx) (scope : ScopeId) (cond body : G Unit) : G Unit := do
  let afterLoop ← newLabel
  let s ← G.get
  let loop ← newLabel
  setLoop (some loop) (some afterLoop)
  genLoopBody ctx scope cond body afterLoop loop
  setLoop s.loopStart s.loopExit

/-- The step of a `para` loop (codegen.py:736-743). -/
def genParaStep (ctx : GenCtx) (control : SymRef) (inc : G Unit) : G Unit := do
  inc
  loadVariable ctx control
  emit .opAdd
  setVariable control

/-- The condition of a `para` loop (codegen.py:728-732). -/
def genParaTest (ctx : GenCtx) (control : SymRef) (stop : G Unit) (afterLoop : Nat) : G Unit := do
  loadVariable ctx control
  stop
  emit .opLess
  emit .jumpIfFalse [afterLoop]

/-- `gen_para` (codegen.py:714-748). -/
def genPara (ctx : GenCtx) (name : String) (scope : ScopeId) (start stop inc body : G Unit) : G Unit := do
  let afterLoop ← newLabel
  let loop ← newLabel
  enterBlock scope
  start
  let control ← symOf ctx (ctx.env.resolve (some scope) name)
  setVariable control.toSymRef
  patchLabel loop
  genParaTest ctx control.toSymRef stop afterLoop
  body
  genParaStep ctx control.toSymRef inc
  emit .jump [loop]
  patchLabel afterLoop
  exitBlock ctx

/-- The increment of a `para` loop (codegen.py:737-740). -/
def genInc : Option (G Unit) → G Unit
  | none => loadConst (.int 1)
  | some e => e

/-- The locals of a function start with its parameters (codegen.py:835-840). -/
def startLocals (ctx : GenCtx) (params : List SymId) : G Unit := fun s =>
  (paramLocals ctx params []).map fun l => ((), { s with funcLocals := l })

/-- The body of a function, which a built-in one does not have (codegen.py:842-846). -/
def genFuncBody (ctx : GenCtx) (builtin : Bool) (scope : ScopeId) (body : G Unit) : G Unit :=
  if builtin then G.pure () else genScoped ctx scope body

/-- `gen_functiondecl`, `gen_methoddecl` (codegen.py:827-867). -/
def genFunc (ctx : GenCtx) (sym : SymId) (scope : ScopeId) (body : G Unit) : G Unit := do
  let f ← symOf ctx (some sym)
  let _ ← nameIndex f.name
  let funcEnd ← newLabel
  emit .jump [funcEnd]
  let funcStart ← newLabel
  let s ← G.get
  startLocals ctx f.params
  genFuncBody ctx f.builtin scope body
  endFunc ctx f funcEnd funcStart s.funcLocals

/-- `gen_uniao` (codegen.py:984-989). -/
def genUniao (name : String) (variants : List VariantRef) : G Unit := do
  let _ ← nameIndex name
  genVariants variants

/-- `gen`: the line of the node, then its method (codegen.py:422-431). -/
def atLine (line : Nat) (m : G Unit) : G Unit := do
  setLine line
  m

mutual
/-- `gen` on expressions (codegen.py:422-431). -/
def genExpr (ctx : GenCtx) : TExpr → G Unit
  | .const line lexeme prom => atLine line (genConstant ctx lexeme prom)
  | .fmtStr line parts => atLine line (genFmtStr (genExprs ctx parts) parts.length)
  | .var line name sym prom => atLine line (genVariable ctx name sym prom)
  | .converta line target fromTy toTy => atLine line (genConverta ctx (genExpr ctx target) fromTy toTy)
  | .alvo line sym => atLine line (genAlvo ctx sym)
  | .bin line op left right lty rty prom =>
      atLine line (genBinop ctx op (genExpr ctx left) (genExpr ctx right) lty rty prom)
  | .un line op operand prom => atLine line (genUnaryop ctx op (genExpr ctx operand) prom)
  | .assign line sym right =>
      atLine line (genAssign ctx (genExpr ctx right) (assignedSym right) sym)
  | .iguala line decision => atLine line (genDecision ctx decision)
  | .call line callee args sym prom =>
      atLine line (genCall ctx (genExpr ctx callee) (genExprs ctx args) args.length sym prom)
  | .list line elements => atLine line (genList (genExprs ctx elements) elements.length)
  | .named line name arg => atLine line (genNamed name (genExpr ctx arg))
  | .get line target member inSet => atLine line (genGet (genExpr ctx target) member inSet)
  | .index line target index => atLine line (genIndexGet (genExpr ctx target) (genExpr ctx index))
  | .indexSet line target index value =>
      atLine line (genIndexSet (genExpr ctx target) (genExpr ctx index) (genExpr ctx value))
  | .set line target expr => atLine line (genSet (genExpr ctx target) (genExpr ctx expr))
  | .unwrap line option default => atLine line (genUnwrap (genExpr ctx option) (genOpt ctx default))
  | .path line variant => atLine line (genPath variant)
/-- `gen` on a child that may be missing. -/
def genOpt (ctx : GenCtx) : Option TExpr → Option (G Unit)
  | none => none
  | some e => some (genExpr ctx e)
/-- `gen` on each expression of a list. -/
def genExprs (ctx : GenCtx) : List TExpr → G Unit
  | [] => G.pure ()
  | e :: es => do
      genExpr ctx e
      genExprs ctx es
/-- `gen_iguala_from_ir` (codegen.py:753-766). -/
def genDecision (ctx : GenCtx) : Decision → G Unit
  | .success bindings line scope body => genSuccess ctx bindings line scope (genStmts ctx body)
  | .switch subject (c :: cs) _ =>
      genSwitch (fun a b => genCase ctx subject c a b) (fun a => genCases ctx subject a cs)
  | .switch _ [] _ => G.raise (.exc "IndexError")
  | .fail => G.raise (.exc "NotImplementedError")
/-- One case of a decision. -/
def genCase (ctx : GenCtx) (subject : SymId) : DCase → Nat → Nat → G Unit
  | .mk cons args body, afterIf, after =>
      genCaseCode ctx subject cons args (genDecision ctx body) afterIf after
/-- The loop of `gen_iguala_cases` (codegen.py:815-823). -/
def genCases (ctx : GenCtx) (subject : SymId) (afterIf : Nat) : List DCase → G Unit
  | [] => G.pure ()
  | c :: cs => do
      let after ← newLabel
      genCase ctx subject c afterIf after
      genCases ctx subject afterIf cs
/-- `gen` on statements (codegen.py:422-431). -/
def genStmt (ctx : GenCtx) : TStmt → G Unit
  | .expr e => genExpr ctx e
  | .varDecl line _ _ (some (.mk sym right)) =>
      atLine line (genAssign ctx (genExpr ctx right) (assignedSym right) sym)
  | .varDecl line name ty none => atLine line (genDeclare ctx name ty)
  | .loopCtl line isBreak => atLine line (genLoopCtl isBreak)
  | .retorna line e => atLine line (genRetorna (genOpt ctx e))
  | .produz line e => atLine line (genExpr ctx e)
  | .mostra line e => atLine line (genMostra (genExpr ctx e))
  | .se line cond thenB elsifs elseB =>
      atLine line (genSe (genExpr ctx cond) (genBlock ctx thenB) (fun a => genElses ctx a elsifs)
        (genOptBlock ctx elseB))
  | .enquanto line cond (.mk scope body) =>
      atLine line (genEnquanto ctx scope (genExpr ctx cond) (genStmts ctx body))
  | .para line name start stop inc (.mk scope body) =>
      atLine line (genPara ctx name scope (genExpr ctx start) (genExpr ctx stop)
        (genInc (genOpt ctx inc)) (genStmts ctx body))
  | .func line sym (.mk scope body) => atLine line (genFunc ctx sym scope (genStmts ctx body))
  | .registo line name fields => atLine line (genRegisto ctx name fields)
  | .uniao line name variants => atLine line (genUniao name variants)
  -- gen_usa, gen_noop (496-497, 991-992)
  | .noop line => setLine line
/-- `gen` on each child of a block. -/
def genStmts (ctx : GenCtx) : List TStmt → G Unit
  | [] => G.pure ()
  | s :: ss => do
      genStmt ctx s
      genStmts ctx ss
/-- `compile_block` (codegen.py:442-446). -/
def genBlock (ctx : GenCtx) : TBlock → G Unit
  | .mk scope body => genScoped ctx scope (genStmts ctx body)
/-- A block that may be missing (codegen.py:675-676). -/
def genOptBlock (ctx : GenCtx) : Option TBlock → G Unit
  | none => G.pure ()
  | some b => genBlock ctx b
/-- The loop over the `senaose` branches (codegen.py:667-673). -/
def genElses (ctx : GenCtx) (afterIf : Nat) : List TElse → G Unit
  | [] => G.pure ()
  | .mk cond body :: rest =>
      genElsif (genExpr ctx cond) (genBlock ctx body) afterIf (genElses ctx afterIf rest)
end

end Codegen

end Amanda

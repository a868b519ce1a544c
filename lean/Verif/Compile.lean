import Verif.Codegen

/-!
# Whole modules: `ByteGen.compile` (amanda/compiler/codegen.py:203-303)
-/

namespace Amanda

namespace Codegen

open Bson (Bson)

/-- A checked and transformed module (compiler/module.py:6-12): its path, whether it is built in,
the scope `ast.symbols` and the statements `ast.children`. -/
structure ModuleIn where
  path : String
  builtin : Bool
  scope : ScopeId
  body : List TStmt

/-- The dictionary made by `compile` and `compile_builtin` (codegen.py:210-221, 289-300). -/
structure ModuleOut where
  name : String
  builtin : Bool
  entryLocals : Nat
  consts : List ConstKey
  names : List String
  code : Bson.Bytes
  funcs : List FuncOut
  registos : List RegistoOut
  srcMap : List Int
  deriving DecidableEq, Repr

/-- `path.split(p)[1]`: what follows the last `/`. -/
def baseName (p : List Char) : List Char :=
  (p.reverse.takeWhile (· ≠ '/')).reverse

/-- `s.replace(".ama", "")`. -/
def dropAma : List Char → List Char
  | '.' :: 'a' :: 'm' :: 'a' :: rest => dropAma rest
  | c :: rest => c :: dropAma rest
  | [] => []

/-- `path.split(fpath)[1].replace(".ama", "")` (codegen.py:211, 290). -/
def moduleName (fpath : String) : String := String.ofList (dropAma (baseName fpath.toList))

/-- Whether a global goes into the name table at the start (codegen.py:238-242, 246-248). -/
def namedAtStart (sym : Sym) : Bool :=
  match sym.kind with
  | .var | .func | .prim => true
  | _ => false

/-- The loop over the global symbols (codegen.py:246-248). -/
def genGlobals (ctx : GenCtx) : List (String × SymId) → G Unit
  | [] => G.pure ()
  | (name, id) :: rest => do
      let sym ← symOf ctx (some id)
      if namedAtStart sym then do
        let _ ← nameIndex name
        genGlobals ctx rest
      else genGlobals ctx rest

/-- `compile` up to the `HALT` (codegen.py:234-268). -/
def genModule (ctx : GenCtx) (m : ModuleIn) : G Unit := do
  let _ ← constIndex (.str "verdadeiro")
  let _ ← constIndex (.str "falso")
  let tab ← G.need ctx.env.scopes[m.scope]? "AttributeError"
  genGlobals ctx tab.symbols
  enterBlock m.scope
  genStmts ctx m.body
  exitBlock ctx
  let s ← G.get
  if s.depth = -1 then do
    setLine 0
    emit .halt
  else G.raise (.exc "AssertionError")

/-- Exceptions while instructions are written (codegen.py:348-376). -/
def encErr : EncErr → PyErr
  | .indexError => .exc "IndexError"
  | .keyError => .exc "KeyError"
  | .valueError => .exc "ValueError"
  | .structError => .exc "struct.error"

/-- One entry of the source map (codegen.py:277-288): start, end and line. -/
def srcEntry (line : Int) : List Nat → Except PyErr (List Int)
  | [a] => .ok [(a : Int), a, line]
  | [a, b] => .ok [(a : Int), b, line]
  | _ => .error (.exc "AssertionError")

/-- The loop that flattens the source map (codegen.py:276-288). -/
def flattenSrc : List (Int × List Nat) → Except PyErr (List Int)
  | [] => .ok []
  | (line, offs) :: rest =>
      if line = 0 then flattenSrc rest
      else do
        let e ← srcEntry line offs
        let r ← flattenSrc rest
        .ok (e ++ r)

/-- The dictionary of a module whose instructions are complete (codegen.py:270-300). -/
def finish (m : ModuleIn) (s : Gen) : Except PyErr ModuleOut := do
  let code ← (writeAll s.labels s.ops).mapError encErr
  let src ← flattenSrc s.srcMap
  .ok { name := moduleName m.path, builtin := false, entryLocals := s.funcLocals.length
        consts := s.consts, names := s.names, code := code, funcs := s.funcs
        registos := s.registos, srcMap := src }

/-- `compile_builtin` (codegen.py:203-221): a single `HALT`. -/
def compileBuiltin (m : ModuleIn) : ModuleOut :=
  { name := moduleName m.path, builtin := true, entryLocals := 0, consts := [], names := []
    code := [0xff], funcs := [], registos := [], srcMap := [-1] }

/-- `compile` of one module, without its imports (codegen.py:226-303). -/
def compileModule (ctx : GenCtx) (m : ModuleIn) : Except PyErr ModuleOut :=
  if m.builtin then .ok (compileBuiltin m)
  else
    match genModule { ctx with modPath := m.path } m {} with
    | .ok (_, s) => finish m s
    | .error e => .error e

/-- A constant as it is dumped (codegen.py:293). -/
def ConstKey.bson : ConstKey → Bson
  | .str s => .str s
  | .int n => .int n

/-- `{"name": .., "start_ip": .., "locals": .., "module": ..}` (codegen.py:857-863). -/
def FuncOut.bson (f : FuncOut) : Bson :=
  .doc [("name", .str f.name), ("start_ip", .int f.startIp), ("locals", .int f.locals),
        ("module", .int f.module)]

/-- `{"name": .., "fields": ..}` (codegen.py:976-979). -/
def RegistoOut.bson (r : RegistoOut) : Bson :=
  .doc [("name", .str r.name), ("fields", .arr (r.fields.map .str))]

/-- The dictionary given to `bindump.dumps` (codegen.py:210-221, 289-300). -/
def ModuleOut.doc (m : ModuleOut) (imports : List Bson) : List (String × Bson) :=
  [("name", .str m.name), ("builtin", .int (if m.builtin then 1 else 0)),
   ("entry_locals", .int m.entryLocals), ("constants", .arr (m.consts.map ConstKey.bson)),
   ("names", .arr (m.names.map .str)), ("ops", .bin m.code),
   ("functions", .arr (m.funcs.map FuncOut.bson)), ("registos", .arr (m.registos.map RegistoOut.bson)),
   ("src_map", .arr (m.srcMap.map .int)), ("imports", .arr imports)]

/-- The imported modules, in the order of the import table (codegen.py:250-264). -/
def compileImports (ctx : GenCtx) : List ModuleIn → Except PyErr (List Bson)
  | [] => .ok []
  | m :: ms => do
      let out ← compileModule ctx m
      let rest ← compileImports ctx ms
      .ok (.doc (ModuleOut.doc out []) :: rest)

/-- `ByteGen(module).compile(imports)` (codegen.py:226-303): the image given to the VM. -/
def compileProgram (env : SymEnv) (builtinPath : String) (main : ModuleIn) (imports : List ModuleIn) :
    Except PyErr Bson.Bytes := do
  let ctx : GenCtx := { env := env, modPath := main.path, builtinPath := builtinPath
                        modules := imports.map ModuleIn.path }
  let imps ← compileImports ctx imports
  let out ← compileModule ctx main
  (Bson.dumps (ModuleOut.doc out imps)).mapError fun
    | .overflow => .exc "OverflowError"
    | .structError => .exc "struct.error"
    | .notImplemented => .exc "NotImplementedError"

end Codegen

end Amanda

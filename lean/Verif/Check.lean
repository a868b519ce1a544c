import Verif.Imports
import Verif.Iguala
import Verif.Transform
import Verif.Returns
import Verif.SourceProg

/-!
# The checker: amanda/compiler/check/core.py, check/iguala.py, check/uniao.py, transform.py

The `Analyzer` as a function from the trees of the parser to the trees the code generator reads.  Symbols
and scopes are objects that are shared and changed until code is generated, so they live in tables
(`CState`) and are referred to by number.  Annotated trees (`AExpr`, `AStmt`) are the syntax trees with
`eval_type`, `prom_type` and the symbols; `transform` turns them into `TExpr` and `TStmt`.

Simplified:
* A set of type parameters is kept in the order of declaration; the code iterates over a Python set of
  strings, whose order differs from run to run.  This matters only for two or more parameters.
* A type keeps no copy of the name of its `registo` (types/core.py:567 copies it into a `ConstructedTy`).
* A name like `int` that a program has redefined as a variable stands for no type (`AttributeError` at
  once; the code fails at the first use of the type, if there is one).
* Two `produz` of the same `alvo` are different statements (the code compares the nodes, ast.py:222).
* The types in annotated trees have the names they had when they were checked; `transform` may still
  change the name of a `registo` of another module (transform.py:170).
* The left side of `v[i] += x` is one node with two parents (parse.py:1005-1010); here it is two.
* Messages are formatted once; a brace in a path would matter (check/core.py:145-149).
-/

namespace Amanda.Check

open Imports (Path Hooks)

/-! ## Types and symbols -/

mutual
/-- Types as objects: a `registo` or `uniao` is the number of its symbol (types/core.py, base.py:181-232). -/
inductive CTy where
  | prim (t : PTag)
  | vec (el : CTy)
  | reg (obj : SymId)
  | uni (obj : SymId)
  /-- `ConstructedTy` of a `registo` -/
  | app (obj : SymId) (args : CArgs)
  | tvar (name : String)
  | mod (path : String)
/-- `bound_ty_args`. -/
inductive CArgs where
  | nil
  | cons (param : String) (arg : CTy) (rest : CArgs)
end

deriving instance DecidableEq, Repr for CTy, CArgs

instance : Inhabited CTy := ⟨.prim .unknown⟩

/-- `bound_ty_args[param]`. -/
def CArgs.get (p : String) : CArgs → Option CTy
  | .nil => none
  | .cons q t rest => if q = p then some t else rest.get p

/-- What the classes of symbols add (symbols/core.py:8-92; types/core.py:47-60, 334-347, 421-470;
base.py:181-190). -/
inductive SymBody where
  | var (ty : CTy)
  | func (ty : CTy) (params : List (String × SymId))
  | method (ty target : CTy) (params : List (String × SymId))
  | prim (tag : PTag)
  /-- `fields` are the symbols of a scope (check/core.py:696-701) -/
  | registo (fields : ScopeId) (methods : List (String × SymId)) (tyParams : List String)
  | uniao (variants : List (String × SymId)) (methods : List (String × SymId)) (tyParams : List String)
  | variant (tag : Nat) (uniao : SymId) (params : List CTy)
  | tvar
  deriving DecidableEq, Repr

/-- `Symbol` (symbols/base.py:18-32). -/
structure CSym where
  name : String
  outId : String
  modPath : String
  isGlobal : Bool := false
  isProperty : Bool := false
  builtin : Bool := false
  body : SymBody
  deriving DecidableEq, Repr

/-- `isinstance(sym, Type)`. -/
def CSym.isType (s : CSym) : Bool :=
  match s.body with
  | .prim _ | .registo .. | .uniao .. | .tvar => true
  | _ => false

/-- `can_evaluate` (symbols/core.py:15-16, 51-52; types/core.py:434-435; base.py:122-123). -/
def CSym.canEvaluate (s : CSym) : Bool :=
  match s.body with
  | .var _ => true
  | .variant _ _ params => params.isEmpty
  | _ => false

/-- `is_callable` (symbols/core.py:18-19, 54-55; types/core.py:348-349, 437-438, 484-485; base.py:125-126). -/
def CSym.isCallable (s : CSym) : Bool :=
  match s.body with
  | .func .. | .method .. | .registo .. => true
  | .variant _ _ params => !params.isEmpty
  | _ => false

/-- `sym.params` of a function or method. -/
def CSym.params (s : CSym) : List (String × SymId) :=
  match s.body with
  | .func _ ps | .method _ _ ps => ps
  | _ => []

/-- `sym.type` of a `Typed` symbol. -/
def CSym.ty? (s : CSym) : Option CTy :=
  match s.body with
  | .var t | .func t _ | .method t _ _ => some t
  | .variant _ u _ => some (.uni u)
  | _ => none

/-! ## Annotated trees -/

/-- A decision tree with symbols; a success names its arm (check/exhaustiveness.py:64-104). -/
inductive ADec where
  | fail
  | success (bindings : List (String × SymId)) (arm : Nat)
  | switch (subject : SymId) (cases : List (ConsRef × List SymId × ADec)) (fallback : Option ADec)

mutual
/-- An expression with `eval_type` and `prom_type` (ast.py:120-124); `unknown` also stands for a
`prom_type` of `None`. -/
inductive AExpr where
  | mk (ty : CTy) (prom : Ty) (node : ANode)
/-- What else a node has. -/
inductive ANode where
  | const (tok : Token)
  | fmtStr (tok : Token) (parts : List AExpr)
  | var (tok : Token) (sym : Option SymId)
  | converta (tok : Token) (target : AExpr)
  | alvo (tok : Token) (sym : SymId)
  | bin (tok : Token) (left right : AExpr)
  | un (tok : Token) (operand : AExpr)
  | assign (tok : Token) (left right : AExpr)
  | iguala (tok : Token) (target : AExpr) (arms : List AArm) (ir : ADec)
  | call (callee : AExpr) (args : List AExpr) (sym : SymId)
  | list (tok : Token) (elements : List AExpr)
  | named (name : Token) (arg : AExpr)
  | get (target : AExpr) (member : Token) (inSet : Bool)
  | index (tok : Token) (target index : AExpr)
  | indexSet (tok : Token) (index value : AExpr)
  | set (target expr : AExpr)
  | path (comps : List Token) (sym : SymId)
/-- An arm: what `visit` made of its block, or the block if it was not visited. -/
inductive AArm where
  | seen (bodyTok : Token) (ty : CTy) (scope : ScopeId) (body : List AStmt)
  | skipped (body : List Stmt)
inductive AStmt where
  | expr (e : AExpr)
  | varDecl (tok name : Token) (ty : CTy) (assign : Option AExpr)
  | loopCtl (tok : Token)
  | retorna (tok : Token) (e : Option AExpr)
  | produz (tok : Token) (e : AExpr)
  | mostra (tok : Token) (e : AExpr)
  | se (tok : Token) (cond : AExpr) (thenB : ABlock) (elsifs : List AElse) (elseB : Option ABlock)
  | enquanto (tok : Token) (cond : AExpr) (body : ABlock)
  | escolha (tok : Token) (sel : AExpr) (cases : List AElse) (default : Option ABlock)
  | para (tok name : Token) (start stop : AExpr) (inc : Option AExpr) (body : ABlock)
  | func (name : Token) (sym : SymId) (body : ABlock)
  /-- builtin and native functions and builtin methods, whose block, if there is one, is not visited -/
  | declared (tok : Token) (sym : SymId) (scope : ScopeId) (native : Bool) (body : List Stmt)
  /-- with the initial values of the fields, for which no code is generated -/
  | registo (name : Token) (sym : SymId) (inits : List AExpr)
  | uniao (name : Token) (sym : SymId)
  | usa (tok : Token)
inductive AElse where
  | mk (tok : Token) (cond : AExpr) (body : ABlock)
inductive ABlock where
  | mk (scope : ScopeId) (body : List AStmt)
end

/-- `eval_type`. -/
def AExpr.ty : AExpr → CTy
  | .mk ty _ _ => ty

/-- `node.prom_type = ..`. -/
def AExpr.setProm : AExpr → Ty → AExpr
  | .mk ty _ node, prom => .mk ty prom node

/-! ## State -/

/-- `ctx_yield_block`: `eval_type` and `has_return` of the node (ast.py:191-202). -/
structure YieldCtx where
  ty : CTy
  hasReturn : Bool
  deriving DecidableEq, Repr

/-- The fields of an `Analyzer` (check/core.py:44-63). -/
structure Ana where
  globalScope : ScopeId
  ctxScope : ScopeId
  depth : Nat
  ctxReg : Bool
  ctxFunc : Option SymId
  yield : Option YieldCtx
  inLoop : Bool
  tyCtx : ScopeId
  /-- `ctx_node.token.line` -/
  line : Nat
  deriving DecidableEq, Repr

/-- A module that has been checked (module.py:6-12). -/
structure ModInfo where
  path : String
  builtin : Bool
  scope : ScopeId
  body : List TStmt

/-- Everything that is changed by checking. -/
structure CState where
  syms : List CSym
  scopes : List ScopeTab
  ana : Ana
  /-- the analyzers that wait for an imported module -/
  waiting : List Ana
  /-- `SrcBuiltins.Opcao` -/
  opcao : Option SymId
  /-- `Primitive.methods` (types/core.py:48) -/
  primMethods : List (PTag × String × SymId)
  mods : List ModInfo
  /-- the modules that are being visited: `builtin`, and the statements visited so far -/
  open_ : List (Bool × List AStmt)

/-- Python code of the checker. -/
def C (α : Type) : Type := CState → Except PyErr (α × CState)

instance : Monad C where
  pure a := fun s => .ok (a, s)
  bind m f := fun s =>
    match m s with
    | .error e => .error e
    | .ok (a, s') => f a s'

namespace C

def get : C CState := fun s => .ok (s, s)
def modify (f : CState → CState) : C Unit := fun s => .ok ((), f s)
def lift {α : Type} (r : Except PyErr α) : C α := fun s =>
  match r with
  | .ok a => .ok (a, s)
  | .error e => .error e

/-- An exception that is not an `AmandaError`. -/
def raise {α : Type} (name : String) : C α := fun _ => .error (.exc name)

/-- `self.error` (check/core.py:145-149). -/
def error {α : Type} (msg : String) : C α := fun s => .error (.amanda msg s.ana.line (-1))

/-- `self.error_with_loc` (check/core.py:151-155). -/
def errorAt {α : Type} (tok : Token) (msg : String) : C α := fun _ => .error (.amanda msg tok.line (-1))

/-- `self.ctx_node = node`. -/
def at_ (tok : Token) : C Unit := modify fun s => { s with ana := { s.ana with line := tok.line } }

end C

/-- The text of a token. -/
def _root_.Amanda.Token.str (t : Token) : String := String.ofList t.chars

/-- The symbol with a number. -/
def symOf (i : SymId) : C CSym := fun s =>
  match s.syms[i]? with
  | some x => .ok (x, s)
  | none => .error (.exc "AttributeError")

/-- A new symbol object. -/
def newSym (x : CSym) : C SymId := fun s => .ok (s.syms.length, { s with syms := s.syms ++ [x] })

/-- A change of a symbol object. -/
def updSym (i : SymId) (f : CSym → CSym) : C Unit :=
  C.modify fun s => { s with syms := s.syms.modify i f }

/-- A new scope object (symbols/core.py:117-124). -/
def newScope (parent : Option ScopeId) : C ScopeId := fun s =>
  .ok (s.scopes.length, { s with scopes := s.scopes ++ [⟨[], parent⟩] })

/-- `d[key] = value` of a dictionary. -/
def assign (key : String) (v : SymId) : List (String × SymId) → List (String × SymId)
  | [] => [(key, v)]
  | (k, w) :: rest => if k = key then (k, v) :: rest else (k, w) :: assign key v rest

/-- `scope.define(name, symbol)` (symbols/core.py:162-163). -/
def define (sc : ScopeId) (name : String) (i : SymId) : C Unit :=
  C.modify fun s => { s with scopes := s.scopes.modify sc fun t => { t with symbols := assign name i t.symbols } }

/-- `scope.symbols`. -/
def symbolsOf (sc : ScopeId) : C (List (String × SymId)) := fun s =>
  .ok (((s.scopes[sc]?).map ScopeTab.symbols).getD [], s)

/-- `scope.get(name)` (symbols/core.py:156-157). -/
def getIn (sc : ScopeId) (name : String) : C (Option SymId) := do
  return ((← symbolsOf sc).find? (·.1 == name)).map (·.2)

/-- `scope.resolve(name)` (symbols/core.py:126-134). -/
def resolveIn (sc : ScopeId) (name : String) : C (Option SymId) := fun s =>
  .ok (SymEnv.resolve ⟨[], s.scopes⟩ (some sc) name, s)

/-- `self.ctx_scope.resolve(name)`. -/
def resolve (name : String) : C (Option SymId) := do
  let s ← C.get
  resolveIn s.ana.ctxScope name

/-- A fixed part of the configuration: `is_valid_name` (check/core.py:157-164), which depends on Python. -/
structure CCfg where
  validName : String → Bool
  stdLib : Path

/-- `define_symbol` (check/core.py:172-177). -/
def defineSymbol (cfg : CCfg) (i : SymId) (depth : Nat) (sc : ScopeId) : C Unit := do
  let x ← symOf i
  let n := (← symbolsOf sc).length
  if !cfg.validName x.name || depth ≥ 1 then
    updSym i fun x => { x with outId := "_r" ++ toString depth ++ toString n ++ "_" }
  define sc x.name i

mutual
/-- A type object as the functions of types/core.py see it. -/
def toTy (syms : List CSym) : CTy → Ty
  | .prim t => .prim t
  | .vec el => .vec (toTy syms el)
  | .reg o => .registo (((syms[o]?).map CSym.modPath).getD "") (((syms[o]?).map CSym.name).getD "")
  | .uni o => .uniao (((syms[o]?).map CSym.modPath).getD "") (((syms[o]?).map CSym.name).getD "")
  | .app o args => .app (((syms[o]?).map CSym.modPath).getD "") (((syms[o]?).map CSym.name).getD "") (toArgs syms args)
  | .tvar n => .tvar n
  | .mod p => .module p
def toArgs (syms : List CSym) : CArgs → TyArgs
  | .nil => .nil
  | .cons p t rest => .cons p (toTy syms t) (toArgs syms rest)
end

/-- The type as the functions of types/core.py see it. -/
def view (t : CTy) : C Ty := do return toTy (← C.get).syms t

/-- `str(ty)`. -/
def showTy (t : CTy) : C String := do return (← view t).str

/-- `a == b` of types. -/
def sameTy (a b : CTy) : C Bool := do return (← view a).eqv (← view b)

/-- `a.promote_to(b)`, as a `prom_type`. -/
def promTy (a b : CTy) : C Ty := do
  let r ← C.lift (Ty.promote (← view a) (← view b))
  return r.getD .unknown

/-- `types_match` (check/core.py:271-272). -/
def matchTy (expected received : CTy) : C Bool := do
  C.lift (Ty.typesMatch (← view expected) (← view received))

/-- The result of an operator, which is always primitive (ops.py, types/core.py:132-141). -/
def ofPrim : Ty → CTy
  | .prim t => .prim t
  | _ => .prim .unknown

/-- `ty.tag`, an attribute of `Primitive` alone (types/core.py:52-55). -/
def tagOf : CTy → C PTag
  | .prim t => pure t
  | _ => C.raise "AttributeError"

/-- A symbol used as a type. -/
def symTy (i : SymId) : C CTy := do
  match (← symOf i).body with
  | .prim t => pure (.prim t)
  | .registo .. => pure (.reg i)
  | .uniao .. => pure (.uni i)
  | .tvar => do return .tvar (← symOf i).name
  | _ => C.raise "AttributeError"

/-- `self.ctx_scope.resolve("int")` and the like, used as a type. -/
def namedTy (name : String) : C CTy := do
  match ← resolve name with
  | some i => symTy i
  | none => C.raise "AttributeError"

/-- `self.global_scope.resolve("int")` and the like, used as a type. -/
def globalTy (name : String) : C CTy := do
  match ← resolveIn (← C.get).ana.globalScope name with
  | some i => symTy i
  | none => C.raise "AttributeError"

/-! ## Type annotations -/

/-- `get_type_sym_or_err` (check/core.py:179-187). -/
def typeSym (name : String) : C SymId := do
  let s ← C.get
  let found ← match ← resolve name with
    | some i => pure (some i)
    | none => resolveIn s.ana.tyCtx name
  match found with
  | none => C.error ("o tipo '" ++ name ++ "' não foi declarado")
  | some i =>
    if (← symOf i).isType then pure i else C.error ("o tipo '" ++ name ++ "' não foi declarado")

/-- `reg.ty_params`; only called on types with `is_generic()`. -/
def tyParams (t : CTy) : C (List String) := do
  match t with
  | .reg o | .uni o =>
    match (← symOf o).body with
    | .registo _ _ ps | .uniao _ _ ps => pure ps
    | _ => C.raise "AttributeError"
  | _ => C.raise "AttributeError"

/-- `bind` of a type (types/core.py:399-407, 521-532). -/
def bindTy (t : CTy) (args : CArgs) : C CTy :=
  match t with
  | .reg o => pure (.app o args)
  | _ => C.raise "NotImplementedError"

/-- `SrcBuiltins.Opcao.bind(T=ty)`. -/
def optionOf (t : CTy) : C CTy := do
  match (← C.get).opcao with
  | some o => pure (.app o (.cons "T" t .nil))
  | none => C.raise "AttributeError"

/-- Whether all type arguments are variables (check/core.py:225-233). -/
def CArgs.allVars : CArgs → Bool
  | .nil => true
  | .cons _ (.tvar _) rest => rest.allVars
  | .cons .. => false

/-- `zip(reg.ty_params, generic_args)` after `get_type` (`get_generic_args`, check/core.py:194-197). -/
def zipArgs : List String → List CTy → CArgs
  | p :: ps, t :: ts => .cons p t (zipArgs ps ts)
  | _, _ => .nil

/-- `get_mod_or_err` (check/core.py:199-205). -/
def modOf (sc : ScopeId) (name : String) : C String := do
  match ← resolveIn sc name with
  | none => C.error ("Especificação de tipo inválida. O identificador '" ++ name ++ "' não foi reconhecido como um módulo")
  | some i =>
    match (← symOf i).ty? with
    | none => C.raise "AttributeError"
    | some (.mod p) => pure p
    | some _ => C.error ("Especificação de tipo inválida. O identificador '" ++ name ++ "' não foi reconhecido como um módulo")

/-- `module.ast.symbols` of a module that has been checked. -/
def modScope (p : String) : C ScopeId := do
  match (← C.get).mods.find? (·.path == p) with
  | some m => pure m.scope
  | none => C.raise "AttributeError"

/-- The modules on the way of a `TypePath` (check/core.py:254-255). -/
def modPathOf (p : String) : List String → C String
  | [] => pure p
  | c :: cs => do
    let q ← modOf (← modScope p) c
    modPathOf q cs

/-- `construct_ty` (check/core.py:207-234) after `get_type` of the arguments; `nargs` is their number. -/
def constructTy (t : CTy) (maybe : Bool) (args : Option (C (List CTy))) (nargs : Nat) : C CTy := do
  if maybe then optionOf t
  else
    match args with
    | none => pure t
    | some act =>
      if nargs = 0 then pure t
      else
        match t with
        | .reg _ | .uni _ => do
          let ps ← tyParams t
          if ps.length ≠ nargs then
            C.error ("O tipo '" ++ (← showTy t) ++ "' esperava receber " ++ toString ps.length ++
              " argumento de tipo, mas recebeu " ++ toString nargs)
          else
            let as := zipArgs ps (← act)
            if as.allVars then pure t else bindTy t as
        | _ => do
          C.error ("O tipo '" ++ (← showTy t) ++ "' não espera receber nenhum argumento de tipo genérico.")

mutual
/-- `get_type` of a type node (check/core.py:236-269). -/
def getTy : TyExpr → C CTy
  | .name tok maybe none => do
    let i ← typeSym tok.str
    constructTy (← symTy i) maybe none 0
  | .name tok maybe (some args) => do
    let i ← typeSym tok.str
    constructTy (← symTy i) maybe (some (getTys args)) args.length
  | .path _ comps maybe none => do
    pathTy comps maybe none 0
  | .path _ comps maybe (some args) => pathTy comps maybe (some (getTys args)) args.length
  | .array el maybe => do
    let t ← getTy el
    if maybe then optionOf (.vec t) else pure (.vec t)
where
  /-- The case of a `TypePath` (check/core.py:251-263). -/
  pathTy (comps : List (List Char)) (maybe : Bool) (args : Option (C (List CTy))) (nargs : Nat) : C CTy := do
    let names := comps.map String.ofList
    match names with
    | [] => C.raise "IndexError"
    | head :: rest => do
      let m ← modOf (← C.get).ana.ctxScope head
      let m ← modPathOf m rest.dropLast
      let tyId := rest.getLastD head
      match ← resolveIn (← modScope m) tyId with
      | none => C.error ("O módulo '" ++ m ++ "' não possui o tipo '" ++ tyId ++ "'")
      | some i =>
        if (← symOf i).isType then constructTy (← symTy i) maybe args nargs
        else C.error ("O módulo '" ++ m ++ "' não possui o tipo '" ++ tyId ++ "'")
/-- `get_type` of type arguments from left to right. -/
def getTys : List TyExpr → C (List CTy)
  | [] => pure []
  | t :: ts => do
    let x ← getTy t
    let xs ← getTys ts
    pure (x :: xs)
end

/-- `get_type` of a type that may be left out (check/core.py:237-238). -/
def getTy? : Option TyExpr → C CTy
  | none => namedTy "vazio"
  | some t => getTy t

/-! ## Properties of values -/

/-- `VariableSymbol.bind` (symbols/core.py:21-24). -/
def bindVar (args : CArgs) (i : SymId) : C SymId := do
  let x ← symOf i
  match x.body with
  | .var (.tvar n) =>
    match args.get n with
    | some t => newSym { name := x.name, outId := x.name, modPath := x.modPath, body := .var t }
    | none => C.raise "KeyError"
  | _ => pure i

/-- The parameters of a function bound (symbols/core.py:73-78). -/
def bindParams (args : CArgs) : List (String × SymId) → C (List (String × SymId))
  | [] => pure []
  | (n, i) :: rest => do
    let j ← bindVar args i
    let js ← bindParams args rest
    pure ((n, j) :: js)

/-- `is_type_var` of the type of a parameter. -/
def isTvar : CTy → Bool
  | .tvar _ => true
  | _ => false

/-- `has_generic_params` (symbols/core.py:60-66). -/
def genericParams : List (String × SymId) → C Bool
  | [] => pure false
  | (_, i) :: rest => do
    let x ← symOf i
    if (x.ty?.map isTvar).getD false then pure true else genericParams rest

/-- `bind` of a property (symbols/core.py:21-24, 68-86, 108-116). -/
def bindSym (args : CArgs) (i : SymId) : C SymId := do
  let x ← symOf i
  match x.body with
  | .var _ => bindVar args i
  | .method ty target params => do
    let g ← genericParams params
    if !g && !isTvar ty then
      newSym { name := x.name, outId := x.name, modPath := x.modPath, isProperty := true, body := .method ty target params }
    else
      let ps ← bindParams args params
      let ret ← match ty with
        | .tvar n => match args.get n with
          | some t => pure t
          | none => C.raise "KeyError"
        | t => pure t
      newSym { name := x.name, outId := x.name, modPath := x.modPath, isProperty := true, body := .method ret target ps }
  | _ => C.raise "AttributeError"

/-- `get_property` of a `registo` or `uniao` (types/core.py:415-416, 540-541). -/
def objProperty (o : SymId) (p : String) : C (Option SymId) := do
  match (← symOf o).body with
  | .registo fields methods _ =>
    match ← getIn fields p with
    | some i => pure (some i)
    | none => pure ((methods.find? (·.1 == p)).map (·.2))
  | .uniao _ methods _ => pure ((methods.find? (·.1 == p)).map (·.2))
  | _ => C.raise "AttributeError"

/-- `get_property` (types/core.py:76-77, 264-265, 415-416, 540-541, 651-655; base.py:171-172). -/
def getProperty (t : CTy) (p : String) : C (Option SymId) := do
  match t with
  | .prim tag => do return ((← C.get).primMethods.find? fun e => e.1 == tag && e.2.1 == p).map (·.2.2)
  | .vec _ | .tvar _ => pure none
  | .reg o | .uni o => objProperty o p
  | .app o args =>
    match ← objProperty o p with
    | none => pure none
    | some i => do return some (← bindSym args i)
  | .mod m => do resolveIn (← modScope m) p

/-- `define_method` (types/core.py:71-74, 313-315, 418-419, 555-556, 610-611; base.py:207-210). -/
def defineMethod (t : CTy) (name : String) (i : SymId) : C Unit :=
  match t with
  | .prim tag => C.modify fun s => { s with primMethods := (tag, name, i) :: s.primMethods }
  | .reg o | .uni o | .app o _ => updSym o fun x =>
      match x.body with
      | .registo f ms ps => { x with body := .registo f (assign name i ms) ps }
      | .uniao vs ms ps => { x with body := .uniao vs (assign name i ms) ps }
      | _ => x
  | .vec _ | .tvar _ | .mod _ => C.raise "NotImplementedError"

/-- `is_primitive` (types/core.py:185-192). -/
def isPrimitive : CTy → Bool
  | .prim .int | .prim .texto | .prim .bool | .prim .real | .prim .indef => true
  | _ => false

/-- Where a node stands, as far as `child_of` is asked (check/core.py:849-852, 890-902): in a call, in an
assignment to a field, in another expression or simple statement, elsewhere. -/
inductive Par where
  | call | set | eval | other
  deriving DecidableEq, Repr

/-- `visit_get` after its target (check/core.py:861-908): the type and the symbol. -/
def getProp (par : Par) (target : CTy) (member : Token) : C (CTy × SymId) := do
  match ← getProperty target member.str with
  | none =>
    if !isPrimitive target then
      C.error ("O objecto do tipo '" ++ (← showTy target) ++ "' não possui o atributo '" ++ member.str ++ "'")
    else C.error ("O tipo '" ++ (← showTy target) ++ "' não possui o método '" ++ member.str ++ "'")
  | some i => do
    let x ← symOf i
    if par != .other && par != .call && !x.canEvaluate then
      C.error ("o identificador '" ++ x.name ++ "' não é uma referência válida")
    else
      match x.ty? with
      | some t => pure (t, i)
      | none => do return (← symTy i, i)

/-- `visit_variable` (check/core.py:807-821). -/
def useVar (tok : Token) : C (CTy × SymId) := do
  match ← resolve tok.str with
  | none => C.error ("o identificador '" ++ tok.str ++ "' não foi declarado")
  | some i => do
    let x ← symOf i
    if !x.canEvaluate then
      C.at_ tok
      C.error ("o identificador '" ++ tok.str ++ "' não é uma referência válida")
    else
      match x.ty? with
      | some t => pure (t, i)
      | none => C.raise "AttributeError"

/-- The way down a path (check/core.py:832-844). -/
def downPath (i : SymId) : List Token → C SymId
  | [] => pure i
  | c :: cs => do
    let x ← symOf i
    match x.body with
    | .uniao variants _ _ =>
      match variants.find? (·.1 == c.str) with
      | some (_, v) => downPath v cs
      | none => C.error ("A união '" ++ x.name ++ "' não possui a variante '" ++ c.str ++ "'")
    | _ => C.error ("O item '" ++ x.name ++ "' não possui sub-itens")

/-- `visit_path` (check/core.py:823-859); `bare` says that arguments have to be given here. -/
def usePath (bare : Bool) (comps : List Token) : C (CTy × SymId) := do
  let head := comps.headD noTok
  match ← resolve head.str with
  | none => C.error ("o identificador '" ++ head.str ++ "' não foi declarado")
  | some i => do
    let j ← downPath i comps.tail
    let x ← symOf j
    match x.body with
    | .variant _ u params => do
      if bare && !params.isEmpty then
        C.error ("A variante '" ++ x.name ++ "' da união '" ++ (← symOf u).name ++
          "' deve ser inicializada com os devidos argumentos")
      else pure (.uni u, j)
    | _ =>
      match x.ty? with
      | some t => pure (t, j)
      | none => C.raise "AttributeError"

/-! ## Scopes -/

/-- `enter_scope` (check/core.py:274-278). -/
def enterScope (sc : ScopeId) : C Unit :=
  C.modify fun s => { s with ana := { s.ana with ctxScope := sc, depth := s.ana.depth + 1 } }

/-- `leave_scope` (check/core.py:283-285). -/
def leaveScope : C Unit := fun s =>
  match (s.scopes[s.ana.ctxScope]?).bind ScopeTab.parent with
  | some p => .ok ((), { s with ana := { s.ana with ctxScope := p, depth := s.ana.depth - 1 } })
  | none => .error (.exc "TypeError")

/-- A scope inside the current one. -/
def innerScope : C ScopeId := do newScope (some (← C.get).ana.ctxScope)

/-- `assert_can_use_ident` (check/core.py:464-470); the line of `node` where a field is declared twice. -/
def assertFree (tok : Token) (name : String) : C Unit := do
  let s ← C.get
  match ← getIn s.ana.ctxScope name with
  | none => pure ()
  | some _ =>
    if s.ana.ctxReg then
      C.at_ tok
      C.error ("O atributo '" ++ name ++ "' já foi declarado neste registo")
    else C.error ("O identificador '" ++ name ++ "' já foi declarado neste escopo")

/-- `get_generic_params` (check/core.py:662-676): different names. -/
def genericNames : List Token → List String
  | [] => []
  | t :: ts => t.str :: (genericNames ts).filter (· != t.str)

/-- `TypeVar` objects, defined in scope `sc`. -/
def defineTvars (mod : String) (sc : ScopeId) : List String → C Unit
  | [] => pure ()
  | n :: ns => do
    let i ← newSym { name := n, outId := n, modPath := mod, body := .tvar }
    define sc n i
    defineTvars mod sc ns

/-- `enter_ty_ctx(get_generic_ty_ctx(..))` (check/core.py:280-281, 678-682). -/
def enterTyCtx (mod : String) (names : List String) : C Unit := do
  let sc ← newScope (some (← C.get).ana.tyCtx)
  defineTvars mod sc names
  C.modify fun s => { s with ana := { s.ana with tyCtx := sc } }

/-- `leave_ty_ctx` (check/core.py:287-288). -/
def leaveTyCtx : C Unit := fun s =>
  match (s.scopes[s.ana.tyCtx]?).bind ScopeTab.parent with
  | some p => .ok ((), { s with ana := { s.ana with tyCtx := p } })
  | none => .error (.exc "AttributeError")

/-- A new variable symbol (symbols/core.py:8-13). -/
def newVar (mod name : String) (t : CTy) : C SymId :=
  newSym { name := name, outId := name, modPath := mod, body := .var t }

/-! ## Functions -/

/-- The parameters of a function (check/core.py:581-591, 754-757). -/
def paramSyms (mod : String) : List Param → List (String × SymId) → C (List (String × SymId))
  | [], acc => pure acc
  | p :: ps, acc => do
    let name := p.name.str
    if (acc.find? (·.1 == name)).isSome then
      C.error ("o parâmetro '" ++ name ++ "' já foi especificado nesta função")
    else
      C.at_ p.name
      let i ← newVar mod name (← getTy p.ty)
      paramSyms mod ps (acc ++ [(name, i)])

/-- ... and their definition in the scope of the function (check/core.py:592-596). -/
def defineParams (cfg : CCfg) (depth : Nat) (sc : ScopeId) : List (String × SymId) → C Unit
  | [] => pure ()
  | (_, i) :: rest => do
    defineSymbol cfg i depth sc
    defineParams cfg depth sc rest

/-- `validate_decl_in_scope` (check/core.py:495-503). -/
def validateDecl (name localErr inUseErr : String) : C Unit := do
  let s ← C.get
  if s.ana.depth > 0 then C.error localErr
  else
    match ← getIn s.ana.ctxScope name with
    | none => pure ()
    | some _ => C.error inUseErr

/-- `make_func_symbol` (check/core.py:516-526) and `symbol.params = params`; the scope of the function. -/
def makeFunc (cfg : CCfg) (mod : String) (i : SymId) (params : List Param) : C ScopeId := do
  updSym i fun x => { x with isGlobal := true }
  let s ← C.get
  defineSymbol cfg i s.ana.depth s.ana.ctxScope
  let ps ← paramSyms mod params []
  let sc ← innerScope
  defineParams cfg (s.ana.depth + 1) sc ps
  updSym i fun x =>
    match x.body with
    | .func t _ => { x with body := .func t ps }
    | .method t u _ => { x with body := .method t u ps }
    | _ => x
  pure sc

/-- `is_builtin` (symbols/base.py:47-48). -/
def builtinAnn (as : List Annotation) : Bool := as.any fun a => String.ofList a.name == "embutido"

/-! ## Patterns -/

/-- `check_binding_pattern` (check/iguala.py:80-96). -/
def bindPattern (cfg : CCfg) (mod : String) (sc : ScopeId) (t : CTy) (tok : Token) : C Unit := do
  match ← getIn sc tok.str with
  | some _ => C.errorAt tok ("Padrão inválido. A variável '" ++ tok.str ++ "' já foi utilizada neste padrão")
  | none => do
    let i ← newVar mod tok.str t
    defineSymbol cfg i ((← C.get).ana.depth + 1) sc

/-- The arguments of a variant pattern (check/iguala.py:110-118). -/
def checkPatArgs (cfg : CCfg) (mod : String) (sc : ScopeId) : List Pat → List CTy → C Unit
  | [], _ => pure ()
  | _, [] => pure ()
  | .bind tok :: ps, t :: ts => do
    bindPattern cfg mod sc t tok
    checkPatArgs cfg mod sc ps ts
  | .int _ :: ps, _ :: ts | .str _ :: ps, _ :: ts => checkPatArgs cfg mod sc ps ts
  | .adtPath .. :: _, _ :: _ | .adtVar .. :: _, _ :: _ => C.raise "NotImplementedError"

/-- An argument of a variant pattern for the compiler of decision trees. -/
def argPat : Pat → Iguala.MPat
  | .int t => .int (match t.lexeme with | .int n => n | _ => 0)
  | .str t => .str t.str
  | .bind t => .bind t.str
  | .adtPath .. | .adtVar .. => .adt none []

/-- `check_pattern` (check/iguala.py:99-138) with the scope of the arm: the type of the pattern and the
pattern for the compiler of decision trees. -/
def checkPattern (cfg : CCfg) (mod : String) (sc : ScopeId) (target : CTy) : Pat → C (CTy × Iguala.MPat)
  | .int t => pure (.prim .int, argPat (.int t))
  | .str t => pure (.prim .texto, argPat (.str t))
  | .bind t => do
    bindPattern cfg mod sc target t
    pure (target, .bind t.str)
  | .adtVar t _ => do
    C.at_ t
    let _ ← useVar t
    C.raise "NotImplementedError"
  | .adtPath comps args => do
    C.at_ (comps.headD noTok)
    let (_, i) ← usePath false comps
    let x ← symOf i
    match x.body with
    | .variant tag u params => do
      if params.isEmpty && !args.isEmpty then
        C.error ("Padrão inválido. A variante '" ++ (← symOf u).name ++ "::" ++ x.name ++
          "' não espera receber nenhum argumento")
      else
        checkPatArgs cfg mod sc args params
        pure (.uni u, .adt (some tag) (args.map argPat))
    | _ => C.raise "NotImplementedError"

/-- `check_arm` (check/iguala.py:141-144) for all arms: their scopes and patterns. -/
def checkArms (cfg : CCfg) (mod : String) (target : CTy) : List Pat → C (List (ScopeId × Iguala.MPat))
  | [] => pure []
  | p :: ps => do
    let sc ← innerScope
    let (t, q) ← checkPattern cfg mod sc target p
    if ← sameTy t target then
      let rest ← checkArms cfg mod target ps
      pure ((sc, q) :: rest)
    else
      C.error ("Padrão inválido. Esperava-se um padrão do tipo '" ++ (← showTy target) ++
        "' mas utilizou-se um do tipo '" ++ (← showTy t) ++ "'")

/-- The variants of all unions, by module and name; of two unions in one module with one name the later
one. -/
def unionsOf (syms : List CSym) : Iguala.Unions := fun m n =>
  match syms.reverse.find? fun x => x.modPath == m && x.name == n && (match x.body with | .uniao .. => true | _ => false) with
  | some x =>
    match x.body with
    | .uniao variants _ _ => variants.map fun v =>
        match syms[v.2]? with
        | some y =>
          match y.body with
          | .variant _ _ params => (n ++ "::" ++ y.name, params.map (toTy syms))
          | _ => (n ++ "::" ++ y.name, [])
        | none => (n ++ "::" ++ v.1, [])
    | _ => []
  | none => []

/-- The variant with a tag (types/core.py:481-482): its symbol and parameters. -/
def variantAt (t : CTy) (tag : Nat) : C (Option (VariantRef × List CTy)) := do
  match t with
  | .uni o =>
    let u ← symOf o
    match u.body with
    | .uniao variants _ _ =>
      match variants[tag]? with
      | some (_, i) => do
        let x ← symOf i
        match x.body with
        | .variant _ _ params => pure (some (⟨u.modPath ++ "::" ++ u.name ++ "::" ++ x.name, params.length⟩, params))
        | _ => pure none
      | none => pure none
    | _ => pure none
  | _ => pure none

/-- The symbols of new variables of a decision tree (symbols/core.py:167-170). -/
def newTreeVars (mod : String) (sc : ScopeId) : List Iguala.MVar → List CTy → C (List (Nat × SymId))
  | v :: vs, t :: ts => do
    let i ← newVar mod v.name t
    define sc v.name i
    let rest ← newTreeVars mod sc vs ts
    pure ((v.id, i) :: rest)
  | _, _ => pure []

/-- The new variables of the cases of one switch (exhaustiveness.py:303-311). -/
def caseVars (mod : String) (sc : ScopeId) (subject : CTy) :
    List (Iguala.Cons × List Iguala.MVar × Iguala.MTree) → C (List (Nat × SymId))
  | [] => pure []
  | (.variant tag _, args, _) :: rest => do
    let xs ← match ← variantAt subject tag with
      | some (_, params) => newTreeVars mod sc args params
      | none => pure []
    let ys ← caseVars mod sc subject rest
    pure (xs ++ ys)
  | _ :: rest => caseVars mod sc subject rest

/-- The symbol of a variable of a decision tree. -/
def treeSym (vars : List (Nat × SymId)) (v : Iguala.MVar) : C SymId :=
  match vars.find? (·.1 == v.id) with
  | some (_, i) => pure i
  | none => C.raise "KeyError"

/-- The symbols of several of them. -/
def treeSyms (vars : List (Nat × SymId)) : List Iguala.MVar → C (List SymId)
  | [] => pure []
  | v :: vs => do
    let i ← treeSym vars v
    let is ← treeSyms vars vs
    pure (i :: is)

mutual
/-- The symbols of a decision tree, in the order in which the compiler makes them: the variables of all
cases of a switch before those of its subtrees. -/
def declareTree (mod : String) (sc : ScopeId) : Iguala.MTree → List (Nat × SymId) → C (List (Nat × SymId))
  | .fail, vars | .success _, vars => pure vars
  | .switch v cases fallback, vars => do
    let i ← treeSym vars v
    let t := ((← symOf i).ty?).getD (.prim .unknown)
    let new ← caseVars mod sc t cases
    let vars ← declareCases mod sc cases (vars ++ new)
    match fallback with
    | none => pure vars
    | some f => declareTree mod sc f vars
def declareCases (mod : String) (sc : ScopeId) :
    List (Iguala.Cons × List Iguala.MVar × Iguala.MTree) → List (Nat × SymId) → C (List (Nat × SymId))
  | [], vars => pure vars
  | (_, _, t) :: rest, vars => do
    let vars ← declareTree mod sc t vars
    declareCases mod sc rest vars
end

/-- The bindings of an arm with the symbols of their sources. -/
def bindingSyms (vars : List (Nat × SymId)) : List (String × Iguala.MVar) → C (List (String × SymId))
  | [] => pure []
  | (n, v) :: rest => do
    let i ← treeSym vars v
    let is ← bindingSyms vars rest
    pure ((n, i) :: is)

/-- A constructor as the code generator sees it (codegen.py:789-832). -/
def consRef (subject : CTy) : Iguala.Cons → C ConsRef
  | .variant tag _ => do
    match ← variantAt subject tag with
    | some (v, _) => pure (.variant v)
    | none => C.raise "IndexError"
  | .bool _ => pure .other
  | .int n => pure (.int n)
  | .str s => pure (.str s)

mutual
/-- The decision tree with symbols for variables. -/
def annotTree (vars : List (Nat × SymId)) (binds : Nat → List (String × Iguala.MVar)) : Iguala.MTree → C ADec
  | .fail => pure .fail
  | .success arm => do return .success (← bindingSyms vars (binds arm)) arm
  | .switch v cases fallback => do
    let i ← treeSym vars v
    let t := ((← symOf i).ty?).getD (.prim .unknown)
    let cs ← annotCases vars binds t cases
    match fallback with
    | none => pure (.switch i cs none)
    | some f => do
      let d ← annotTree vars binds f
      pure (.switch i cs (some d))
def annotCases (vars : List (Nat × SymId)) (binds : Nat → List (String × Iguala.MVar)) (subject : CTy) :
    List (Iguala.Cons × List Iguala.MVar × Iguala.MTree) → C (List (ConsRef × List SymId × ADec))
  | [] => pure []
  | (k, args, t) :: rest => do
    let c ← consRef subject k
    let is ← treeSyms vars args
    let d ← annotTree vars binds t
    let ds ← annotCases vars binds subject rest
    pure ((c, is, d) :: ds)
end

/-- The names bound by one arm, defined again (exhaustiveness.py:236-240). -/
def defineAgain (mod : String) (sc : ScopeId) : List (String × SymId) → C Unit
  | [] => pure ()
  | (n, i) :: rest => do
    let x ← symOf i
    let j ← newSym { name := n, outId := n, modPath := x.modPath, body := .var (x.ty?.getD (.prim .unknown)) }
    define sc n j
    defineAgain mod sc rest

mutual
/-- `declare_block_symbols` (exhaustiveness.py:227-244), which does not look into fallbacks. -/
def declareBlocks (mod : String) (scopes : List ScopeId) : ADec → C Unit
  | .fail => pure ()
  | .success binds arm =>
    match scopes[arm]? with
    | some sc => defineAgain mod sc binds
    | none => C.raise "TypeError"
  | .switch _ cases _ => declareBlockCases mod scopes cases
def declareBlockCases (mod : String) (scopes : List ScopeId) : List (ConsRef × List SymId × ADec) → C Unit
  | [] => pure ()
  | (_, _, d) :: rest => do
    declareBlocks mod scopes d
    declareBlockCases mod scopes rest
end

/-- `sorted` of strings. -/
def insertSorted (x : String) : List String → List String
  | [] => [x]
  | y :: ys => if x < y then x :: y :: ys else if x = y then y :: ys else y :: insertSorted x ys

/-- The set of names, sorted. -/
def sortNames (xs : List String) : List String := xs.foldr insertSorted []

/-- `check_iguala` between the arms and the blocks (check/iguala.py:22-65), in the scope `sc` of the
`iguala`: the decision tree, and the arms whose blocks are visited, in order. -/
def compileArms (cfg : CCfg) (mod : String) (tok : Token) (sc : ScopeId) (target : AExpr)
    (arms : List (ScopeId × Iguala.MPat)) : C (ADec × List Nat) := do
  let binding ← match target with
    | .mk _ _ (.var _ (some i)) => pure i
    | .mk _ _ (.alvo _ i) => pure i
    | .mk t _ _ => do
      let i ← newVar mod "_target_" t
      defineSymbol cfg i (← C.get).ana.depth sc
      pure i
  let s ← C.get
  let ty ← view target.ty
  let names := (← symbolsOf sc).map (·.1)
  let v : Iguala.MVar := ⟨0, (← symOf binding).name, ty⟩
  let m ← C.lift (Iguala.compile (unionsOf s.syms) v (arms.map (·.2)) names)
  if m.missing then
    if Iguala.finite ty then do
      let missing ← C.lift m.missingPatterns
      C.errorAt tok ("A instrução iguala deve especificar alternativas para todos os valores possíveis do tipo '" ++
        ty.str ++ "'. Padrões em falta: \n" ++
        String.intercalate "\n" (sortNames (missing.map fun p => "* " ++ p ++ " => ... ")))
    else
      C.errorAt tok ("A instrução iguala deve especificar uma alternativa genérica para o caso das outras " ++
        "alternativas falharem. Padrão em falta: \n * _ => ...")
  else do
    let vars ← declareTree mod sc m.tree [(0, binding)]
    let d ← annotTree vars m.bindings m.tree
    declareBlocks mod (arms.map (·.1)) d
    pure (d, m.reachable)

end Amanda.Check

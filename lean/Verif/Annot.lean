import Verif.Types

/-!
# The tree the code generator reads

`check/core.py` and `transform.py` annotate the syntax tree and replace some of its nodes; the
result is what `codegen.py` walks over.  Symbols and scopes are shared and mutated until then, so
they live in tables and the tree holds their numbers.
-/

namespace Amanda

abbrev SymId := Nat
abbrev ScopeId := Nat

/-- The class of a symbol, as far as codegen.py asks (252-255, 789-797, 876-880). -/
inductive SymKind where
  | var | func | method | prim | type | variant | other
  deriving DecidableEq, Repr

/-- What `load_variable` and `set_variable` read of a symbol (codegen.py:478-494, 549-558):
`name`, `out_id`, `module.fpath`, `is_global` (symbols/base.py:18-32). -/
structure SymRef where
  name : String
  outId : String
  modPath : String
  isGlobal : Bool
  deriving DecidableEq, Repr

/-- A symbol (symbols/base.py:18-53, symbols/core.py:8-92); `params` are the values of the
parameter dictionary of a function. -/
structure Sym extends SymRef where
  kind : SymKind
  builtin : Bool := false
  params : List SymId := []
  deriving DecidableEq, Repr

/-- A scope (symbols/core.py:117-160): its symbols in order of definition and the enclosing
scope. -/
structure ScopeTab where
  symbols : List (String × SymId)
  parent : Option ScopeId
  deriving DecidableEq, Repr

/-- The finished symbol and scope tables. -/
structure SymEnv where
  syms : List Sym
  scopes : List ScopeTab
  deriving DecidableEq, Repr

/-- A variant of a `uniao` (types/core.py:421-470): `variant_id()` and the number of parameters. -/
structure VariantRef where
  id : String
  arity : Nat
  deriving DecidableEq, Repr

/-- `Constructor`s (types/core.py:664-690, 433-460).  `other` stands for `BoolCons` and whatever
else code generation rejects. -/
inductive ConsRef where
  | int (n : Int)
  | str (lexeme : String)
  | variant (v : VariantRef)
  | other
  deriving DecidableEq, Repr

mutual
/-- Annotated expressions.  `line` is `lineno`, `prom` is `prom_type`. -/
inductive TExpr where
  | const (line : Nat) (lexeme : String) (prom : Ty)
  | fmtStr (line : Nat) (parts : List TExpr)
  /-- `sym` is `var_symbol` -/
  | var (line : Nat) (name : String) (sym : Option SymId) (prom : Ty)
  /-- `fromTy` is `target.eval_type`, `toTy` is `eval_type` -/
  | converta (line : Nat) (target : TExpr) (fromTy toTy : Ty)
  | alvo (line : Nat) (sym : SymId)
  /-- `lty`, `rty` are the `eval_type`s of the operands -/
  | bin (line : Nat) (op : TT) (left right : TExpr) (lty rty : Ty) (prom : Ty)
  | un (line : Nat) (op : TT) (operand : TExpr) (prom : Ty)
  /-- `sym` is `left.var_symbol` -/
  | assign (line : Nat) (sym : SymId) (right : TExpr)
  /-- `decision` is `ir.tree` -/
  | iguala (line : Nat) (decision : Decision)
  | call (line : Nat) (callee : TExpr) (args : List TExpr) (sym : SymId) (prom : Ty)
  | list (line : Nat) (elements : List TExpr)
  | named (line : Nat) (name : String) (arg : TExpr)
  /-- `inSet` is `child_of(ast.Set)` -/
  | get (line : Nat) (target : TExpr) (member : String) (inSet : Bool)
  | index (line : Nat) (target index : TExpr)
  /-- the target and the index of the `IndexGet` on the left, and the value -/
  | indexSet (line : Nat) (target index value : TExpr)
  | set (line : Nat) (target expr : TExpr)
  | unwrap (line : Nat) (option : TExpr) (default : Option TExpr)
  /-- `variant` is the `symbol` of the path -/
  | path (line : Nat) (variant : Option VariantRef)
/-- Decision trees (check/exhaustiveness.py:60-97). -/
inductive Decision where
  | fail
  /-- the bindings, and line, scope and statements of the arm's block -/
  | success (bindings : List (String × SymId)) (line : Nat) (scope : ScopeId) (body : List TStmt)
  | switch (subject : SymId) (cases : List DCase) (fallback : Option Decision)
/-- `Case` (check/exhaustiveness.py:68-74). -/
inductive DCase where
  | mk (cons : ConsRef) (args : List SymId) (body : Decision)
/-- Annotated statements. -/
inductive TStmt where
  | expr (e : TExpr)
  /-- `var_type`, and the symbol and right side of the `Assign` node -/
  | varDecl (line : Nat) (name : String) (ty : Ty) (assign : Option TAssign)
  | loopCtl (line : Nat) (isBreak : Bool)
  | retorna (line : Nat) (e : Option TExpr)
  | produz (line : Nat) (e : TExpr)
  | mostra (line : Nat) (e : TExpr)
  | se (line : Nat) (cond : TExpr) (thenB : TBlock) (elsifs : List TElse) (elseB : Option TBlock)
  | enquanto (line : Nat) (cond : TExpr) (body : TBlock)
  | para (line : Nat) (name : String) (start stop : TExpr) (inc : Option TExpr) (body : TBlock)
  /-- function and method declarations -/
  | func (line : Nat) (sym : SymId) (body : TBlock)
  | registo (line : Nat) (name : String) (fields : List String)
  /-- the variants of the `uniao` symbol -/
  | uniao (line : Nat) (name : String) (variants : List VariantRef)
  /-- `Usa` and `NoOp` -/
  | noop (line : Nat)
inductive TAssign where
  | mk (sym : SymId) (right : TExpr)
/-- `SenaoSe` (ast.py:264-268). -/
inductive TElse where
  | mk (cond : TExpr) (body : TBlock)
/-- `Block` with its scope (ast.py:78-85). -/
inductive TBlock where
  | mk (scope : ScopeId) (body : List TStmt)
end

/-- The symbols of a scope (symbols/core.py:117-124). -/
def SymEnv.ids (env : SymEnv) (k : ScopeId) : List SymId :=
  match env.scopes[k]? with
  | some tab => tab.symbols.map (·.2)
  | none => []

/-- `Scope.resolve` (symbols/core.py:126-134).  `fuel` bounds the length of the chain of enclosing
scopes. -/
def SymEnv.resolveFrom (env : SymEnv) : Nat → Option ScopeId → String → Option SymId
  | 0, _, _ => none
  | _, none, _ => none
  | fuel + 1, some sc, name =>
      match env.scopes[sc]? with
      | none => none
      | some tab =>
          match (tab.symbols.find? (·.1 == name)) with
          | some (_, id) => some id
          | none => env.resolveFrom fuel tab.parent name

/-- `scope.resolve(name)`; a chain visits every scope at most once. -/
def SymEnv.resolve (env : SymEnv) (sc : Option ScopeId) (name : String) : Option SymId :=
  env.resolveFrom (env.scopes.length + 1) sc name

end Amanda

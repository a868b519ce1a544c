import Verif.Lexer

/-!
# Syntax trees: amanda/compiler/ast.py

The attributes the checker fills in later (`eval_type`, `symbol`, ...) are not part of these
trees.  A node's `token` (ast.py:40-44) is a field, or is given by `Expr.token`.
-/

namespace Amanda

/-- A lexeme as `f"{lexeme}"` shows it. -/
def Lexeme.chars : Lexeme → List Char
  | .text s => s
  | .int n => Nat.toDigits 10 n
  | .real r => r.toList

/-- `token.lexeme` used as text. -/
def Token.chars (t : Token) : List Char := t.lexeme.chars

/-- `Annotation` (ast.py:34-38). -/
structure Annotation where
  name : List Char
  attrs : List (List Char × List Char)
  tok : Token
  deriving DecidableEq, Repr

/-- `Type`, `TypePath`, `ArrayType` (ast.py:604-642); `args` are the `GenericArg` nodes. -/
inductive TyExpr where
  | name (tok : Token) (maybe : Bool) (args : Option (List TyExpr))
  | path (tok : Token) (comps : List (List Char)) (maybe : Bool) (args : Option (List TyExpr))
  | array (el : TyExpr) (maybe : Bool)
  deriving Repr

/-- `IntPattern`, `StrPattern`, `BindingPattern`, `ADTPattern` (ast.py:294-334).  The head of an
`ADTPattern` is a `Path` (its components) or a `Variable`. -/
inductive Pat where
  | int (tok : Token)
  | str (tok : Token)
  | bind (tok : Token)
  | adtPath (comps : List Token) (args : List Pat)
  | adtVar (tok : Token) (args : List Pat)
  deriving Repr

/-- `UsaMode` (ast.py:97-100) with the alias or the items. -/
inductive UsaMode where
  | scoped (alias : Token)
  | item (items : List (List Char))
  | global
  deriving DecidableEq, Repr

/-- `GenericParam` is its name token (ast.py:579-585), `Param` a name and a type (ast.py:597-602). -/
structure Param where
  name : Token
  ty : TyExpr
  deriving Repr

/-- `UniaoVariant` (ast.py:554-559). -/
structure UniaoVariant where
  name : Token
  params : List TyExpr
  deriving Repr

mutual
/-- Expressions (ast.py:120-484). -/
inductive Expr where
  | const (tok : Token)
  | fmtStr (tok : Token) (parts : List Expr)
  | var (tok : Token)
  | converta (tok : Token) (target : Expr) (ty : TyExpr)
  | alvo (tok : Token)
  | bin (tok : Token) (left right : Expr)
  | un (tok : Token) (operand : Expr)
  | assign (tok : Token) (left right : Expr)
  | iguala (tok : Token) (target : Expr) (arms : List Arm)
  | call (callee : Expr) (args : List Expr)
  | list (tok : Token) (ty : TyExpr) (elements : List Expr)
  | named (name : Token) (arg : Expr)
  | get (target : Expr) (member : Token)
  | index (tok : Token) (target index : Expr)
  | indexSet (tok : Token) (index value : Expr)
  | set (target expr : Expr)
  | path (comps : List Token)
/-- `IgualaArm` with its `YieldBlock` (ast.py:191-202, 336-343). -/
inductive Arm where
  | mk (tok : Token) (pat : Pat) (bodyTok : Token) (body : List Stmt)
/-- Statements and declarations (ast.py:204-292, 387-407, 487-576).  An expression used as a
statement is wrapped. -/
inductive Stmt where
  | expr (e : Expr)
  | varDecl (tok name : Token) (ty : TyExpr) (assign : Option Expr)
  | loopCtl (tok : Token)
  | retorna (tok : Token) (e : Option Expr)
  | produz (tok : Token) (e : Expr)
  | mostra (tok : Token) (e : Expr)
  | se (tok : Token) (cond : Expr) (thenB : List Stmt) (elsifs : List ElseIf) (elseB : Option (List Stmt))
  | enquanto (tok : Token) (cond : Expr) (body : List Stmt)
  | escolha (tok : Token) (sel : Expr) (cases : List ElseIf) (default : Option (List Stmt))
  | para (tok name : Token) (start stop : Expr) (inc : Option Expr) (body : List Stmt)
  | func (name : Token) (params : List Param) (ret : Option TyExpr) (body : Option (List Stmt))
      (native : Bool) (annotations : List Annotation)
  | method (generics : List Token) (target : TyExpr) (name : Token) (params : List Param)
      (ret : Option TyExpr) (body : List Stmt) (annotations : List Annotation)
  | registo (name : Token) (generics : List Token) (fields : List Stmt) (annotations : List Annotation)
  | uniao (name : Token) (generics : List Token) (variants : List UniaoVariant)
      (annotations : List Annotation)
  | usa (tok module : Token) (mode : UsaMode)
/-- `SenaoSe` (ast.py:264-268) and `CaseBlock` (ast.py:279-283). -/
inductive ElseIf where
  | mk (tok : Token) (cond : Expr) (body : List Stmt)
end

/-- `Module` (ast.py:88-94). -/
structure Tree where
  annotations : List Annotation
  stmts : List Stmt

/-- `Token(TT.IDENTIFIER, "_")` (parse.py:779). -/
def wildcardTok : Token := { tt := .identifier, lexeme := .text ['_'], line := 0, col := 0 }

/-- The token of an empty list of path components; paths have at least two. -/
def noTok : Token := { tt := .eof, lexeme := .text [], line := 0, col := 0 }

/-- `node.token` of an expression (the `super().__init__` calls of ast.py:120-484). -/
def Expr.token : Expr → Token
  | .const t | .fmtStr t _ | .var t | .converta t _ _ | .alvo t | .bin t _ _ | .un t _
  | .assign t _ _ | .iguala t _ _ | .list t _ _ | .named t _ | .get _ t | .index t _ _
  | .indexSet t _ _ => t
  | .call c _ => c.token
  | .set _ e => e.token
  | .path ts => ts.headD noTok

/-- `pattern.token` (ast.py:294-334). -/
def Pat.token : Pat → Token
  | .int t | .str t | .bind t | .adtVar t _ => t
  | .adtPath ts _ => ts.headD noTok

/-- `is_assignable` (ast.py:67-68, 146-147, 439-440, 449-450, 459-460). -/
def Expr.isAssignable : Expr → Bool
  | .var _ | .get _ _ | .index _ _ _ | .indexSet _ _ _ => true
  | _ => false

end Amanda

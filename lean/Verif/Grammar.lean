import Verif.Parser

/-!
# The grammar of syntax trees

Which trees stand for programs, written without the parser (amanda/compiler/parse.py).  `Verif.Props.Grammar`
shows that the parser makes no others, with one exception.
-/

namespace Amanda

namespace Grammar

/-- A name. -/
def ident (t : Token) : Bool := t.tt == .identifier

/-- Operators between two operands. -/
def binary (t : TT) : Bool :=
  [TT.plus, .minus, .star, .slash, .doubleslash, .modulo, .e, .ou, .greater, .greatereq, .less, .lesseq, .doubleequal,
    .notequal].contains t

/-- Operators before an operand. -/
def unary (t : TT) : Bool := [TT.plus, .minus, .nao].contains t

/-- Literals. -/
def literal (t : TT) : Bool := [TT.integer, .real, .string, .nulo, .verdadeiro, .falso].contains t

mutual
/-- Types: names, paths of at least two names, vectors. -/
def typeOk : TyExpr → Bool
  | .name tok _ none => ident tok
  | .name tok _ (some as) => ident tok && !as.isEmpty && typesOk as
  | .path tok comps _ none => ident tok && decide (2 ≤ comps.length)
  | .path tok comps _ (some as) => ident tok && decide (2 ≤ comps.length) && !as.isEmpty && typesOk as
  | .array el _ => typeOk el
def typesOk : List TyExpr → Bool
  | [] => true
  | t :: ts => typeOk t && typesOk ts
end

mutual
/-- Patterns. -/
def patOk : Pat → Bool
  | .int tok => tok.tt == .integer
  | .str tok => tok.tt == .string
  | .bind tok => ident tok
  | .adtPath comps args => decide (2 ≤ comps.length) && comps.all ident && patsOk args
  | .adtVar tok args => ident tok && !args.isEmpty && patsOk args
def patsOk : List Pat → Bool
  | [] => true
  | p :: ps => patOk p && patsOk ps
end

/-- A parameter. -/
def paramOk (p : Param) : Bool := ident p.name && typeOk p.ty

/-- An optional type. -/
def typeOkOpt : Option TyExpr → Bool
  | none => true
  | some t => typeOk t

/-- A variant. -/
def variantOk (v : UniaoVariant) : Bool := ident v.name && typesOk v.params

/-- A variable. -/
def isVar : Expr → Bool
  | .var _ => true
  | _ => false

/-- A field. -/
def isGet : Expr → Bool
  | .get _ _ => true
  | _ => false

/-- An element. -/
def isIndex : Expr → Bool
  | .index .. => true
  | _ => false

/-- An assignment to an element. -/
def isIndexSet : Expr → Bool
  | .indexSet .. => true
  | _ => false

/-- A declaration of a variable. -/
def isDecl : Stmt → Bool
  | .varDecl .. => true
  | _ => false

mutual
/-- Expressions.  With `assigns` the expression may also be an assignment to a variable, field or element, of what
may again be one. -/
def exprOk (lax assigns : Bool) : Expr → Bool
  | .const tok => literal tok.tt
  | .fmtStr tok parts => tok.tt == .formatStr && valuesOk lax parts
  | .var tok => ident tok
  | .converta _ e ty => exprOk lax false e && typeOk ty
  | .alvo tok => tok.tt == .alvo
  | .bin tok a b => binary tok.tt && exprOk lax false a && exprOk lax false b
  | .un tok e => unary tok.tt && exprOk lax false e
  | .iguala _ e arms => exprOk lax false e && armsOk lax arms
  | .call f args => exprOk lax false f && argsOk lax args
  | .list _ ty es => typeOk ty && valuesOk lax es
  | .get e m => exprOk lax false e && ident m
  | .index _ e i => exprOk lax false e && exprOk lax false i
  | .path comps => decide (2 ≤ comps.length) && comps.all ident
  | .assign _ l e => assigns && isVar l && exprOk lax false l && exprOk lax true e
  | .set l e => assigns && isGet l && exprOk lax false l && exprOk lax true e
  | .indexSet _ l e => assigns && isIndex l && exprOk lax false l && exprOk lax true e
  | .named .. => false
def valuesOk (lax : Bool) : List Expr → Bool
  | [] => true
  | e :: es => exprOk lax false e && valuesOk lax es
/-- Arguments, with names or without. -/
def argsOk (lax : Bool) : List Expr → Bool
  | [] => true
  | .named n e :: es => ident n && exprOk lax false e && argsOk lax es
  | e :: es => exprOk lax false e && argsOk lax es
/-- The arms of `iguala`. -/
def armsOk (lax : Bool) : List Arm → Bool
  | [] => true
  | .mk _ p _ body :: rest => patOk p && stmtsOk lax body && armsOk lax rest
/-- `v[i] = x += y`. -/
def chainedOk (lax : Bool) : Expr → Bool
  | .assign _ l (.bin op l' r) =>
      isIndexSet l && exprOk lax true l && binary op.tt && exprOk lax true l' && exprOk lax false r
  | _ => false
/-- Statements.  A declaration gives its own variable a value, the fields of a registo are
declarations, a function has a body if it is not native.  With `lax` an assignment to an element may itself be
the target of an assignment, as in `v[0] = 1 += 2`. -/
def stmtOk (lax : Bool) : Stmt → Bool
  | .expr e => exprOk lax true e || (lax && chainedOk lax e)
  | .varDecl _ name ty none => ident name && typeOk ty
  | .varDecl _ name ty (some (.assign _ (.var tok) e)) => ident name && typeOk ty && decide (tok = name) && exprOk lax false e
  | .varDecl _ _ _ (some _) => false
  | .loopCtl tok => tok.tt == .quebra || tok.tt == .continua
  | .retorna _ none => true
  | .retorna _ (some e) => exprOk lax false e
  | .produz _ e => exprOk lax false e
  | .mostra _ e => exprOk lax false e
  | .se _ c b es none => exprOk lax false c && stmtsOk lax b && elsesOk lax es
  | .se _ c b es (some d) => exprOk lax false c && stmtsOk lax b && elsesOk lax es && stmtsOk lax d
  | .enquanto _ c b => exprOk lax false c && stmtsOk lax b
  | .escolha _ e cs none => exprOk lax false e && elsesOk lax cs
  | .escolha _ e cs (some d) => exprOk lax false e && elsesOk lax cs && stmtsOk lax d
  | .para _ name x y none b => ident name && exprOk lax false x && exprOk lax false y && stmtsOk lax b
  | .para _ name x y (some z) b => ident name && exprOk lax false x && exprOk lax false y && exprOk lax false z && stmtsOk lax b
  | .func name ps ret none native _ => ident name && ps.all paramOk && typeOkOpt ret && native
  | .func name ps ret (some b) native _ => ident name && ps.all paramOk && typeOkOpt ret && !native && stmtsOk lax b
  | .method gs target name ps ret b _ =>
      gs.all ident && typeOk target && ident name && ps.all paramOk && typeOkOpt ret && stmtsOk lax b
  | .registo name gs fields _ => ident name && gs.all ident && fieldsOk lax fields
  | .uniao name gs vs _ => ident name && gs.all ident && vs.all variantOk
  | .usa .. => false
def stmtsOk (lax : Bool) : List Stmt → Bool
  | [] => true
  | s :: ss => stmtOk lax s && stmtsOk lax ss
def elsesOk (lax : Bool) : List ElseIf → Bool
  | [] => true
  | .mk _ c b :: rest => exprOk lax false c && stmtsOk lax b && elsesOk lax rest
def fieldsOk (lax : Bool) : List Stmt → Bool
  | [] => true
  | s :: rest => isDecl s && stmtOk lax s && fieldsOk lax rest
end

/-- `usa`. -/
def usaOk : Stmt → Bool
  | .usa _ module (.scoped alias) => module.tt == .string && ident alias
  | .usa _ module (.item items) => module.tt == .string && !items.isEmpty
  | .usa _ module .global => module.tt == .string
  | _ => false

/-- A program: `usa` first, then the other statements. -/
def treeOk (lax : Bool) (t : Tree) : Bool := stmtsOk lax (t.stmts.dropWhile usaOk)

end Grammar

end Amanda

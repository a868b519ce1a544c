import Verif.Elaborate
import Verif.Typed

/-!
# A part of the language by its syntax

`okE`, `okS`, `okTop`: programs over `int`, `real`, `bool`, `texto`, vectors of these and functions, with
`se`, `enquanto`, `para`, `mostra`, `retorna`, assignments, `converta`, format strings and the functions `leia`,
`leia_int`, `leia_real`, `escreva`, `escrevaln`, `txt_contem`, `tam`, `anexa` and `remova` of the library, written so that
none of the known faults of the checker is met.  Left out are
* unary `+`, for which no code is generated that works;
* an initial value that mentions the variable it is for;
* variables with the name of a function that is called or of a type;
* `anexa` and `remova` with fewer than two arguments;
* in programs with real numbers: `//`, and an element of a vector, a conversion to `int` or an assignment
  where a value may have to be converted to `real` (the conversion is lost);
* functions with a result that do not clearly return;
* where `strict` is asked for: what the code generator gets wrong, `quebra` and `continua` in the body of a `para`
  and statements that leave a value in a function without variables.
Registos, uniões, methods, `iguala`, `escolha`, `usa`, `alvo` and other functions of the library are not covered.
-/

namespace Amanda.Check

open Source (Use Mode)

/-- The names of variables and functions of a program and of the functions of the library it uses, whether it has real numbers, and whether the code
generated for it is to be right. -/
structure Frag where
  vars : List String
  fns : List String
  libs : List String
  reals : Bool
  strict : Bool

/-- The texts of real numbers: `d.d`, `d.de±d`, `de±d`. -/
def exponent : List Char → Bool
  | [] => true
  | 'e' :: '-' :: ds | 'e' :: '+' :: ds => ds.all Char.isDigit && !ds.isEmpty
  | _ => false

/-- See `exponent`. -/
def numeral (cs : List Char) : Bool :=
  !(cs.takeWhile Char.isDigit).isEmpty &&
  match cs.dropWhile Char.isDigit with
  | '.' :: r => !(r.takeWhile Char.isDigit).isEmpty && exponent (r.dropWhile Char.isDigit)
  | [] => false
  | r => exponent r

/-- A text in quotes. -/
def quotedText (cs : List Char) : Bool :=
  match cs with
  | c :: rest => (c == '"' || c == '\'') && rest.getLast? == some c
  | [] => false

/-- Literals as the lexer makes them. -/
def okLit (r : Bool) (tok : Token) : Bool :=
  match tok.tt, tok.lexeme with
  | .integer, .int _ => true
  | .real, .real s => r && numeral s.toList
  | .string, .text cs => quotedText cs
  | .verdadeiro, .text cs => cs == "verdadeiro".toList
  | .falso, .text cs => cs == "falso".toList
  | _, _ => false

/-- The names of types that may be written. -/
def typeWord (r : Bool) (s : String) : Bool := s == "int" || s == "bool" || s == "texto" || (r && s == "real")

/-- Types. -/
def plainTy (r : Bool) : TyExpr → Bool
  | .name tok false none => typeWord r tok.str
  | .array el false => plainTy r el
  | _ => false

/-- Operators, `//` only where there are no real numbers, `/` only where there are. -/
def okOp (r : Bool) (op : TT) : Bool :=
  match op with
  | .doubleslash => !r
  | .slash => r
  | _ => true

/-- Expressions on which a conversion to `real` is carried out. -/
def converts : Expr → Bool
  | .const _ | .var _ | .bin .. | .un .. | .call .. => true
  | _ => false

/-- Expressions that are no integers whatever the variables in them are. -/
def notInt : Expr → Bool
  | .const tok => tok.tt != .integer
  | .fmtStr .. | .list .. => true
  | .converta _ _ (.name tok _ _) => tok.str != "int"
  | .converta _ _ (.array ..) => true
  | _ => false

/-- Names of types, and of the functions with rules of their own. -/
def reserved : List String :=
  ["int", "real", "bool", "texto", "vazio", "vec", "tam", "anexa", "remova"]

/-- The functions of the library, with the types of their parameters and results (std/embutidos.ama:6-37). -/
def libSig : String → Option (List PTag × PTag)
  | "leia" => some ([.texto], .texto)
  | "leia_int" => some ([.texto], .int)
  | "leia_real" => some ([.texto], .real)
  | "escreva" => some ([.indef], .vazio)
  | "escrevaln" => some ([.indef], .vazio)
  | "txt_contem" => some ([.texto, .texto], .bool)
  | "anexa" => some ([.indef, .indef], .vazio)
  | "remova" => some ([.indef, .int], .indef)
  | "tam" => some ([.indef], .int)
  | _ => none

/-- The names used by an expression. -/
def usesName (name : String) : Expr → Bool
  | .const _ => false
  | .fmtStr _ es | .list _ _ es => usesAny es
  | .var tok => tok.str == name
  | .converta _ e _ | .un _ e => usesName name e
  | .bin _ a b | .assign _ a b | .index _ a b | .indexSet _ a b => usesName name a || usesName name b
  | .call f es => usesName name f || usesAny es
  | _ => true
where
  usesAny : List Expr → Bool
  | [] => false
  | e :: es => usesName name e || usesAny es

/-- Where a value may have to be converted to `real`. -/
def okTarget (K : Frag) (e : Expr) : Bool := !K.reals || converts e || notInt e

/-- How functions of the library are used. -/
def okUse (K : Frag) (n : String) (es : List Expr) : Bool :=
  if n = "anexa" then decide (2 ≤ es.length) && es.all (okTarget K)
  else if n = "remova" then decide (2 ≤ es.length)
  else true

mutual
/-- Expressions, and what they are used for. -/
def okE (K : Frag) (u : Use) : Expr → Bool
  | .const tok => okLit K.reals tok
  | .fmtStr _ es => okEs K es
  | .var tok => K.vars.contains tok.str
  | .converta _ e ty => okE K .value e && plainTy K.reals ty
  | .bin tok a b => okOp K.reals tok.tt && okE K .value a && okE K .value b
  | .un tok e => tok.tt != .plus && okE K .value e
  | .assign _ (.var tok) e => decide (u ≠ .value) && K.vars.contains tok.str && okE K .rhs e && okTarget K e
  | .list _ ty es => plainTy K.reals ty && okVs K es
  | .call (.var tok) es =>
      (K.fns.contains tok.str && okVs K es) || (K.libs.contains tok.str && okEs K es && okUse K tok.str es)
  | .index _ a i => okE K .value a && okE K .value i
  | .indexSet _ (.index _ a i) e =>
      decide (u = .stmt) && okE K .value a && okE K .value i && okE K .value e && (!K.reals || notInt e)
  | _ => false
/-- Lists. -/
def okEs (K : Frag) : List Expr → Bool
  | [] => true
  | e :: es => okE K .value e && okEs K es
/-- Arguments and elements. -/
def okVs (K : Frag) : List Expr → Bool
  | [] => true
  | e :: es => okE K .value e && okTarget K e && okVs K es
end

mutual
/-- A statement after which nothing of the function runs. -/
def returnsS : Stmt → Bool
  | .retorna _ _ => true
  | .se _ _ body elsifs (some last) => returnsSs body && returnsElses elsifs && returnsSs last
  | _ => false
/-- Statements. -/
def returnsSs : List Stmt → Bool
  | [] => false
  | s :: ss => returnsS s || returnsSs ss
/-- Branches. -/
def returnsElses : List ElseIf → Bool
  | [] => true
  | .mk _ _ body :: rest => returnsSs body && returnsElses rest
end

/-- A change of a variable or vector. -/
def changes : Expr → Bool
  | .assign .. | .indexSet .. => true
  | _ => false

mutual
/-- Statements other than functions, and where they stand. -/
def okS (K : Frag) (m : Mode) : Stmt → Bool
  | .expr e => okE K .stmt e && (!m.tidy || changes e)
  | .varDecl _ name ty none => K.vars.contains name.str && plainTy K.reals ty
  | .varDecl _ name ty (some (.assign _ (.var tok) e)) =>
      K.vars.contains name.str && plainTy K.reals ty && tok.str == name.str && okE K .rhs e && okTarget K e &&
        !usesName name.str e
  | .loopCtl _ => m.loop
  | .retorna _ none => true
  | .retorna _ (some e) => okE K .value e && okTarget K e
  | .mostra _ e => okE K .value e
  | .se _ c b es none => okE K .value c && okSs K m.block b && okElses K m es
  | .se _ c b es (some d) => okE K .value c && okSs K m.block b && okElses K m es && okSs K m.block d
  | .enquanto _ c b => okE K .value c && okSs K m.loopIn b
  | .para _ name x y none b => K.vars.contains name.str && okE K .value x && okE K .value y && okSs K m.paraIn b
  | .para _ name x y (some z) b =>
      K.vars.contains name.str && okE K .value x && okE K .value y && okE K .value z && okSs K m.paraIn b
  | _ => false
/-- Lists. -/
def okSs (K : Frag) (m : Mode) : List Stmt → Bool
  | [] => true
  | s :: ss => okS K m s && okSs K m ss
/-- Branches. -/
def okElses (K : Frag) (m : Mode) : List ElseIf → Bool
  | [] => true
  | .mk _ c b :: rest => okE K .value c && okSs K m.block b && okElses K m rest
end

/-- Results of functions: left out, or a type. -/
def okRet (r : Bool) : Option TyExpr → Bool
  | none => true
  | some t => plainTy r t

/-- A declaration of a variable. -/
def isDecl : Stmt → Bool
  | .varDecl .. => true
  | _ => false

/-- Where the statements of a module stand. -/
def Frag.top (K : Frag) : Mode := ⟨false, false, K.strict, true⟩

/-- Where the statements of a function stand. -/
def Frag.body (K : Frag) (params : List Param) (body : List Stmt) : Mode :=
  ⟨false, K.strict && params.isEmpty && !body.any isDecl, K.strict, false⟩

/-- The statements of a module. -/
def okTop (K : Frag) : Stmt → Bool
  | .func name params ret (some body) false as =>
      K.fns.contains name.str && !builtinAnn as && params.all (fun p => K.vars.contains p.name.str && plainTy K.reals p.ty) &&
        okRet K.reals ret && okSs K (K.body params body) body && (ret.isNone || returnsSs body)
  | s => okS K K.top s

/-- A whole program. -/
def okTree (K : Frag) (t : Tree) : Bool :=
  t.stmts.all (okTop K) && K.vars.all (fun v => !K.fns.contains v && !reserved.contains v) &&
    K.fns.all (fun f => !reserved.contains f) && K.libs.all (fun n => (libSig n).isSome && (n != "leia_real" || K.reals)) &&
    K.vars.all fun v => !K.libs.contains v

end Amanda.Check

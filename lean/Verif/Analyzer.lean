import Verif.Check

/-!
# The visits of the checker: check/core.py:472-1382, check/iguala.py, check/uniao.py

`visitE` and `visitS` follow `visit` on expressions and statements.  `mod` is `ctx_module.fpath`.
-/

namespace Amanda.Check

open Imports (Path)

/-- `MAX_AMA_INT` (check/core.py:36). -/
def maxInt : Nat := 2 ^ 63 - 1

/-- `visit_constant` (check/core.py:772-790). -/
def constTy (tok : Token) : C CTy := do
  match tok.tt with
  | .integer => do
    let t ← namedTy "int"
    match tok.lexeme with
    | .int n =>
      if n > maxInt then
        C.error ("Número inteiro demasiado grande. Só pode usar números inteiros iguais ou menores que '" ++
          toString maxInt ++ "'")
      else pure t
    | _ => C.raise "ValueError"
  | .real => pure (.prim .real)
  | .string => pure (.prim .texto)
  | .verdadeiro | .falso => pure (.prim .bool)
  | .nulo => pure (.prim .nulo)
  | _ => pure (.prim .unknown)

/-- `BUILTINS` (builtinfn.py:14): `None` for other names. -/
def isBuiltinFn (name : String) : Bool := name = "vec" || name = "tam" || name = "anexa" || name = "remova"

/-- `check_arity` (check/core.py:1311-1327); `desc` is `callable_desc`. -/
def checkArity (received : Nat) (desc : String) (arity : Nat) : C Unit :=
  if received ≠ arity then
    C.error ("número incorrecto de argumentos para " ++ desc ++ ". Esperava " ++ toString arity ++
      " argumento(s), porém recebeu " ++ toString received)
  else pure ()

/-- `callable_desc` (check/core.py:1320-1324). -/
def callDesc (x : CSym) : C String := do
  let name ← match x.body with
    | .method _ target _ => do pure ((← view target).name ++ "::" ++ x.name)
    | _ => pure x.name
  return if x.isProperty then "o método " ++ name else "a função " ++ name

/-- The promotions of arguments (check/core.py:1343-1349). -/
def promArgs : List AExpr → List CTy → C (List AExpr)
  | a :: as, t :: ts => do
    let p ← promTy a.ty t
    if ← matchTy t a.ty then
      let rest ← promArgs as ts
      pure (a.setProm p :: rest)
    else
      C.error ("argumento inválido. Esperava-se um argumento do tipo '" ++ (← showTy t) ++
        "' mas recebeu o tipo '" ++ (← showTy a.ty) ++ "'")
  | as, _ => pure as

/-- The types of parameters. -/
def paramTys : List (String × SymId) → C (List CTy)
  | [] => pure []
  | (_, i) :: rest => do
    match (← symOf i).ty? with
    | some t => do
      let ts ← paramTys rest
      pure (t :: ts)
    | none => C.raise "AttributeError"

/-- `validate_variant_init` after the arguments (check/uniao.py:57-63). -/
def promVariant : List AExpr → List CTy → Nat → C (List AExpr)
  | a :: as, t :: ts, i => do
    let p ← promTy a.ty t
    if ← matchTy t a.ty then
      let rest ← promVariant as ts (i + 1)
      pure (a.setProm p :: rest)
    else
      C.error ("erro no argumento " ++ toString (i + 1) ++ ". Esperava-se um argumento do tipo '" ++ (← showTy t) ++
        "' mas recebeu o tipo '" ++ (← showTy a.ty) ++ "'")
  | as, _, _ => pure as

/-- The fields of a `registo` with their types. -/
def fieldTys : List (String × SymId) → C (List (String × CTy))
  | [] => pure []
  | (n, i) :: rest => do
    let t := ((← symOf i).ty?).getD (.prim .unknown)
    let ts ← fieldTys rest
    pure ((n, t) :: ts)

/-- `node.of_type(ast.NamedArg)`. -/
def isNamed : Expr → Bool
  | .named .. => true
  | _ => false

/-- `Vector(Vector(.. el ..))` with `n` levels more (check/core.py:1264-1267). -/
def nestVec (t : CTy) : Nat → CTy
  | 0 => t
  | n + 1 => nestVec (.vec t) n

/-- The token of a `Block` (ast.py:80). -/
def blockTok : Token := { tt := .program, lexeme := .text [], line := 1, col := 1 }

/-- `visit_yieldblock` (check/core.py:735-752) with the visit of its children. -/
def yieldBlock (tok : Token) (sc : ScopeId) (children : C (List AStmt)) : C AArm := do
  C.at_ tok
  enterScope sc
  let prev := (← C.get).ana.yield
  C.modify fun s => { s with ana := { s.ana with yield := some ⟨.prim .vazio, false⟩ } }
  let body ← children
  let y := ((← C.get).ana.yield).getD ⟨.prim .vazio, false⟩
  if !(← sameTy y.ty (.prim .vazio)) && y.hasReturn then
    C.error "Um bloco não pode conter as instruções 'retorna' e 'produz' ao mesmo tempo"
  else
    C.modify fun s => { s with ana := { s.ana with yield := prev } }
    leaveScope
    pure (.seen tok y.ty sc body)

/-- The visits of the reachable blocks (check/iguala.py:62-74), each with the scope of its arm; `ty` is the
type of the first block. -/
def runArms (acts : List (C AArm)) : List Nat → Option CTy → List (Nat × AArm) → C (CTy × List (Nat × AArm))
  | [], some t, done => pure (t, done)
  | [], none, _ => C.raise "IndexError"
  | k :: ks, first, done => do
    match acts[k]? with
    | none => C.raise "IndexError"
    | some act => do
      let a ← act
      let t := match a with
        | .seen _ t _ _ => t
        | .skipped _ => .prim .unknown
      match first with
      | none => runArms acts ks (some t) ((k, a) :: done)
      | some f =>
        if ← sameTy t f then runArms acts ks (some f) ((k, a) :: done)
        else
          C.error ("Retorno da alternativa iguala inválido. Esperava-se o tipo '" ++ (← showTy f) ++
            "' mas o bloco retorna o tipo '" ++ (← showTy t) ++ "'")

/-- What became of the arms, from the number `k` on. -/
def armResults (done : List (Nat × AArm)) : List Arm → Nat → List AArm
  | [], _ => []
  | .mk _ _ _ body :: rest, k =>
    (match done.find? (·.1 == k) with
      | some (_, a) => a
      | none => .skipped body) :: armResults done rest (k + 1)

/-- The pattern of an arm. -/
def armPat : Arm → Pat
  | .mk _ p _ _ => p

/-- `visit_get` and `visit_set`: whether the target is a module (check/core.py:915). -/
def isModTy : CTy → Bool
  | .mod _ => true
  | _ => false

/-- `supports_index_get`, `supports_tam` (types/core.py:162-166, 288-295, 595-602). -/
def indexable : CTy → Bool
  | .prim .texto | .vec _ => true
  | _ => false

/-- `index_item_ty` (types/core.py:178-183, 302-303). -/
def itemTy : CTy → CTy
  | .prim .texto => .prim .texto
  | .vec el => el
  | _ => .prim .unknown

/-- The element type of a vector. -/
def elemTy? : CTy → Option CTy
  | .vec el => some el
  | _ => none

/-- `visit_assign` after both sides (check/core.py:1011-1036). -/
def assignTy (mod : String) (tok : Token) (name : String) (lhs rhs : AExpr) : C AExpr := do
  match ← resolve name with
  | none => C.raise "AttributeError"
  | some i => do
    let x ← symOf i
    if x.modPath ≠ mod then
      C.error "Atribuição inválida. As variáveis globais de um módulo importado não podem ser modificadas externamente"
    else if isModTy lhs.ty then
      C.error "Atribuição inválida. Não pode atribuir valores a um módulo"
    else do
      let p ← promTy rhs.ty lhs.ty
      if ← matchTy lhs.ty rhs.ty then pure (.mk lhs.ty .unknown (.assign tok lhs (rhs.setProm p)))
      else
        C.at_ tok
        C.error ("atribuição inválida. incompatibilidade entre os operandos da atribuição: '" ++ (← showTy lhs.ty) ++
          "' e '" ++ (← showTy rhs.ty) ++ "'")

/-- `visit_binop` after both operands (check/core.py:977-996). -/
def binTy (tok : Token) (a b : AExpr) : C AExpr := do
  match Ty.binop (← view a.ty) tok.tt (← view b.ty) with
  | none => do
    C.at_ tok
    C.error ("os tipos '" ++ (← showTy a.ty) ++ "' e '" ++ (← showTy b.ty) ++ "' não suportam operações com o operador '" ++
      tok.str ++ "'")
  | some t => do
    let p ← promTy a.ty b.ty
    let q ← promTy b.ty a.ty
    pure (.mk (ofPrim t) .unknown (.bin tok (a.setProm p) (b.setProm q)))

/-- `visit_unaryop` after the operand (check/core.py:998-1009). -/
def unTy (tok : Token) (a : AExpr) : C AExpr := do
  match Ty.unaryop (← view a.ty) tok.tt with
  | none => do
    C.at_ tok
    C.error ("o operador unário " ++ tok.str ++ " não pode ser usado com o tipo '" ++ (← showTy a.ty) ++ "' ")
  | some t => pure (.mk (ofPrim t) .unknown (.un tok a))

/-- `visit_indexget` after both parts (check/core.py:928-946). -/
def indexTy (tok : Token) (a i : AExpr) : C AExpr := do
  if !indexable a.ty then C.error ("O valor do tipo '" ++ (← showTy a.ty) ++ "' não contém índices")
  else if !(← sameTy (.prim .int) i.ty) then
    C.error ("Índices para valores do tipo '" ++ (← showTy a.ty) ++ "' devem ser do tipo 'int'")
  else pure (.mk (itemTy a.ty) .unknown (.index tok a i))

/-- `visit_indexset` between its parts (check/core.py:948-966): it asks whether the element, not the
vector, can be changed by an index. -/
def indexSetOk (t : CTy) : C Unit := do
  match t with
  | .vec _ => pure ()
  | _ => do
    let tag ← tagOf t
    if tag = .texto then C.error "As strings não podem ser modificadas por meio de índices" else pure ()

/-- `visit_converta` after its target (check/core.py:968-975). -/
def convTy (tok : Token) (a : AExpr) (t : CTy) : C AExpr := do
  if ← C.lift (Ty.checkCast (← view a.ty) (← view t)) then pure (.mk t .unknown (.converta tok a))
  else
    C.error ("Não pode converter um valor do tipo '" ++ (← showTy a.ty) ++ "' para o tipo '" ++ (← showTy t) ++ "'")

/-- `visit_alvo` (check/core.py:717-727). -/
def alvoTy (mod : String) (tok : Token) : C AExpr := do
  let s ← C.get
  let x : Option SymBody ← match s.ana.ctxFunc with
    | none => pure none
    | some i => do pure (some (← symOf i).body)
  match x with
  | some (.method _ target _) => do
    let i ← newVar mod "alvo" target
    pure (.mk target .unknown (.alvo tok i))
  | _ => C.error "a palavra reservada 'alvo' só pode ser usada dentro de um método"

/-- `builtin_call` for `anexa` and `remova` after the visit of the arguments (check/core.py:1226-1235,
1269-1291). -/
def vecOp (name : String) (args : List AExpr) : C (CTy × List AExpr) := do
  match args with
  | [v, x] =>
    match elemTy? v.ty with
    | none => C.error ("O argumento 1 da função '" ++ name ++ "' deve ser um vector")
    | some el =>
      if name = "anexa" then
        if ← matchTy el x.ty then
          let p ← promTy x.ty el
          pure (← globalTy "vazio", [v, x.setProm p])
        else
          C.error ("incompatibilidade de tipos entre o tipo dos elementos da lista e o valor a anexar: '" ++
            (← showTy el) ++ "' != '" ++ (← showTy x.ty) ++ "'")
      else if ← sameTy x.ty (.prim .int) then pure (el, [v, x])
      else C.error "O argumento 2 da função 'remova' deve ser um número inteiro"
  | _ => C.raise "IndexError"

/-- `builtin_call` for `tam` after the visit of the argument (check/core.py:1293-1305). -/
def tamOp (args : List AExpr) : C (CTy × List AExpr) := do
  match args with
  | [x] =>
    if indexable x.ty then pure (← globalTy "int", [x])
    else C.error "O argumento 1 da função 'tam' deve ser do tipo 'texto' ou do tipo 'vector'"
  | _ => C.raise "IndexError"

/-- The element type of `vec` (check/core.py:1259-1268); other nodes than names are no types there. -/
def vecTy (first : Expr) (dims : Nat) : C CTy := do
  match first with
  | .var tok => do
    let el ← symTy (← typeSym tok.str)
    pure (nestVec (.vec el) (dims - 1))
  | _ => C.raise "NotImplementedError"

/-- How the arguments of a call are checked (check/core.py:1212-1222). -/
inductive CallKind where
  | builtin (name : String)
  | init (fields : List (String × CTy)) (name : String)
  | variant (uniao : SymId) (params : List CTy) (desc : String)
  | func

/-- The branch of `visit_call` a symbol leads to (check/core.py:1212-1224). -/
def callKind (i : SymId) : C CallKind := do
  let x ← symOf i
  if isBuiltinFn x.name then pure (.builtin x.name)
  else
    match x.body with
    | .registo fields _ _ => do return .init (← fieldTys (← symbolsOf fields)) x.name
    | .variant _ u params => do return .variant u params ((← symOf u).name ++ "::" ++ x.name)
    | _ => pure .func

/-- A condition: `eval_type.tag != Types.TBOOL` (check/core.py:1098-1099, 1136-1140). -/
def condTag (e : AExpr) (tok : Option Token) (msg : String) : C Unit := do
  let tag ← tagOf e.ty
  if tag = .bool then pure ()
  else do
    match tok with
    | some t => C.at_ t
    | none => pure ()
    C.error msg

/-- `visit_retorna` before its expression (check/core.py:1049-1065). -/
def retornaTy (tok : Token) (given : Bool) : C CTy := do
  let s ← C.get
  match s.ana.ctxFunc with
  | none => do
    C.at_ tok
    C.error "A directiva 'retorna' só pode ser usada dentro de uma função"
  | some i => do
    match (← symOf i).ty? with
    | none => C.raise "AttributeError"
    | some t => do
      let v ← sameTy t (.prim .vazio)
      if v && given then C.error "Não pode retornar um valor de uma função vazia"
      else if !v && !given then
        C.error "A instrução de retorno vazia só pode ser usada dentro de uma função vazia"
      else
        C.modify fun s => { s with ana := { s.ana with yield := s.ana.yield.map fun y => { y with hasReturn := true } } }
        pure t

/-- `visit_vardecl` up to its initial value (check/core.py:472-490): the symbol and the type. -/
def declareVar (cfg : CCfg) (mod : String) (tok name : Token) (ty : TyExpr) (init : Option Expr) : C (SymId × CTy) := do
  assertFree tok name.str
  let t ← getTy ty
  let i ← newVar mod name.str t
  let s ← C.get
  defineSymbol cfg i s.ana.depth s.ana.ctxScope
  match init with
  | none =>
    if !s.ana.ctxReg && !(← view t).zeroInitialized then
      C.error "Erro de inicialização. Variáveis de tipos não primitivos devem ser inicializadas"
    else pure (i, t)
  | some (.assign _ _ r) =>
    if r.token.str = name.str then
      C.error "Erro ao inicializar variável. Não pode referenciar uma variável durante a sua declaração"
    else pure (i, t)
  | some _ => pure (i, t)

/-- The end of `visit_vardecl` (check/core.py:492-493). -/
def declaredVar (i : SymId) : C Unit := do
  if (← C.get).ana.depth = 0 then updSym i fun x => { x with isGlobal := true } else pure ()

/-- `validate_num_params` (check/core.py:505-514). -/
def checkNumParams (method : Bool) (params : List Param) : C Unit :=
  if params.length > 255 then
    C.error (if method then "Os métodos só podem ter até 255 parâmetros" else "As funções só podem ter até 255 parâmetros")
  else pure ()

/-- `check_function_body` (check/core.py:537-550) with the visit of the body. -/
def inFunction (i : SymId) (body : C ABlock) : C ABlock := do
  let prev := (← C.get).ana.ctxFunc
  C.modify fun s => { s with ana := { s.ana with ctxFunc := some i } }
  let b ← body
  C.modify fun s => { s with ana := { s.ana with ctxFunc := prev } }
  pure b

/-- `visit_block` (check/core.py:729-733) with the visit of its children. -/
def inBlock (sc : ScopeId) (children : C (List AStmt)) : C ABlock := do
  C.at_ blockTok
  enterScope sc
  let body ← children
  leaveScope
  pure (.mk sc body)

/-- `visit_functiondecl` up to the body (check/core.py:552-577): the symbol and the scope. -/
def declareFunc (cfg : CCfg) (mod : String) (name : Token) (params : List Param) (ret : Option TyExpr)
    (body : Option (List Stmt)) (native : Bool) (as : List Annotation) : C (SymId × ScopeId) := do
  validateDecl name.str "As funções só podem ser declaradas no escopo global"
    ("O identificador '" ++ name.str ++ "' já foi declarado neste escopo")
  checkNumParams false params
  let t ← getTy? ret
  let i ← newSym { name := name.str, outId := name.str, modPath := mod, builtin := builtinAnn as, body := .func t [] }
  let sc ← makeFunc cfg mod i params
  if builtinAnn as || native then pure (i, sc)
  else
    let vazio ← sameTy t (.prim .vazio)
    if validReturn (body.getD []) vazio then pure (i, sc)
    else
      C.at_ name
      C.error ("a função '" ++ name.str ++ "' não possui a instrução 'retorna'")

/-- `visit_methoddecl` up to the body (check/core.py:598-655): the symbol, the scope and the target. -/
def declareMethod (cfg : CCfg) (mod : String) (generics : List Token) (target : TyExpr) (name : Token)
    (params : List Param) (ret : Option TyExpr) (body : List Stmt) (as : List Annotation) :
    C (SymId × ScopeId × CTy) := do
  let gs := genericNames generics
  enterTyCtx mod gs
  let t ← getTy target
  let desc := "O método '" ++ name.str ++ "' do tipo '" ++ (← showTy t) ++ "'"
  match ← getProperty t name.str with
  | some i => do
    if (← symOf i).isCallable then C.error (desc ++ " já foi declarado anteriormente")
    else C.error ("A propriedade '" ++ name.str ++ "' já foi definida no tipo '" ++ (← showTy t) ++ "'")
  | none => do
    validateDecl ((← view t).name ++ "::" ++ name.str) "Métodos só podem ser declarados no escopo global"
      (desc ++ " já foi declarado anteriormente")
    let r ← getTy? ret
    let i ← newSym { name := name.str, outId := name.str, modPath := mod, isProperty := true,
                     builtin := builtinAnn as, body := .method r t [] }
    let sc ← makeFunc cfg mod i params
    let alvo ← newVar mod "alvo" t
    defineSymbol cfg alvo ((← C.get).ana.depth + 1) sc
    defineTvars mod sc gs
    if builtinAnn as then pure (i, sc, t)
    else
      let vazio ← sameTy r (.prim .vazio)
      if validReturn body vazio then pure (i, sc, t)
      else
        C.at_ name
        C.error (desc ++ " não possui a instrução 'retorna'")

/-- The variants of a `uniao` (check/uniao.py:31-42). -/
def declareVariants (mod : String) (u : SymId) : List UniaoVariant → Nat → C Unit
  | [], _ => pure ()
  | v :: vs, k => do
    C.at_ v.name
    let x ← symOf u
    match x.body with
    | .uniao variants _ _ =>
      if (variants.find? (·.1 == v.name.str)).isSome then
        C.error ("A variante '" ++ v.name.str ++ "' já foi declarada anteriormente na união '" ++ x.name ++ "'")
      else do
        let ps ← getTys v.params
        let i ← newSym { name := v.name.str, outId := v.name.str, modPath := x.modPath, body := .variant k u ps }
        updSym u fun y =>
          match y.body with
          | .uniao vars ms tps => { y with body := .uniao (assign v.name.str i vars) ms tps }
          | _ => y
        declareVariants mod u vs (k + 1)
    | _ => C.raise "AttributeError"

/-- `check_uniao` (check/uniao.py:9-28). -/
def declareUniao (cfg : CCfg) (mod : String) (name : Token) (generics : List Token) (variants : List UniaoVariant) :
    C SymId := do
  let reg ← innerScope
  let s ← C.get
  match ← getIn s.ana.ctxScope name.str with
  | some _ => C.error ("O identificador '" ++ name.str ++ "' já foi declarado neste escopo")
  | none => do
    let gs := genericNames generics
    enterTyCtx mod gs
    let u ← newSym { name := name.str, outId := name.str, modPath := mod, isGlobal := true, body := .uniao [] [] gs }
    defineSymbol cfg u s.ana.depth s.ana.ctxScope
    enterScope reg
    declareVariants mod u variants 0
    leaveScope
    leaveTyCtx
    pure u

/-- `visit_registo` up to its fields (check/core.py:687-704). -/
def openRegisto (cfg : CCfg) (mod : String) (name : Token) (generics : List Token) : C (SymId × ScopeId) := do
  let reg ← innerScope
  let s ← C.get
  match ← getIn s.ana.ctxScope name.str with
  | some _ => C.error ("O identificador '" ++ name.str ++ "' já foi declarado neste escopo")
  | none => do
    let gs := genericNames generics
    enterTyCtx mod gs
    let r ← newSym { name := name.str, outId := name.str, modPath := mod, isGlobal := true, body := .registo reg [] gs }
    defineSymbol cfg r s.ana.depth s.ana.ctxScope
    C.modify fun s => { s with ana := { s.ana with ctxReg := true } }
    enterScope reg
    pure (r, reg)

/-- `symbol.is_property = True` for the fields (check/core.py:709-710). -/
def markFields : List (String × SymId) → C Unit
  | [] => pure ()
  | (_, i) :: rest => do
    updSym i fun x => { x with isProperty := true }
    markFields rest

/-- `visit_registo` after its fields (check/core.py:709-715). -/
def closeRegisto (cfg : CCfg) (r : SymId) (reg : ScopeId) : C Unit := do
  markFields (← symbolsOf reg)
  leaveScope
  let s ← C.get
  defineSymbol cfg r s.ana.depth s.ana.ctxScope
  leaveTyCtx
  C.modify fun s => { s with ana := { s.ana with ctxReg := false } }

/-- `visit_para` between the range and the block (check/core.py:1152-1159): the scope of the block. -/
def paraScope (cfg : CCfg) (mod : String) (name : Token) : C ScopeId := do
  let t ← namedTy "int"
  let i ← newVar mod name.str t
  let sc ← innerScope
  defineSymbol cfg i ((← C.get).ana.depth + 1) sc
  pure sc

/-- `visit_rangeexpr` after its parts (check/core.py:1170-1175). -/
def checkRange : List AExpr → C Unit
  | [] => pure ()
  | e :: es => do
    if ← sameTy e.ty (.prim .int) then checkRange es
    else C.error "os parâmetros de uma série devem ser do tipo 'int'"

/-- `visit` of a block without a scope of its own yet (check/core.py:729-733, 274-278). -/
def newBlock (children : C (List AStmt)) : C ABlock := do
  let sc ← innerScope
  inBlock sc children

/-- The selector of an `escolha` (check/core.py:1108-1114). -/
def checkSel (x : AExpr) : C Unit := do
  let tag ← tagOf x.ty
  if tag = .int || tag = .texto then pure ()
  else C.error "A directiva escolha só pode ser usada para avaliar números inteiros e strings"

/-- A size given to `vec` (check/core.py:1251-1257). -/
def checkSize (x : AExpr) : C Unit := do
  let tag ← tagOf x.ty
  if tag = .int then pure () else C.error "Os tamanhos de um vector devem ser representado por inteiros"

mutual
/-- `visit` of an expression (check/core.py:759-1036, 1177-1309; check/iguala.py:13-77). -/
def visitE (cfg : CCfg) (mod : String) (par : Par) : Expr → C AExpr
  | .const tok => do
    C.at_ tok
    let t ← constTy tok
    pure (.mk t .unknown (.const tok))
  | .fmtStr tok parts => do
    C.at_ tok
    let t ← globalTy "texto"
    let ps ← visitParts cfg mod tok t parts
    pure (.mk t .unknown (.fmtStr tok ps))
  | .var tok => do
    C.at_ tok
    let (t, i) ← useVar tok
    pure (.mk t .unknown (.var tok (some i)))
  | .converta tok e ty => do
    C.at_ tok
    let a ← visitE cfg mod .eval e
    let t ← getTy ty
    convTy tok a t
  | .alvo tok => do
    C.at_ tok
    alvoTy mod tok
  | .bin tok a b => do
    C.at_ tok
    let x ← visitE cfg mod .eval a
    let y ← visitE cfg mod .eval b
    binTy tok x y
  | .un tok e => do
    C.at_ tok
    let x ← visitE cfg mod .eval e
    unTy tok x
  | .assign tok l r => do
    C.at_ tok
    let y ← visitE cfg mod .eval r
    let x ← visitE cfg mod .eval l
    assignTy mod tok l.token.str x y
  | .list tok ty es => do
    C.at_ tok
    let t ← getTy ty
    let xs ← visitElems cfg mod t es 0
    pure (.mk (.vec t) .unknown (.list tok xs))
  | .named name e => do
    C.at_ name
    let x ← visitE cfg mod .eval e
    pure (.mk x.ty .unknown (.named name x))
  | .get e member => do
    C.at_ member
    let x ← visitE cfg mod .eval e
    let (t, _) ← getProp par x.ty member
    pure (.mk t .unknown (.get x member (par == .set)))
  | .index tok a i => do
    C.at_ tok
    let x ← visitE cfg mod .eval a
    let y ← visitE cfg mod .eval i
    indexTy tok x y
  | .indexSet tok i v => do
    C.at_ tok
    let x ← visitE cfg mod .eval i
    indexSetOk x.ty
    let y ← visitE cfg mod .eval v
    if ← matchTy x.ty y.ty then pure (.mk x.ty .unknown (.indexSet tok x y))
    else
      C.at_ tok
      C.error ("Atribuição inválida. incompatibilidade entre os operandos da atribuição: '" ++ (← showTy x.ty) ++
        "' e '" ++ (← showTy y.ty) ++ "'")
  | .set target e => do
    C.at_ e.token
    let x ← visitE cfg mod .set target
    match x with
    | .mk _ _ (.get o _ _) =>
      if isModTy o.ty then
        C.error "Atribuição inválida. As variáveis globais de um módulo importado não podem ser modificadas externamente"
      else do
        let y ← visitE cfg mod .set e
        let p ← promTy y.ty x.ty
        if ← matchTy x.ty y.ty then pure (.mk x.ty .unknown (.set x (y.setProm p)))
        else
          C.at_ e.token
          C.error ("atribuição inválida. incompatibilidade entre os operandos da atribuição: '" ++ (← showTy x.ty) ++
            "' e '" ++ (← showTy y.ty) ++ "'")
    | _ => C.raise "AttributeError"
  | .path comps => do
    C.at_ (comps.headD noTok)
    let (t, i) ← usePath (par != .call) comps
    pure (.mk t .unknown (.path comps i))
  | .call callee args => do
    C.at_ callee.token
    let (f, i) ← visitCallee cfg mod callee
    match ← callKind i with
    | .builtin name =>
      if name = "vec" then do
        let (t, as) ← visitVec cfg mod args
        pure (.mk t .unknown (.call f as i))
      else if name = "tam" then do
        checkArity args.length ("a função " ++ name) 1
        let as ← visitEs cfg mod .call args
        let (t, as) ← tamOp as
        pure (.mk t .unknown (.call f as i))
      else if args.length < 2 then C.raise "IndexError"
      else do
        checkArity args.length ("a função " ++ name) 2
        let as ← visitEs cfg mod .call args
        let (t, as) ← vecOp name as
        pure (.mk t .unknown (.call f as i))
    | .init fields name => do
      if args.length ≠ fields.length then
        C.error ("número incorrecto de argumentos para o inicializador do registo '" ++ name ++ "'. Esperava " ++
          toString fields.length ++ " argumento(s), porém recebeu " ++ toString args.length)
      else do
        let as ← visitInits cfg mod fields name args []
        pure (.mk (.reg i) .unknown (.call f as i))
    | .variant u params desc => do
      if params.length ≠ args.length then
        C.error ("número incorrecto de argumentos para o constructor da Variante '" ++ desc ++ "'. Esperava " ++
          toString params.length ++ " argumento(s), porém recebeu " ++ toString args.length)
      else do
        let as ← visitEs cfg mod .call args
        let as ← promVariant as params 0
        pure (.mk (.uni u) .unknown (.call f as i))
    | .func => do
      let x ← symOf i
      if !x.isCallable then C.error ("identificador '" ++ x.name ++ "' não é invocável")
      else do
        let as ← visitArgs cfg mod args
        checkArity args.length (← callDesc x) x.params.length
        let as ← promArgs as (← paramTys x.params)
        match x.ty? with
        | some t => pure (.mk t .unknown (.call f as i))
        | none => C.raise "AttributeError"
  | .iguala tok target arms => do
    C.at_ tok
    let sc ← innerScope
    enterScope sc
    let x ← visitE cfg mod .eval target
    if ← sameTy x.ty (.prim .vazio) then
      C.error "Funções sem retorno não podem ser usadas como o alvo da instrução 'iguala'"
    else do
      let pats ← checkArms cfg mod x.ty (arms.map armPat)
      let (ir, reached) ← compileArms cfg mod tok sc x pats
      let acts := armActs cfg mod arms (pats.map (·.1))
      let (t, done) ← runArms acts reached none []
      leaveScope
      pure (.mk t .unknown (.iguala tok x (armResults done arms 0) ir))
/-- The visits of the blocks of arms, not yet run (check/iguala.py:62-74). -/
def armActs (cfg : CCfg) (mod : String) : List Arm → List ScopeId → List (C AArm)
  | .mk _ _ bodyTok body :: rest, sc :: scs =>
    yieldBlock bodyTok sc (visitYs cfg mod body) :: armActs cfg mod rest scs
  | _, _ => []
/-- The callee of a call (check/core.py:1182-1210). -/
def visitCallee (cfg : CCfg) (mod : String) : Expr → C (AExpr × SymId)
  | .var tok => do
    match ← resolve tok.str with
    | none => C.error ("o identificador '" ++ tok.str ++ "' não foi definido neste escopo")
    | some i => pure (.mk (.prim .unknown) .unknown (.var tok none), i)
  | .get e member => do
    C.at_ member
    let x ← visitE cfg mod .eval e
    let (t, i) ← getProp .call x.ty member
    pure (.mk t .unknown (.get x member false), i)
  | .path comps => do
    C.at_ (comps.headD noTok)
    let (t, i) ← usePath false comps
    let x ← symOf i
    if x.isCallable then pure (.mk t .unknown (.path comps i), i)
    else C.error ("a variante '" ++ x.name ++ "' não declara nenhum argumento.")
  | .call _ _ => C.error "Não pode invocar o resultado de uma invocação"
  | e => C.error ("o símbolo '" ++ e.token.str ++ "' não é invocável")
/-- Expressions from left to right. -/
def visitEs (cfg : CCfg) (mod : String) (par : Par) : List Expr → C (List AExpr)
  | [] => pure []
  | e :: es => do
    let x ← visitE cfg mod par e
    let xs ← visitEs cfg mod par es
    pure (x :: xs)
/-- The parts of a format string (check/core.py:762-769). -/
def visitParts (cfg : CCfg) (mod : String) (tok : Token) (txt : CTy) : List Expr → C (List AExpr)
  | [] => pure []
  | e :: es => do
    let x ← visitE cfg mod .eval e
    if ← C.lift (Ty.checkCast (← view x.ty) (← view txt)) then
      let xs ← visitParts cfg mod tok txt es
      pure (x :: xs)
    else
      C.at_ tok
      C.error "Funções invocadas dentro de expressões em fstrings devem retornar valores coercíveis para o tipo 'texto'"
/-- The elements of a list (check/core.py:795-801), from number `i` on. -/
def visitElems (cfg : CCfg) (mod : String) (t : CTy) : List Expr → Nat → C (List AExpr)
  | [], _ => pure []
  | e :: es, i => do
    let x ← visitE cfg mod .eval e
    if ← matchTy t x.ty then
      let p ← promTy x.ty t
      let xs ← visitElems cfg mod t es (i + 1)
      pure (x.setProm p :: xs)
    else
      C.error ("O tipo do elemento " ++ toString i ++ " da lista não condiz com o tipo da lista. Esperava elemento do tipo '" ++
        (← showTy t) ++ "', encontrou elemento do tipo '" ++ (← showTy x.ty) ++ "'")
/-- The arguments of a function or method (check/core.py:1333-1339). -/
def visitArgs (cfg : CCfg) (mod : String) : List Expr → C (List AExpr)
  | [] => pure []
  | e :: es => do
    if isNamed e then
      C.at_ e.token
      C.error "Funções e métodos não suportam argumentos nomeados"
    else do
      let x ← visitE cfg mod .call e
      let xs ← visitArgs cfg mod es
      pure (x :: xs)
/-- The arguments of `vec` (check/core.py:1238-1268); the first one is a type. -/
def visitVec (cfg : CCfg) (mod : String) : List Expr → C (CTy × List AExpr)
  | first :: size :: sizes => do
    let n ← visitE cfg mod .call size
    checkSize n
    let ns ← visitSizes cfg mod sizes
    let t ← vecTy first (sizes.length + 1)
    pure (t, .mk (.prim .unknown) .unknown (.var first.token none) :: n :: ns)
  | _ => C.error "Função 'vec' deve ser invocada com pelo menos 2 argumentos"
/-- The other sizes. -/
def visitSizes (cfg : CCfg) (mod : String) : List Expr → C (List AExpr)
  | [] => pure []
  | e :: es => do
    let x ← visitE cfg mod .call e
    checkSize x
    let xs ← visitSizes cfg mod es
    pure (x :: xs)
/-- `validate_initializer` (check/core.py:1351-1382). -/
def visitInits (cfg : CCfg) (mod : String) (fields : List (String × CTy)) (name : String) :
    List Expr → List String → C (List AExpr)
  | [], _ => pure []
  | .named arg e :: es, seen => do
    C.at_ arg
    let x ← visitE cfg mod .eval e
    match fields.find? (·.1 == arg.str) with
    | none => C.error ("O registo '" ++ name ++ "' não possui o atributo '" ++ arg.str ++ "'")
    | some (_, t) =>
      if seen.contains arg.str then C.error ("O atributo '" ++ arg.str ++ "' já foi inicializado")
      else do
        let p ← promTy x.ty t
        if ← matchTy t x.ty then
          let xs ← visitInits cfg mod fields name es (arg.str :: seen)
          pure (.mk x.ty p (.named arg x) :: xs)
        else
          C.error ("argumento nomeado inválido. incompatibilidade de tipos entre o valor do argumento nomeado '" ++
            arg.str ++ "' e o atributo do registo. '" ++ (← showTy x.ty) ++ "' incompatível com '" ++ (← showTy t) ++ "'")
  | e :: _, _ => do
    C.at_ e.token
    C.error "Todos os argumentos do inicializador de um registo devem ser nomeados"
/-- `visit` of a statement (check/core.py:472-752, 1038-1175; check/uniao.py:9-28).  `inYield` says that it
stands in a yield block itself, `last` that it is the last one there. -/
def visitS (cfg : CCfg) (mod : String) (inYield last : Bool) : Stmt → C AStmt
  | .expr e => do return .expr (← visitE cfg mod (if inYield then .eval else .other) e)
  | .varDecl tok name ty none => do
    C.at_ tok
    let (i, t) ← declareVar cfg mod tok name ty none
    declaredVar i
    pure (.varDecl tok name t none)
  | .varDecl tok name ty (some e) => do
    C.at_ tok
    let (i, t) ← declareVar cfg mod tok name ty (some e)
    let x ← visitE cfg mod .other e
    declaredVar i
    pure (.varDecl tok name t (some x))
  | .loopCtl tok => do
    C.at_ tok
    if (← C.get).ana.inLoop then pure (.loopCtl tok)
    else C.error ("A directiva '" ++ tok.str ++ "' só pode ser usada dentro de uma estrutura de repetição")
  | .retorna tok none => do
    C.at_ tok
    let _ ← retornaTy tok false
    pure (.retorna tok none)
  | .retorna tok (some e) => do
    C.at_ tok
    let t ← retornaTy tok true
    let x ← visitE cfg mod .eval e
    let p ← promTy x.ty t
    if ← matchTy t x.ty then pure (.retorna tok (some (x.setProm p)))
    else
      C.error "expressão de retorno inválida. O tipo do valor de retorno é incompatível com o tipo de retorno da função"
  | .produz tok e => do
    C.at_ tok
    match (← C.get).ana.yield with
    | none => C.error "A instrução 'produz' só pode ser usada dentro de um bloco iguala"
    | some _ =>
      if !(inYield && last) then C.error "A instrução 'produz' deve ser a última instrução de um bloco"
      else do
        let x ← visitE cfg mod .eval e
        C.modify fun s => { s with ana := { s.ana with yield := s.ana.yield.map fun y => { y with ty := x.ty } } }
        pure (.produz tok x)
  | .mostra tok e => do
    C.at_ tok
    return .mostra tok (← visitE cfg mod .eval e)
  | .se tok cond thenB elsifs none => do
    C.at_ tok
    let c ← visitE cfg mod .other cond
    condTag c none "a condição da instrução 'se' deve ser um valor lógico"
    let b ← newBlock (visitSs cfg mod thenB)
    let es ← visitElses cfg mod elsifs
    pure (.se tok c b es none)
  | .se tok cond thenB elsifs (some elseB) => do
    C.at_ tok
    let c ← visitE cfg mod .other cond
    condTag c none "a condição da instrução 'se' deve ser um valor lógico"
    let b ← newBlock (visitSs cfg mod thenB)
    let es ← visitElses cfg mod elsifs
    let d ← newBlock (visitSs cfg mod elseB)
    pure (.se tok c b es (some d))
  | .enquanto tok cond body => do
    C.at_ tok
    let c ← visitE cfg mod .other cond
    condTag c (some tok) "a condição da instrução 'enquanto' deve ser um valor lógico"
    let prev := (← C.get).ana.inLoop
    C.modify fun s => { s with ana := { s.ana with inLoop := true } }
    let b ← newBlock (visitSs cfg mod body)
    C.modify fun s => { s with ana := { s.ana with inLoop := prev } }
    pure (.enquanto tok c b)
  | .escolha tok sel cases none => do
    C.at_ tok
    let x ← visitE cfg mod .other sel
    checkSel x
    let cs ← visitCases cfg mod x.ty cases
    pure (.escolha tok x cs none)
  | .escolha tok sel cases (some d) => do
    C.at_ tok
    let x ← visitE cfg mod .other sel
    checkSel x
    let cs ← visitCases cfg mod x.ty cases
    let b ← newBlock (visitSs cfg mod d)
    pure (.escolha tok x cs (some b))
  | .para tok name start stop none body => do
    C.at_ tok
    let a ← visitE cfg mod .other start
    let b ← visitE cfg mod .other stop
    checkRange [a, b]
    let sc ← paraScope cfg mod name
    let bl ← inBlock sc (visitSs cfg mod body)
    pure (.para tok name a b none bl)
  | .para tok name start stop (some inc) body => do
    C.at_ tok
    let a ← visitE cfg mod .other start
    let b ← visitE cfg mod .other stop
    let i ← visitE cfg mod .other inc
    checkRange [a, b, i]
    let sc ← paraScope cfg mod name
    let bl ← inBlock sc (visitSs cfg mod body)
    pure (.para tok name a b (some i) bl)
  | .func name params ret none native as => do
    C.at_ name
    let (i, sc) ← declareFunc cfg mod name params ret none native as
    pure (.declared name i sc native [])
  | .func name params ret (some body) native as => do
    C.at_ name
    let (i, sc) ← declareFunc cfg mod name params ret (some body) native as
    if builtinAnn as || native then pure (.declared name i sc native body)
    else do
      let b ← inFunction i (inBlock sc (visitSs cfg mod body))
      pure (.func name i b)
  | .method generics target name params ret body as => do
    C.at_ name
    let (i, sc, t) ← declareMethod cfg mod generics target name params ret body as
    if builtinAnn as then do
      defineMethod t name.str i
      leaveTyCtx
      pure (.declared name i sc false body)
    else do
      let b ← inFunction i (inBlock sc (visitSs cfg mod body))
      defineMethod t name.str i
      leaveTyCtx
      pure (.func name i b)
  | .registo name generics fields _ => do
    C.at_ name
    let (r, reg) ← openRegisto cfg mod name generics
    let inits ← visitFields cfg mod fields
    closeRegisto cfg r reg
    pure (.registo name r inits)
  | .uniao name generics variants _ => do
    C.at_ name
    return .uniao name (← declareUniao cfg mod name generics variants)
  | .usa tok _ _ => pure (.usa tok)
/-- The fields of a `registo` (check/core.py:706-707). -/
def visitFields (cfg : CCfg) (mod : String) : List Stmt → C (List AExpr)
  | [] => pure []
  | .varDecl tok name ty none :: fs => do
    let (i, _) ← declareVar cfg mod tok name ty none
    declaredVar i
    visitFields cfg mod fs
  | .varDecl tok name ty (some e) :: fs => do
    let (i, _) ← declareVar cfg mod tok name ty (some e)
    let x ← visitE cfg mod .other e
    declaredVar i
    let xs ← visitFields cfg mod fs
    pure (x :: xs)
  | _ :: _ => C.raise "AttributeError"
/-- The cases of an `escolha` (check/core.py:1115-1122). -/
def visitCases (cfg : CCfg) (mod : String) (t : CTy) : List ElseIf → C (List AElse)
  | [] => pure []
  | .mk tok cond body :: rest => do
    let x ← visitE cfg mod .other cond
    if ← matchTy t x.ty then
      let b ← newBlock (visitSs cfg mod body)
      let es ← visitCases cfg mod t rest
      pure (.mk tok x b :: es)
    else
      C.error ("O tipo do valor do caso (" ++ (← showTy x.ty) ++ ") deve ser igual ao tipo do valor que está a ser avaliado (" ++
        (← showTy t) ++ ")")
/-- `visit_senaose` (check/core.py:1088-1094) for each. -/
def visitElses (cfg : CCfg) (mod : String) : List ElseIf → C (List AElse)
  | [] => pure []
  | .mk tok cond body :: rest => do
    C.at_ tok
    let x ← visitE cfg mod .other cond
    if ← sameTy x.ty (.prim .bool) then
      let b ← newBlock (visitSs cfg mod body)
      let es ← visitElses cfg mod rest
      pure (.mk tok x b :: es)
    else C.error "a condição da instrução 'senaose' deve ser um valor lógico"
/-- `visit_children`. -/
def visitSs (cfg : CCfg) (mod : String) : List Stmt → C (List AStmt)
  | [] => pure []
  | s :: ss => do
    let x ← visitS cfg mod false false s
    let xs ← visitSs cfg mod ss
    pure (x :: xs)
/-- `visit_children` of a yield block. -/
def visitYs (cfg : CCfg) (mod : String) : List Stmt → C (List AStmt)
  | [] => pure []
  | s :: ss => do
    let x ← visitS cfg mod true ss.isEmpty s
    let xs ← visitYs cfg mod ss
    pure (x :: xs)
end

end Amanda.Check

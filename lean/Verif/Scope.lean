import Verif.Syntax
import Verif.Vm

/-!
# Names and scopes: symbols/core.py `Scope`, and what check/core.py does with it

The checker's visitor restricted to its work on scopes: which scopes it makes, what it defines in
them, where it looks names up, and when it rejects a name.  Left out are the types: every type
error is a further rejection, and no type changes a scope.  Also left out are the names a `usa`
brings in and the table of variants of a union.  An arm of an `iguala` that several leaves of the decision
tree lead to is visited once per leaf (check/iguala.py); here a `Plan` says which arms are visited.

Scopes are numbered in the order in which they are made; `ctx_scope` is a number.
-/

namespace Amanda.Names

/-- A `Symbol` (symbols/base.py:15-52, symbols/core.py:12-60): the name, the `out_id`, `is_global`,
whether it is a `VariableSymbol`, and the token of its declaration, which tells symbols apart. -/
structure NSym where
  name : List Char
  outId : List Char
  decl : Token
  isGlobal : Bool
  isVar : Bool
  deriving DecidableEq, Repr

/-- `Scope` (symbols/core.py:114-121). -/
structure NScope where
  symbols : List (List Char × NSym)
  parent : Option Nat
  deriving DecidableEq, Repr

/-- One look-up the checker made: the token, the symbol found, and the scopes at that moment. -/
structure NUse where
  tok : Token
  sym : NSym
  scopes : List NScope
  cur : Nat
  deriving DecidableEq, Repr

/-- The scopes, `ctx_scope`, `scope_depth`, and the look-ups so far (the last are not in the
code). -/
structure NState where
  scopes : List NScope
  cur : Nat
  depth : Nat
  uses : List NUse
  deriving DecidableEq, Repr

/-- What the compilation of an `iguala` (check/exhaustiveness.py, modelled in `Verif.Iguala`) does
to its scopes: how many hidden variables it makes, which arms are reachable, and in which arms
`declare_block_symbols` defines the pattern's variables again. -/
structure Plan where
  hidden : Nat
  reached : Nat → Bool
  again : Nat → Bool

/-- `is_valid_name` (check/core.py:157-164) and the plan of each `iguala`, by its token. -/
structure NCfg where
  valid : List Char → Bool
  plan : Token → Plan

/-- `f"_r{depth}{count}_"` (check/core.py:176). -/
def localName (depth count : Nat) : List Char :=
  ['_', 'r'] ++ Nat.toDigits 10 depth ++ Nat.toDigits 10 count ++ ['_']

/-- `f"_r{count}_"` (symbols/core.py:168). -/
def hiddenName (count : Nat) : List Char := ['_', 'r'] ++ Nat.toDigits 10 count ++ ['_']

/-- `"_target_"` (check/iguala.py:34). -/
def targetName : List Char := ['_', 't', 'a', 'r', 'g', 'e', 't', '_']

/-- `Scope.resolve` (symbols/core.py:123-130) from the scope `i`; the first argument bounds the
length of the chain of scopes. -/
def lookup (scopes : List NScope) (name : List Char) : Nat → Nat → Option NSym
  | 0, _ => none
  | n + 1, i =>
    match scopes[i]? with
    | none => none
    | some sc =>
      match assocGet sc.symbols name with
      | some s => some s
      | none =>
        match sc.parent with
        | none => none
        | some p => lookup scopes name n p

/-- `self.ctx_scope.resolve(name)`. -/
def NState.resolve (s : NState) (name : List Char) : Option NSym :=
  lookup s.scopes name s.scopes.length s.cur

/-- `scope.get(name)` (symbols/core.py:155-156). -/
def NState.get (s : NState) (i : Nat) (name : List Char) : Option NSym :=
  s.scopes[i]?.bind fun sc => assocGet sc.symbols name

/-- `scope.count()` (symbols/core.py:164-165). -/
def NState.count (s : NState) (i : Nat) : Nat := (s.scopes[i]?.map fun sc => sc.symbols.length).getD 0

/-- `scope.define` (symbols/core.py:161-162). -/
def NState.define (s : NState) (i : Nat) (name : List Char) (sym : NSym) : NState :=
  { s with scopes := s.scopes.modify i fun sc => { sc with symbols := assocSet sc.symbols name sym } }

/-- `define_symbol` (check/core.py:172-177). -/
def NState.defineSymbol (cfg : NCfg) (s : NState) (sym : NSym) (depth i : Nat) : NState :=
  s.define i sym.name
    (if !cfg.valid sym.name || decide (depth ≥ 1) then { sym with outId := localName depth (s.count i) } else sym)

/-- `symbols.Scope(self.ctx_scope)`, put at the end of the scopes. -/
def NState.alloc (s : NState) : NState :=
  { s with scopes := s.scopes ++ [{ symbols := [], parent := some s.cur }] }

/-- `enter_scope(scope)` (check/core.py:274-278). -/
def NState.enter (s : NState) (i : Nat) : NState := { s with cur := i, depth := s.depth + 1 }

/-- `leave_scope` (check/core.py:283-285). -/
def NState.leave (s : NState) : NState :=
  { s with cur := (s.scopes[s.cur]?.bind (·.parent)).getD 0, depth := s.depth - 1 }

/-- A new symbol; its `out_id` is its name (symbols/base.py:17-22). -/
def sym (t : Token) (isGlobal isVar : Bool) : NSym :=
  { name := t.chars, outId := t.chars, decl := t, isGlobal := isGlobal, isVar := isVar }

/-- An error at the token. -/
def fail {α : Type} (t : Token) (msg : String) : Except PyErr α := .error (.amanda msg t.line t.col)

/-- `ID_IN_USE` (check/core.py:41). -/
def inUse (t : Token) : String :=
  "O identificador '" ++ String.ofList t.chars ++ "' já foi declarado neste escopo"

/-- `visit_variable`, the first step of `visit_path`, and the look-up of a called name
(check/core.py:807-821, 823-830, 1185-1193). -/
def NState.use (s : NState) (t : Token) : Except PyErr NState :=
  match s.resolve t.chars with
  | none => fail t ("o identificador '" ++ String.ofList t.chars ++ "' não foi declarado")
  | some y => .ok { s with uses := s.uses ++ [{ tok := t, sym := y, scopes := s.scopes, cur := s.cur }] }

/-- The name of the called function is `vec` (check/core.py:1212-1213, builtinfn.py:4-14). -/
def isVec : Expr → Bool
  | .var t => t.chars == ['v', 'e', 'c']
  | .get _ t => t.chars == ['v', 'e', 'c']
  | _ => false

/-- The variables of the patterns in an `ADTPattern` (check/iguala.py:111-120).  `zip` stops at the
last parameter of the variant; a pattern with more arguments than that is not told apart here. -/
def argVars : List Pat → Except PyErr (List Token)
  | [] => .ok []
  | .bind t :: rest => do
    let ts ← argVars rest
    .ok (t :: ts)
  | .int _ :: rest => argVars rest
  | .str _ :: rest => argVars rest
  | _ :: _ => .error (.exc "AssertionError")

/-- `check_binding_pattern` (check/iguala.py:80-94) for the variables of a pattern, in the scope
`i`. -/
def defineVars (cfg : NCfg) (i : Nat) : List Token → NState → Except PyErr NState
  | [], s => .ok s
  | t :: ts, s =>
    match s.get i t.chars with
    | some _ => fail t ("Padrão inválido. A variável '" ++ String.ofList t.chars ++ "' já foi utilizada neste padrão")
    | none => defineVars cfg i ts (s.defineSymbol cfg (sym t false true) (s.depth + 1) i)

/-- `check_pattern` (check/iguala.py:97-140). -/
def checkPat (cfg : NCfg) (i : Nat) (p : Pat) (s : NState) : Except PyErr NState :=
  match p with
  | .int _ | .str _ => .ok s
  | .bind t => defineVars cfg i [t] s
  | .adtVar t args => do
    let s ← s.use t
    let ts ← argVars args
    defineVars cfg i ts s
  | .adtPath comps args => do
    let s ← s.use (comps.headD noTok)
    let ts ← argVars args
    defineVars cfg i ts s

/-- `check_arm` for each arm (check/iguala.py:22-23, 143-146); the scope of an arm comes after those
of the arms before it. -/
def checkArms (cfg : NCfg) : List Pat → NState → Except PyErr NState
  | [], s => .ok s
  | p :: rest, s => do
    let s ← checkPat cfg s.scopes.length p s.alloc
    checkArms cfg rest s

/-- The definition of `_target_` (check/iguala.py:25-37). -/
def defineTarget (cfg : NCfg) (target : Expr) (s : NState) : NState :=
  match target with
  | .var _ | .alvo _ => s
  | e => s.defineSymbol cfg { sym e.token false true with name := targetName, outId := targetName } s.depth s.cur

/-- The hidden variables (symbols/core.py:167-170) made while the patterns are compiled. -/
def defineHidden (t : Token) : Nat → NState → NState
  | 0, s => s
  | n + 1, s =>
    let name := hiddenName (s.count s.cur)
    defineHidden t n (s.define s.cur name
      { name := name, outId := name, decl := t, isGlobal := false, isVar := true })

/-- The variables of a pattern. -/
def patVars : Pat → List Token
  | .int _ | .str _ => []
  | .bind t => [t]
  | .adtVar _ args | .adtPath _ args => args.filterMap fun
    | .bind t => some t
    | _ => none

/-- `_declare_block_symbols` (check/exhaustiveness.py:230-241) for one arm. -/
def defineAgain (i : Nat) : List Token → NState → NState
  | [], s => s
  | t :: ts, s => defineAgain i ts (s.define i t.chars (sym t false true))

/-- `_declare_block_symbols` for the arms from the number `k` on, with scopes from `i` on. -/
def defineAgains (plan : Plan) : List Pat → Nat → Nat → NState → NState
  | [], _, _, s => s
  | p :: rest, k, i, s => defineAgains plan rest (k + 1) (i + 1) (if plan.again k then defineAgain i (patVars p) s else s)

/-- The parameters (check/core.py:581-596): distinct names ... -/
def distinctParams : List Token → List (List Char) → Except PyErr Unit
  | [], _ => .ok ()
  | t :: ts, seen =>
    if seen.contains t.chars then
      fail t ("o parâmetro '" ++ String.ofList t.chars ++ "' já foi especificado nesta função")
    else distinctParams ts (t.chars :: seen)

/-- ... which are then defined one by one in the scope `i`. -/
def defineParams (cfg : NCfg) (i : Nat) : List Token → NState → NState
  | [], s => s
  | t :: ts, s => defineParams cfg i ts (s.defineSymbol cfg (sym t false true) (s.depth + 1) i)

/-- The generic parameters of a method (check/core.py:644-648). -/
def defineGenerics (i : Nat) : List Token → NState → NState
  | [], s => s
  | t :: ts, s => defineGenerics i ts (s.define i t.chars (sym t false false))

/-- `alvo` as the name of a parameter (check/core.py:638-643), at the token of the method. -/
def alvoSym (t : Token) : NSym :=
  { name := ['a', 'l', 'v', 'o'], outId := ['a', 'l', 'v', 'o'], decl := t, isGlobal := false, isVar := true }

/-- `symbol.is_builtin()` (symbols/base.py:47-48). -/
def isBuiltin (as : List Annotation) : Bool := as.any fun a => a.name == "embutido".toList

/-- `assign.right.token` (check/core.py:487) of the assignment that initialises a variable. -/
def initTok : Expr → Option Token
  | .assign _ _ r => some r.token
  | _ => none

/-- The pattern of an arm. -/
def armPat : Arm → Pat
  | .mk _ p _ _ => p

mutual
/-- `visit` of an expression (check/core.py:759-1036, 1127-1132, 1177-1310; check/iguala.py:14-77).
The reachable arms of an `iguala` are visited in the order of the source; the code visits them in the
order in which its decision tree mentions them. -/
def visitE (cfg : NCfg) : Expr → NState → Except PyErr NState
  | .const _, s => .ok s
  | .alvo _, s => .ok s
  | .fmtStr _ parts, s => visitEs cfg parts s
  | .var t, s => s.use t
  | .path comps, s => s.use (comps.headD noTok)
  | .converta _ e _, s => visitE cfg e s
  | .bin _ a b, s => do
    let s ← visitE cfg a s
    visitE cfg b s
  | .un _ e, s => visitE cfg e s
  | .assign _ l r, s => do
    let s ← visitE cfg r s
    visitE cfg l s
  | .list _ _ es, s => visitEs cfg es s
  | .named _ e, s => visitE cfg e s
  | .get e _, s => visitE cfg e s
  | .index _ a b, s => do
    let s ← visitE cfg a s
    visitE cfg b s
  | .indexSet _ a b, s => do
    let s ← visitE cfg a s
    visitE cfg b s
  | .set a b, s => do
    let s ← visitE cfg a s
    visitE cfg b s
  | .call c args, s => do
    let s ← visitCallee cfg c s
    visitArgs cfg (isVec c) args s
  | .iguala t target arms, s => do
    let k := s.scopes.length
    let s ← visitE cfg target (s.alloc.enter k)
    let first := s.scopes.length
    let s ← checkArms cfg (arms.map armPat) s
    let s := defineTarget cfg target s
    let s := defineHidden t (cfg.plan t).hidden s
    let s := defineAgains (cfg.plan t) (arms.map armPat) 0 first s
    let s ← visitArms cfg (cfg.plan t) arms 0 first s
    .ok s.leave
/-- The callee of `visit_call` (check/core.py:1181-1209). -/
def visitCallee (cfg : NCfg) : Expr → NState → Except PyErr NState
  | .var t, s => s.use t
  | .get e _, s => visitE cfg e s
  | .path comps, s => s.use (comps.headD noTok)
  | e, _ => fail e.token ("o símbolo '" ++ String.ofList e.token.chars ++ "' não é invocável")
/-- The arguments of a call; the first one of `vec` is a type (check/core.py:1238-1310). -/
def visitArgs (cfg : NCfg) (vec : Bool) : List Expr → NState → Except PyErr NState
  | [], s => .ok s
  | e :: es, s => do
    let s ← (if vec then .ok s else visitE cfg e s)
    visitEs cfg es s
/-- Expressions from left to right. -/
def visitEs (cfg : NCfg) : List Expr → NState → Except PyErr NState
  | [], s => .ok s
  | e :: es, s => do
    let s ← visitE cfg e s
    visitEs cfg es s
/-- `visit_yieldblock` (check/core.py:735-752) of the reachable arms. -/
def visitArms (cfg : NCfg) (plan : Plan) : List Arm → Nat → Nat → NState → Except PyErr NState
  | [], _, _, s => .ok s
  | .mk _ _ _ body :: rest, k, i, s => do
    let s ← (if plan.reached k then do
      let s ← visitSs cfg body (s.enter i)
      .ok s.leave
    else .ok s)
    visitArms cfg plan rest (k + 1) (i + 1) s
/-- `visit` of a statement (check/core.py:472-752, 1038-1175; check/uniao.py:9-28). -/
def visitS (cfg : NCfg) : Stmt → NState → Except PyErr NState
  | .expr e, s => visitE cfg e s
  | .varDecl _ name _ init, s =>
    match s.get s.cur name.chars with
    | some _ => fail name (inUse name)
    | none => do
      let s := s.defineSymbol cfg (sym name (decide (s.depth = 0)) true) s.depth s.cur
      match init with
      | none => .ok s
      | some e =>
        match initTok e with
        | none => .error (.exc "AttributeError")
        | some r =>
          if r.lexeme = name.lexeme then
            fail name "Erro ao inicializar variável. Não pode referenciar uma variável durante a sua declaração"
          else visitE cfg e s
  | .loopCtl _, s => .ok s
  | .retorna _ e, s =>
    match e with
    | none => .ok s
    | some e => visitE cfg e s
  | .produz _ e, s => visitE cfg e s
  | .mostra _ e, s => visitE cfg e s
  | .se _ c a elsifs d, s => do
    let s ← visitE cfg c s
    let s ← visitSs cfg a (s.alloc.enter s.scopes.length)
    let s ← visitElses cfg elsifs s.leave
    match d with
    | none => .ok s
    | some b => do
      let s ← visitSs cfg b (s.alloc.enter s.scopes.length)
      .ok s.leave
  | .enquanto _ c b, s => do
    let s ← visitE cfg c s
    let s ← visitSs cfg b (s.alloc.enter s.scopes.length)
    .ok s.leave
  | .escolha _ c cases d, s => do
    let s ← visitE cfg c s
    let s ← visitElses cfg cases s
    match d with
    | none => .ok s
    | some b => do
      let s ← visitSs cfg b (s.alloc.enter s.scopes.length)
      .ok s.leave
  | .para _ name a b inc body, s => do
    let s ← visitE cfg a s
    let s ← visitE cfg b s
    let s ← (match inc with
      | none => .ok s
      | some e => visitE cfg e s)
    let k := s.scopes.length
    let s := s.alloc.defineSymbol cfg (sym name false true) (s.depth + 1) k
    let s ← visitSs cfg body (s.enter k)
    .ok s.leave
  | .func name params _ body native ann, s =>
    if s.depth > 0 then fail name "As funções só podem ser declaradas no escopo global"
    else match s.get s.cur name.chars with
      | some _ => fail name (inUse name)
      | none => do
        let s := s.defineSymbol cfg (sym name true false) s.depth s.cur
        distinctParams (params.map (·.name)) []
        let k := s.scopes.length
        let s := defineParams cfg k (params.map (·.name)) s.alloc
        match body with
        | none => .ok s
        | some b =>
          if native || isBuiltin ann then .ok s
          else do
            let s ← visitSs cfg b (s.enter k)
            .ok s.leave
  | .method generics _ name params _ body ann, s =>
    if s.depth > 0 then fail name "Métodos só podem ser declarados no escopo global"
    else do
      let s := s.defineSymbol cfg (sym name true false) s.depth s.cur
      distinctParams (params.map (·.name)) []
      let k := s.scopes.length
      let s := defineParams cfg k (params.map (·.name)) s.alloc
      let s := s.defineSymbol cfg (alvoSym name) (s.depth + 1) k
      let s := defineGenerics k generics s
      if isBuiltin ann then .ok s
      else do
        let s ← visitSs cfg body (s.enter k)
        .ok s.leave
  | .registo name _ fields _, s =>
    let k := s.scopes.length
    match s.get s.cur name.chars with
    | some _ => fail name (inUse name)
    | none => do
      let s := s.alloc.defineSymbol cfg (sym name false false) s.depth s.cur
      let s ← visitSs cfg fields (s.enter k)
      let s := s.leave
      .ok (s.defineSymbol cfg (sym name false false) s.depth s.cur)
  | .uniao name _ _ _, s =>
    match s.get s.cur name.chars with
    | some _ => fail name (inUse name)
    | none => .ok (s.alloc.defineSymbol cfg (sym name false false) s.depth s.cur)
  | .usa _ _ _, s => .ok s
/-- `visit_children`. -/
def visitSs (cfg : NCfg) : List Stmt → NState → Except PyErr NState
  | [], s => .ok s
  | x :: xs, s => do
    let s ← visitS cfg x s
    visitSs cfg xs s
/-- `visit_senaose` and the loop of `visit_escolha` (check/core.py:1088-1094, 1115-1125). -/
def visitElses (cfg : NCfg) : List ElseIf → NState → Except PyErr NState
  | [], s => .ok s
  | .mk _ c b :: rest, s => do
    let s ← visitE cfg c s
    let s ← visitSs cfg b (s.alloc.enter s.scopes.length)
    visitElses cfg rest s.leave
end

end Amanda.Names

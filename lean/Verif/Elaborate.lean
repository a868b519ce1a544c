import Verif.Analyzer
import Verif.Pipeline

/-!
# `transform` and the checker as a whole: transform.py, check/core.py:300-470, __main__.py:22-31

`toE` and `toS` follow `ASTTransformer.transform` on annotated trees and give the trees code is generated
from.  A node made by `transform` has no `eval_type` and no `prom_type` (ast.py:120-124), so the type of a
node after `transform` is part of the result.
-/

namespace Amanda.Check

open Imports (Path Hooks)

/-! ## Blocks that were not visited -/

mutual
/-- Whether `transform` meets a call or a `Get` without symbol or type: `node.symbol.is_property` and
`node.target.eval_type` fail (transform.py:117, 166).  Nothing is looked for inside an `escolha`. -/
def crashE : Expr → Bool
  | .const _ | .var _ | .alvo _ | .path _ => false
  | .call _ _ | .get _ _ => true
  | .fmtStr _ es | .list _ _ es => crashEs es
  | .converta _ e _ | .un _ e | .named _ e => crashE e
  | .bin _ a b | .assign _ a b | .index _ a b | .indexSet _ a b | .set a b => crashE a || crashE b
  | .iguala _ t arms => crashE t || crashArms arms
/-- A list. -/
def crashEs : List Expr → Bool
  | [] => false
  | e :: es => crashE e || crashEs es
/-- Arms. -/
def crashArms : List Arm → Bool
  | [] => false
  | .mk _ _ _ body :: rest => crashSs body || crashArms rest
/-- Statements. -/
def crashS : Stmt → Bool
  | .expr e | .produz _ e | .mostra _ e => crashE e
  | .varDecl _ _ _ none | .retorna _ none | .loopCtl _ | .uniao .. | .usa .. | .escolha .. => false
  | .varDecl _ _ _ (some e) | .retorna _ (some e) => crashE e
  | .se _ c b es none => crashE c || crashSs b || crashElses es
  | .se _ c b es (some d) => crashE c || crashSs b || crashElses es || crashSs d
  | .enquanto _ c b => crashE c || crashSs b
  | .para _ _ a b none body => crashE a || crashE b || crashSs body
  | .para _ _ a b (some i) body => crashE a || crashE b || crashE i || crashSs body
  | .func _ _ _ none _ _ => false
  | .func _ _ _ (some body) _ _ => crashSs body
  | .method _ _ _ _ _ body _ => crashSs body
  | .registo _ _ fields _ => crashSs fields
/-- `senaose` branches. -/
def crashElses : List ElseIf → Bool
  | [] => false
  | .mk _ c b :: rest => crashE c || crashSs b || crashElses rest
/-- Lists of statements. -/
def crashSs : List Stmt → Bool
  | [] => false
  | s :: ss => crashS s || crashSs ss
end

/-! ## Lines -/

mutual
/-- `node.token.line` of an annotated expression (the `super().__init__` calls of ast.py:120-484). -/
def AExpr.line : AExpr → Nat
  | .mk _ _ n => n.line
/-- The same for what is inside. -/
def ANode.line : ANode → Nat
  | .const t | .fmtStr t _ | .var t _ | .converta t _ | .alvo t _ | .bin t _ _ | .un t _ | .assign t _ _
  | .iguala t _ _ _ | .list t _ | .named t _ | .get _ t _ | .index t _ _ | .indexSet t _ _ => t.line
  | .call c _ _ => c.line
  | .set _ e => e.line
  | .path ts _ => (ts.headD noTok).line
end

/-- `node.token.line` after `transform`. -/
def lineOf : TExpr → Nat
  | .const l _ _ | .fmtStr l _ | .var l _ _ _ | .converta l _ _ _ | .alvo l _ | .bin l _ _ _ _ _ _ | .un l _ _ _
  | .assign l _ _ | .iguala l _ | .call l _ _ _ _ | .list l _ | .named l _ _ | .get l _ _ _ | .index l _ _
  | .indexSet l _ _ _ | .set l _ _ | .unwrap l _ _ | .path l _ => l

/-! ## Renaming -/

/-- `sym.name = sym.out_id = ..` and the new entry in the symbols of the program (transform.py:153-155,
168-171). -/
def renameSym (gsc : ScopeId) (i : SymId) (modPath : String) : C String := do
  let x ← symOf i
  let name := modPath ++ "::" ++ x.name
  updSym i fun x => { x with name := name, outId := name }
  define gsc name i
  pure name

/-- `ty.is_constructed_from(SrcBuiltins.Opcao)` (types/core.py:584-585). -/
def isOption (t : CTy) : C Bool := do
  match t, (← C.get).opcao with
  | .app o _, some p => sameTy (.reg o) (.reg p)
  | _, _ => pure false

/-- `transform_get` after its target (transform.py:164-181), with the type afterwards; the target has
become `t` of type `tty`. -/
def getAfter (gsc : ScopeId) (ty : CTy) (t : TExpr) (tty : CTy) (member : Token) (inSet : Bool) : C (TExpr × CTy) := do
  match tty with
  | .mod m => do
    match ← resolveIn (← modScope m) member.str with
    | none => C.raise "AttributeError"
    | some i => do
      let name ← renameSym gsc i m
      pure (.var member.line name none .unknown, .prim .unknown)
  | _ => do
    if (← isOption tty) && member.str = "valor" then pure (.unwrap (lineOf t) t none, .prim .unknown)
    else pure (.get member.line t member.str inSet, ty)

/-- The new parameters of a method that is called (transform.py:147-150). -/
def addAlvo (mod : String) (i : SymId) : C Unit := do
  let x ← symOf i
  match x.body with
  | .method ret target params =>
    if (params.find? (·.1 == "alvo")).isSome then
      let ps := params.filter (·.1 == "alvo") ++ params.filter (·.1 != "alvo")
      updSym i fun y => { y with body := .method ret target ps }
    else do
      let a ← newVar mod "alvo" ret
      updSym i fun y => { y with body := .method ret target (("alvo", a) :: params) }
  | _ => C.raise "NotImplementedError"

/-- `transform_call` when the callee is still a `Get` (transform.py:117-162), with the type afterwards. -/
def callAfter (mod : String) (gsc : ScopeId) (line : Nat) (ty : CTy) (prom : Ty) (t : TExpr) (tty : CTy) (member : Token)
    (args : List TExpr) (i : SymId) : C (TExpr × CTy) := do
  let x ← symOf i
  if !x.isProperty && x.modPath = mod then pure (.call line (.get line t member.str false) args i prom, ty)
  else if (← isOption tty) && member.str = "valor_ou" then
    match args with
    | d :: _ => pure (.unwrap (lineOf t) t (some d), .prim .unknown)
    | [] => C.raise "IndexError"
  else
    match x.body with
    | .method .. => do
      addAlvo mod i
      let name ← if x.modPath = mod then pure x.name else renameSym gsc i x.modPath
      pure (.call line (.var line name none .unknown) (t :: args) i .unknown, .prim .unknown)
    | _ => C.raise "NotImplementedError"

/-- `variant.symbol` of a path, as far as code generation asks. -/
def variantRef (i : SymId) : C (Option VariantRef) := do
  let x ← symOf i
  match x.body with
  | .variant _ u params => do
    let y ← symOf u
    pure (some ⟨y.modPath ++ "::" ++ y.name ++ "::" ++ x.name, params.length⟩)
  | _ => pure none

/-- The variants of a `uniao` (codegen.py:988). -/
def variantRefs : List (String × SymId) → C (List VariantRef)
  | [] => pure []
  | (_, i) :: rest => do
    let r ← variantRef i
    let rs ← variantRefs rest
    pure (match r with
      | some v => v :: rs
      | none => rs)

mutual
/-- A decision tree with the blocks of the arms (line, scope, statements). -/
def toDec (arms : List (Option (Nat × ScopeId × List TStmt))) : ADec → C Decision
  | .fail => pure .fail
  | .success bs k =>
    match (arms[k]?).join with
    | some (line, sc, body) => pure (.success bs line sc body)
    | none => C.raise "IndexError"
  | .switch x cases none => do
    let cs ← toCases arms cases
    pure (.switch x cs none)
  | .switch x cases (some d) => do
    let cs ← toCases arms cases
    let f ← toDec arms d
    pure (.switch x cs (some f))
/-- The cases. -/
def toCases (arms : List (Option (Nat × ScopeId × List TStmt))) : List (ConsRef × List SymId × ADec) → C (List DCase)
  | [] => pure []
  | (c, vs, d) :: rest => do
    let b ← toDec arms d
    let cs ← toCases arms rest
    pure (.mk c vs b :: cs)
end

/-! ## The trees code is generated from -/

mutual
/-- `transform` of an expression (transform.py:29-181) in the module `mod` with the global scope `gsc`;
`on` is false inside an `escolha`. The type is `eval_type` afterwards. -/
def toE (mod : String) (gsc : ScopeId) (on : Bool) : AExpr → C (TExpr × CTy)
  | .mk ty prom (.const tok) => pure (.const tok.line tok.str prom, ty)
  | .mk ty _ (.fmtStr tok parts) => do
    let ps ← toEs mod gsc on parts
    pure (.fmtStr tok.line ps, ty)
  | .mk ty prom (.var tok sym) => pure (.var tok.line tok.str sym prom, ty)
  | .mk ty _ (.converta tok e) => do
    let (x, t) ← toE mod gsc on e
    pure (.converta tok.line x (← view t) (← view ty), ty)
  | .mk ty _ (.alvo tok i) => pure (.alvo tok.line i, ty)
  | .mk ty prom (.bin tok a b) => do
    let (x, s) ← toE mod gsc on a
    let (y, t) ← toE mod gsc on b
    pure (.bin tok.line tok.tt x y (← view s) (← view t) prom, ty)
  | .mk ty prom (.un tok e) => do
    let (x, _) ← toE mod gsc on e
    pure (.un tok.line tok.tt x prom, ty)
  | .mk ty _ (.assign tok (.mk _ _ (.var _ (some i))) r) => do
    let (y, _) ← toE mod gsc on r
    pure (.assign tok.line i y, ty)
  | .mk _ _ (.assign _ _ _) => C.raise "AttributeError"
  | .mk ty _ (.iguala tok target arms ir) => do
    let _ ← toE mod gsc on target
    let as ← toArms mod gsc on arms
    let d ← toDec as ir
    pure (.iguala tok.line d, ty)
  | .mk ty prom (.call (.mk cty _ (.get target member _)) args i) => do
    let (t, tty) ← toE mod gsc on target
    if on then do
      let (c, _) ← getAfter gsc cty t tty member false
      let as ← toEs mod gsc on args
      match c with
      | .get _ _ _ _ => callAfter mod gsc member.line ty prom t tty member as i
      | c => pure (.call member.line c as i prom, ty)
    else do
      let as ← toEs mod gsc on args
      pure (.call member.line (.get member.line t member.str false) as i prom, ty)
  | .mk ty prom (.call callee args i) => do
    let (c, _) ← toE mod gsc on callee
    let as ← toEs mod gsc on args
    pure (.call callee.line c as i prom, ty)
  | .mk ty _ (.list tok es) => do
    let xs ← toEs mod gsc on es
    pure (.list tok.line xs, ty)
  | .mk ty _ (.named name e) => do
    let (x, _) ← toE mod gsc on e
    pure (.named name.line name.str x, ty)
  | .mk ty _ (.get target member inSet) => do
    let (t, tty) ← toE mod gsc on target
    if on then getAfter gsc ty t tty member inSet
    else pure (.get member.line t member.str inSet, ty)
  | .mk ty _ (.index tok a i) => do
    let (x, _) ← toE mod gsc on a
    let (y, _) ← toE mod gsc on i
    pure (.index tok.line x y, ty)
  | .mk ty _ (.indexSet tok (.mk _ _ (.index _ a i)) v) => do
    let (x, _) ← toE mod gsc on a
    let (y, _) ← toE mod gsc on i
    let (z, _) ← toE mod gsc on v
    pure (.indexSet tok.line x y z, ty)
  | .mk _ _ (.indexSet _ _ _) => C.raise "AttributeError"
  | .mk ty _ (.set target e) => do
    let (x, _) ← toE mod gsc on target
    let (y, _) ← toE mod gsc on e
    pure (.set e.line x y, ty)
  | .mk ty _ (.path comps i) => do
    pure (.path (comps.headD noTok).line (← variantRef i), ty)
/-- Expressions from left to right. -/
def toEs (mod : String) (gsc : ScopeId) (on : Bool) : List AExpr → C (List TExpr)
  | [] => pure []
  | e :: es => do
    let (x, _) ← toE mod gsc on e
    let xs ← toEs mod gsc on es
    pure (x :: xs)
/-- The arms of an `iguala`: line, scope and statements of those that were visited. -/
def toArms (mod : String) (gsc : ScopeId) (on : Bool) : List AArm → C (List (Option (Nat × ScopeId × List TStmt)))
  | [] => pure []
  | .skipped body :: rest => do
    if on && crashSs body then C.raise "AttributeError"
    else do
      let as ← toArms mod gsc on rest
      pure (none :: as)
  | .seen tok _ sc body :: rest => do
    let b ← toSs mod gsc on body
    let as ← toArms mod gsc on rest
    pure (some (tok.line, sc, b) :: as)
/-- `transform` of a statement. -/
def toS (mod : String) (gsc : ScopeId) (on : Bool) : AStmt → C TStmt
  | .expr e => do
    let (x, _) ← toE mod gsc on e
    pure (.expr x)
  | .varDecl tok name ty none => do return .varDecl tok.line name.str (← view ty) none
  | .varDecl tok name ty (some (.mk _ _ (.assign _ (.mk _ _ (.var _ (some i))) r))) => do
    let (y, _) ← toE mod gsc on r
    return .varDecl tok.line name.str (← view ty) (some (.mk i y))
  | .varDecl _ _ _ (some _) => C.raise "AttributeError"
  | .loopCtl tok => pure (.loopCtl tok.line (tok.tt == .quebra))
  | .retorna tok none => pure (.retorna tok.line none)
  | .retorna tok (some e) => do
    let (x, _) ← toE mod gsc on e
    pure (.retorna tok.line (some x))
  | .produz tok e => do
    let (x, _) ← toE mod gsc on e
    pure (.produz tok.line x)
  | .mostra tok e => do
    let (x, _) ← toE mod gsc on e
    pure (.mostra tok.line x)
  | .se tok c b es none => do
    let (x, _) ← toE mod gsc on c
    let b ← toB mod gsc on b
    let es ← toElses mod gsc on es
    pure (.se tok.line x b es none)
  | .se tok c b es (some d) => do
    let (x, _) ← toE mod gsc on c
    let b ← toB mod gsc on b
    let es ← toElses mod gsc on es
    let d ← toB mod gsc on d
    pure (.se tok.line x b es (some d))
  | .enquanto tok c b => do
    let (x, _) ← toE mod gsc on c
    let b ← toB mod gsc on b
    pure (.enquanto tok.line x b)
  | .escolha tok sel cases none => do
    if on then do
      let (x, t) ← toE mod gsc false sel
      let cs ← toChoices mod gsc cases
      pure (transformEscolha ⟨tok.line, x, ← view t, cs, none⟩)
    else C.raise "NotImplementedError"
  | .escolha tok sel cases (some d) => do
    if on then do
      let (x, t) ← toE mod gsc false sel
      let cs ← toChoices mod gsc cases
      let d ← toB mod gsc false d
      pure (transformEscolha ⟨tok.line, x, ← view t, cs, some d⟩)
    else C.raise "NotImplementedError"
  | .para tok name a b none body => do
    let (x, _) ← toE mod gsc on a
    let (y, _) ← toE mod gsc on b
    let bl ← toB mod gsc on body
    pure (.para tok.line name.str x y none bl)
  | .para tok name a b (some i) body => do
    let (x, _) ← toE mod gsc on a
    let (y, _) ← toE mod gsc on b
    let (z, _) ← toE mod gsc on i
    let bl ← toB mod gsc on body
    pure (.para tok.line name.str x y (some z) bl)
  | .func name i b => do
    let b ← toB mod gsc on b
    pure (.func name.line i b)
  | .declared tok i sc native body => do
    if on && crashSs body then C.raise "AttributeError"
    else if native && !(← symOf i).builtin then C.raise "AttributeError"
    else pure (.func tok.line i (.mk sc []))
  | .registo name i inits => do
    let _ ← toEs mod gsc on inits
    match (← symOf i).body with
    | .registo fields _ _ => do return .registo name.line name.str ((← symbolsOf fields).map (·.1))
    | _ => C.raise "AttributeError"
  | .uniao name i => do
    match (← symOf i).body with
    | .uniao variants _ _ => do return .uniao name.line name.str (← variantRefs variants)
    | _ => C.raise "AttributeError"
  | .usa tok => pure (.noop tok.line)
/-- The cases of an `escolha`, which are not transformed. -/
def toChoices (mod : String) (gsc : ScopeId) : List AElse → C (List TCase)
  | [] => pure []
  | .mk _ c b :: rest => do
    let (x, t) ← toE mod gsc false c
    let bl ← toB mod gsc false b
    let cs ← toChoices mod gsc rest
    pure (⟨x, ← view t, bl⟩ :: cs)
/-- `senaose` branches. -/
def toElses (mod : String) (gsc : ScopeId) (on : Bool) : List AElse → C (List TElse)
  | [] => pure []
  | .mk _ c b :: rest => do
    let (x, _) ← toE mod gsc on c
    let bl ← toB mod gsc on b
    let es ← toElses mod gsc on rest
    pure (.mk x bl :: es)
/-- Blocks. -/
def toB (mod : String) (gsc : ScopeId) (on : Bool) : ABlock → C TBlock
  | .mk sc body => do
    let b ← toSs mod gsc on body
    pure (.mk sc b)
/-- Lists of statements. -/
def toSs (mod : String) (gsc : ScopeId) (on : Bool) : List AStmt → C (List TStmt)
  | [] => pure []
  | s :: ss => do
    let x ← toS mod gsc on s
    let xs ← toSs mod gsc on ss
    pure (x :: xs)
end

/-! ## Modules -/

/-- `builtin_types` (types/builtins.py:45-53). -/
def builtinTypes : List (String × PTag) :=
  [("int", .int), ("real", .real), ("bool", .bool), ("texto", .texto), ("vazio", .vazio), ("indef", .indef), ("nulo", .nulo)]

/-- A path as a string. -/
def pstr (p : Path) : String := String.ofList p

/-- The symbols of the builtin types, which exist once. -/
def primSyms (builtinPath : String) : List CSym :=
  builtinTypes.map fun p => { name := p.1, outId := p.1, modPath := builtinPath, body := .prim p.2 }

/-- Before anything is checked. -/
def initState (builtinPath : String) : CState :=
  { syms := primSyms builtinPath, scopes := [], ana := ⟨0, 0, 0, false, none, none, false, 0, 0⟩, waiting := [],
    opcao := none, primMethods := [], mods := [], open_ := [] }

/-- `Analyzer(..)` up to the loading of the builtin module (check/core.py:44-66). -/
def freshAna : C Unit := fun s =>
  let g := s.scopes.length
  let tab : ScopeTab := ⟨builtinTypes.map (·.1) |>.zipIdx, none⟩
  .ok ((), { s with
    scopes := s.scopes ++ [tab, ⟨[], none⟩]
    waiting := s.ana :: s.waiting
    ana := ⟨g, g, 0, false, none, none, false, g + 1, 0⟩ })

/-- `SrcBuiltins.init_embutidos` (types/builtins.py:31-43). -/
def initOpcao : C Unit := do
  match ← getIn (← C.get).ana.globalScope "Opcao" with
  | none => C.raise "KeyError"
  | some i => do
    match (← symOf i).body with
    | .registo _ _ [_] => C.modify fun s => { s with opcao := some i }
    | _ => C.raise "AssertionError"

/-- `validate_builtin_module` (check/core.py:304-315). -/
def openModule (cfg : CCfg) (p : Path) (as : List Annotation) : C Unit := do
  match as.find? fun a => String.ofList a.name == "embutido" with
  | none => C.modify fun s => { s with open_ := (false, []) :: s.open_ }
  | some a =>
    if (Imports.splitPath p).1 = cfg.stdLib then C.modify fun s => { s with open_ := (true, []) :: s.open_ }
    else C.errorAt a.tok "Anotação inválida. Apenas módulos nativos podem conter a anotação 'embutido'"

/-- One child of a module. -/
def visitChild (cfg : CCfg) (p : Path) (st : Stmt) : C Unit := do
  let x ← visitS cfg (pstr p) false false st
  C.modify fun s => { s with open_ := match s.open_ with
    | (b, xs) :: rest => (b, xs ++ [x]) :: rest
    | [] => [] }

/-- The children of a module with the `usa` among them. -/
def withUsa : List Stmt → List AStmt → List AStmt
  | .usa tok _ _ :: ss, xs => .usa tok :: withUsa ss xs
  | _ :: ss, x :: xs => x :: withUsa ss xs
  | _, _ => []

/-- The end of `visit_module` (check/core.py:322-326). -/
def closeModule (p : Path) (t : Tree) : C Unit := do
  let s ← C.get
  match s.open_ with
  | [] => C.raise "IndexError"
  | (builtin, xs) :: rest => do
    let g := s.ana.globalScope
    let body ← toSs (pstr p) g true (withUsa t.stmts xs)
    let m : ModInfo := ⟨pstr p, builtin, g, if builtin then [] else body⟩
    C.modify fun s => { s with open_ := rest, mods := s.mods.filter (·.path != pstr p) ++ [m] }

/-- `assert_can_use_ident(self.ctx_node, name)` (check/core.py:464-470). -/
def assertFreeHere (name : String) : C Unit := do
  let s ← C.get
  match ← getIn s.ana.ctxScope name with
  | none => pure ()
  | some _ =>
    if s.ana.ctxReg then C.error ("O atributo '" ++ name ++ "' já foi declarado neste registo")
    else C.error ("O identificador '" ++ name ++ "' já foi declarado neste escopo")

/-- `define_module_alias` (check/core.py:333-346). -/
def defineAlias (alias : Token) (p : Path) : C Unit := do
  assertFreeHere alias.str
  let i ← newSym { name := alias.str, outId := alias.str, modPath := pstr p, body := .var (.mod (pstr p)) }
  define (← C.get).ana.globalScope alias.str i

/-- `define_module_items` (check/core.py:348-363). -/
def defineItems (p : Path) : List (List Char) → C Unit
  | [] => pure ()
  | item :: items => do
    let name := String.ofList item
    match ← resolveIn (← modScope (pstr p)) name with
    | none => C.error ("Erro ao importar módulo. O item '" ++ name ++ "' não foi declarado no módulo '" ++ pstr p ++ "'")
    | some i => do
      assertFreeHere name
      define (← C.get).ana.globalScope name i
      defineItems p items

/-- The state after an action. -/
def C.run {α : Type} (m : C α) (s : CState) : Except PyErr CState :=
  match m s with
  | .ok (_, s) => .ok s
  | .error e => .error e

/-- The checker in place of the parameter of `Verif.Imports`. -/
def hooks (cfg : CCfg) : Hooks CState where
  fresh _ := freshAna.run
  embutidos := initOpcao.run
  back s :=
    match s.waiting with
    | a :: rest => { s with ana := a, waiting := rest }
    | [] => s
  annotations p as := (openModule cfg p as).run
  enter tok s := { s with ana := { s.ana with line := tok.line } }
  stmt p st := (visitChild cfg p st).run
  finish p t := (closeModule p t).run
  alias _ a p := (defineAlias a p).run
  items _ is p := C.run (match is with
    | [] => C.raise "TypeError"
    | is => defineItems p is)

/-- The configuration of the loader. -/
def icfg (cfg : CCfg) (py : PyCfg) (files : Imports.Files) : Imports.ICfg CState := ⟨py, files, hooks cfg⟩

/-- A symbol as the code generator reads it. -/
def CSym.toSym (x : CSym) : Sym :=
  { name := x.name, outId := x.outId, modPath := x.modPath, isGlobal := x.isGlobal, builtin := x.builtin,
    kind := match x.body with
      | .var _ => .var
      | .func .. => .func
      | .method .. => .method
      | .prim _ => .prim
      | .registo .. | .uniao .. | .tvar => .type
      | .variant .. => .variant
    params := x.params.map (·.2) }

/-- The module with a path as the code generator reads it. -/
def modIn (s : CState) (p : Path) : Codegen.ModuleIn :=
  match s.mods.find? (·.path == pstr p) with
  | some m => ⟨m.path, m.builtin, m.scope, m.body⟩
  | none => ⟨pstr p, false, 0, []⟩

/-- `Analyzer(filename, [], Module(filename)).visit_module(program)` (__main__.py:22-28) as a program. -/
def checkProgram (cfg : CCfg) (py : PyCfg) (files : Imports.Files) (n : Nat) (main : Path) (t : Tree) :
    Except Imports.LErr Source.Prog := do
  let c := icfg cfg py files
  let b := pstr (Imports.builtinPath files)
  let s ← Imports.newAnalyzer c (Imports.loadModule c n) main { imports := [], ctx := main, log := [], rest := initState b }
  let s ← Imports.visitTree c (Imports.loadModule c n) t s
  .ok { env := ⟨s.rest.syms.map CSym.toSym, s.rest.scopes⟩, builtinPath := b, main := modIn s.rest main,
        imports := s.imports.map fun i => modIn s.rest i.1, library := Codegen.moduleName }

/-- What `run_frontend` meets (check/core.py:145-155, 397-400). -/
def troubleOf : Imports.LErr → Pipeline.Trouble
  | .cyclic file p line => .amanda ⟨false, file, "Erro ao importar o módulo '" ++ pstr p ++ "'. Inclusão cíclica detectada", line, -1⟩
  | .py file (.amanda msg line col) => .amanda ⟨decide (col ≠ -1), file, msg, line, col⟩
  | .py _ (.exc name) => .other name
  | .py _ .fuel => .other "RecursionError"
  | .fuel => .other "RecursionError"

/-- The checker in place of the parameter of `Verif.Pipeline`, with at most `n` imports inside one another. -/
def checkFile (cfg : CCfg) (py : PyCfg) (files : Imports.Files) (n : Nat) (main : Path) (t : Tree) :
    Except Pipeline.Trouble Source.Prog :=
  match checkProgram cfg py files n main t with
  | .ok P => .ok P
  | .error e => .error (troubleOf e)

end Amanda.Check

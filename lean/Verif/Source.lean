import Verif.Annot
import Verif.Vm
import Verif.Loader

/-!
# What annotated programs mean

A source-level meaning for the trees of `Verif.Annot`, written without looking at generated code: no
stack, no instructions, no slots, no jumps.  Variables are the symbols the checker gave to names
(amanda/compiler/check/core.py); a local belongs to one call, a global to a module.  It is the
specification the generated code is compared with in `Verif.Props.Correctness`.

A program has no meaning (`Out.stuck`) where it does something the checker is there to prevent (an
operand of a wrong kind, a variable without a value).  Running out of `fuel` is told apart (`Out.fuel`).
-/

namespace Amanda

namespace Source

/-- A function or method of the program: parameters, scope and statements of the body
(ast.py:299-324). -/
structure FunDecl where
  params : List SymId
  scope : ScopeId
  body : List TStmt

/-- What does not change while a program runs: the symbols, the functions of each module by name
and the number of each variant of a module's unions. -/
structure Lang where
  env : SymEnv
  builtinPath : String
  funs : String → String → Option FunDecl
  tag : String → String → Option Nat

/-- Variables and the outside world.  A variable without an entry has no value. -/
structure St (F : Type) where
  locals : SymId → Option (Val F)
  globals : String → String → Option (Val F)
  world : World F

/-- Ways to leave a sequence of statements early. -/
inductive Ctl (F : Type) where
  | quebra
  | continua
  | retorna (v : Val F)

/-- How evaluation ends.  When it runs out of fuel, `rounds` counts the calls and the rounds of loops
around the place where it stopped. -/
inductive Out (F α : Type) where
  | stuck
  | fuel (rounds : Nat)
  | fail (msg : String) (w : World F)
  | leave (c : Ctl F) (st : St F)
  | done (a : α) (st : St F)

/-- Evaluation steps. -/
abbrev M (F α : Type) := St F → Out F α

/-- What happens next, if nothing stops it. -/
def Out.next {F α β : Type} (o : Out F α) (f : α → St F → Out F β) : Out F β :=
  match o with
  | .stuck => .stuck
  | .fuel k => .fuel k
  | .fail msg w => .fail msg w
  | .leave c st => .leave c st
  | .done a st => f a st

/-- What ran out of fuel is inside one more round. -/
def Out.tick {F α : Type} (o : Out F α) : Out F α :=
  match o with
  | .fuel k => .fuel (k + 1)
  | o => o

instance {F : Type} : Monad (M F) where
  pure a := fun st => .done a st
  bind m f := fun st => (m st).next f

def M.stuck {F α : Type} : M F α := fun _ => .stuck

def M.fuel {F α : Type} : M F α := fun _ => .fuel 0

def M.fail {F α : Type} (msg : String) : M F α := fun st => .fail msg st.world

/-- A lookup that must succeed. -/
def M.need {F α : Type} (o : Option α) : M F α :=
  match o with
  | some a => pure a
  | none => M.stuck

/-- An operation on values: it has a result, reports an error or has no meaning. -/
def M.res {F α : Type} (r : Res α) : M F α :=
  match r with
  | .ok a => pure a
  | .error (.err msg) => M.fail msg
  | .error .panic => M.stuck

def M.heap {F : Type} : M F (Heap F) := fun st => .done st.world.heap st

/-- New reference-counted storage. -/
def M.alloc {F : Type} (c : Cell F) : M F Nat := fun st =>
  .done st.world.heap.length { st with world := { st.world with heap := st.world.heap ++ [c] } }

def M.setHeap {F : Type} (h : Heap F) : M F Unit := fun st =>
  .done () { st with world := { st.world with heap := h } }

section
variable {F : Type} [FloatOps F]

/-- Reading a variable. -/
def readVar (L : Lang) (id : SymId) : M F (Val F) := fun st =>
  match L.env.syms[id]? with
  | none => .stuck
  | some s => (M.need (if s.isGlobal then st.globals s.modPath s.name else st.locals id)) st

/-- Giving a variable a value, or taking it away. -/
def writeVar (L : Lang) (id : SymId) (v : Option (Val F)) : M F Unit := fun st =>
  match L.env.syms[id]? with
  | none => .stuck
  | some s =>
      if s.isGlobal then
        .done () { st with globals := fun m n => if m = s.modPath ∧ n = s.name then v else st.globals m n }
      else .done () { st with locals := fun i => if i = id then v else st.locals i }

/-- The state on entering a block: the variables declared in it have no value yet. -/
def St.entered (L : Lang) (st : St F) (scope : ScopeId) : St F :=
  { st with locals := fun i => if i ∈ L.env.ids scope then none else st.locals i }

/-- Entering a block. -/
def clear (L : Lang) (scope : ScopeId) : M F Unit := fun st => .done () (st.entered L scope)

/-- The operators with two operands.  Both operands are always evaluated. -/
def operator : TT → Option Op
  | .plus => some .opAdd
  | .minus => some .opMinus
  | .star => some .opMul
  | .slash => some .opDiv
  | .doubleslash => some .opFloordiv
  | .modulo => some .opModulo
  | .e => some .opAnd
  | .ou => some .opOr
  | .doubleequal => some .opEq
  | .notequal => some .opNoteq
  | .greater => some .opGreater
  | .greatereq => some .opGreatereq
  | .less => some .opLess
  | .lesseq => some .opLesseq
  | _ => none

/-- The operators with one operand. -/
def prefixOp : TT → Option Op
  | .minus => some .opInvert
  | .nao => some .opNot
  | _ => none

/-- A literal: a truth value, `nulo`, an integer, a real number or a text in quotes. -/
def literal (lexeme : String) : Option (Val F) := constOfStr lexeme

/-- Where a real number is wanted an integer is converted (`prom_type`). -/
def promote (prom : Ty) (v : Val F) : M F (Val F) :=
  if prom = .real then do
    let h ← M.heap
    M.res (castVal h v .real)
  else pure v

/-- The types `converta` can convert to, or check for. -/
def convTarget (to : Ty) : Option VTy :=
  if to = .int then some .int
  else if to = .real then some .real
  else if to = .bool then some .bool
  else if to = .texto then some .texto
  else none

def msgConversion (found wanted : VTy) : String :=
  "Conversão inválida. O tipo original do valor é '" ++ found.name ++
    "', mas tentou converter o valor para o tipo '" ++ wanted.name ++ "'"

/-- `converta`: nothing to do for the same type or `indef`; a value of unknown type is checked, any
other is converted. -/
def convert (fromTy toTy : Ty) (v : Val F) : M F (Val F) :=
  if toTy.eqv fromTy || toTy.eqv .indef then pure v
  else do
    let t ← M.need (convTarget toTy)
    if fromTy.eqv .indef then do
      let vt ← M.res v.getType
      if vt = t then pure v else M.fail (msgConversion vt t)
    else do
      let h ← M.heap
      M.res (castVal h v t)

/-- The literal `nulo`. -/
def isNulo : TExpr → Bool
  | .const _ lexeme _ => lexeme == "nulo"
  | _ => false

/-- A comparison with `nulo`: whether the left (`false`) or the right (`true`) side is the literal,
and whether it asks for being different. -/
def nuloTest (op : TT) (l r : TExpr) (lty rty : Ty) : Option (Bool × Bool) :=
  if op = .doubleequal ∨ op = .notequal then
    if lty = .nulo ∧ isNulo l then some (false, decide (op = .notequal))
    else if rty = .nulo ∧ isNulo r then some (true, decide (op = .notequal))
    else none
  else none

/-- The value a variable declared without one has.  Variables of other types have none. -/
def defaultVal (ty : Ty) : Option (Val F) :=
  if ty = .int then some (.int 0)
  else if ty = .real then (FloatOps.parse "0.0" : Option F).map .f64
  else if ty = .bool then some (.bool false)
  else if ty = .texto then some (.str "")
  else none

/-- Where a piece of program stands: its module and scope, and how many calls are active. -/
structure Pos where
  mod : String
  scope : Option ScopeId
  depth : Nat

/-- The symbol of a name: the one found by the checker, else the one visible. -/
def nameSym (L : Lang) (pos : Pos) (name : String) (sym : Option SymId) : M F SymId :=
  M.need (sym.orElse fun _ => L.env.resolve pos.scope name)

/-- Reading a field of a record. -/
def readField (o : Val F) (k : String) : M F (Val F) :=
  match o with
  | .regobj c => do
      let h ← M.heap
      match h[c]? with
      | some (.obj _ st) => M.need (assocGet st k)
      | _ => M.stuck
  | _ => M.stuck

/-- Changing a field of a record. -/
def writeField (o : Val F) (k : String) (v : Val F) : M F Unit :=
  match o with
  | .regobj c => do
      let h ← M.heap
      match h[c]? with
      | some (.obj reg st) => M.setHeap (h.set c (.obj reg (assocSet st k v)))
      | _ => M.stuck
  | _ => M.stuck

/-- A function of the standard library. -/
def callLibrary (cfg : Cfg) (f : Val F) (args : List (Val F)) : M F (Val F) := fun st =>
  match f with
  | .nativeFn module name =>
      match callNative cfg module name args st.world with
      | .ok (v, w) => .done v { st with world := w }
      | .error (.err msg, w) => .fail msg w
      | .error (.panic, _) => .stuck
  | _ => .stuck

def msgDepth : String := "Limite máximo de recursão atingido"

/-- A call: new locals, the parameters first; the caller's come back afterwards.  Without `retorna`
the result is `falso`. -/
def invoke (depth : Nat) (d : FunDecl) (body : M F (Option (Val F))) (args : List (Val F)) : M F (Val F) :=
  fun st =>
    if args.length ≠ d.params.length then .stuck
    else if depth = recursionLimit then .fail msgDepth st.world
    else
      match body { st with locals := fun i => assocGet (d.params.zip args) i } with
      | .done none st' => .done (.bool false) { st' with locals := st.locals }
      | .leave (.retorna v) st' => .done v { st' with locals := st.locals }
      | .fail msg w => .fail msg w
      | .fuel k => .fuel (k + 1)
      | _ => .stuck

/-- The truth value that an operator gave. -/
def boolOf : Val F → Option Bool
  | .bool b => some b
  | _ => none

/-- The number of the variant a value is of. -/
def variantNum : Val F → Option Nat
  | .variant t _ => some t
  | _ => none

/-- Whether a value has the shape a pattern asks for. -/
def fits (L : Lang) (pos : Pos) (c : ConsRef) (v : Val F) : M F Bool :=
  match c with
  | .int n => do
      let r ← M.res (binop v .opEq (.int n))
      M.need (boolOf r)
  | .str s => do
      let w ← M.need (literal s)
      let r ← M.res (binop v .opEq w)
      M.need (boolOf r)
  | .variant w => do
      let tag ← M.need (L.tag pos.mod w.id)
      let t ← M.need (variantNum v)
      pure (decide (tag = t))
  | .other => M.stuck

/-- Names for the parts of a variant: one after the other. -/
def writeAll (L : Lang) : List (SymId × Val F) → M F Unit
  | [] => pure ()
  | (id, v) :: rest => do
      writeVar L id (some v)
      writeAll L rest

/-- The parts of a variant get their names. -/
def bindParts (L : Lang) (c : ConsRef) (args : List SymId) (v : Val F) : M F Unit :=
  match c with
  | .variant _ =>
      if args.isEmpty then pure ()
      else
        match v with
        | .variant _ (some cell) => do
            let h ← M.heap
            match h[cell]? with
            | some (.payload items) =>
                if args.length ≤ items.length then writeAll L (args.zip items) else M.stuck
            | _ => M.stuck
        | _ => M.stuck
  | _ => pure ()

/-- The names of an arm's pattern get their values. -/
def bindNames (L : Lang) (scope : ScopeId) : List (String × SymId) → M F Unit
  | [] => pure ()
  | (name, id) :: rest => do
      let v ← readVar L id
      let b ← M.need (L.env.resolve (some scope) name)
      writeVar L b (some v)
      bindNames L scope rest

/-- A truth value. -/
def truth (v : Val F) : M F Bool :=
  match v with
  | .bool b => pure b
  | _ => M.stuck

/-- Index of a vector or text. -/
def asIndex (v : Val F) : M F Int := M.res v.takeInt

/-- One round of a loop is over: go on with `again`, or stop.  `produz` may not end it. -/
def endRound (again : M F (Option (Val F))) (o : Out F (Option (Val F))) : Out F (Option (Val F)) :=
  match o with
  | .done none st => again st
  | .done (some _) _ => .stuck
  | .leave .quebra st => .done none st
  | .leave .continua st => again st
  | .leave (.retorna v) st => .leave (.retorna v) st
  | .fail msg w => .fail msg w
  | .stuck => .stuck
  | .fuel k => .fuel k

/-- What a call is applied to (ast.py `Call`): a variant, a record type or a function. -/
inductive CallShape where
  | variant (v : VariantRef)
  | record (name : String) (id : Option SymId)
  | function (name : String) (id : Option SymId)
  | unknown

/-- The kind of a call, from the symbol the checker found for it. -/
def callShape (L : Lang) (sym : SymId) (callee : TExpr) : CallShape :=
  match (L.env.syms[sym]?).map Sym.kind, callee with
  | some .variant, .path _ (some v) => .variant v
  | some .type, .var _ name id _ => .record name id
  | some .prim, .var _ name id _ => .record name id
  | some .func, .var _ name id _ => .function name id
  | some .method, .var _ name id _ => .function name id
  | _, _ => .unknown

/-- The value of a sequence of named arguments as the fields of a record. -/
def recordFields : List (String × Val F) → List (String × Val F) → List (String × Val F)
  | [], st => st
  | (k, v) :: rest, st => recordFields rest (assocSet st k v)

/-- A variant of a union with its parts. -/
def makeVariant (L : Lang) (pos : Pos) (v : VariantRef) (vs : List (Val F)) : M F (Val F) := do
  let tag ← M.need (L.tag pos.mod v.id)
  if vs.isEmpty then pure (.variant tag none)
  else do
    let c ← M.alloc (.payload vs)
    pure (.variant tag (some c))

/-- A new record. -/
def makeRecord (L : Lang) (pos : Pos) (name : String) (id : Option SymId) (fs : List (String × Val F)) :
    M F (Val F) := do
  let id ← nameSym L pos name id
  let t ← readVar L id
  match t with
  | .registo reg => do
      let c ← M.alloc (.obj reg (recordFields fs []))
      pure (.regobj c)
  | _ => M.stuck

/-- The function a name stands for, applied: one of the program, whose body `run` evaluates, or one
of the standard library. -/
def apply (cfg : Cfg) (L : Lang) (pos : Pos) (run : Pos → List TStmt → M F (Option (Val F)))
    (name : String) (id : Option SymId) (vs : List (Val F)) : M F (Val F) := do
  let id ← nameSym L pos name id
  let f ← M.need (L.env.syms[id]?)
  match L.funs f.modPath f.name with
  | some d => invoke pos.depth d (run ⟨f.modPath, some d.scope, pos.depth + 1⟩ d.body) vs
  | none => do
      let g ← readVar L id
      callLibrary cfg g vs

mutual
/-- The value of an expression.  An assignment has the assigned value. -/
def evalE (cfg : Cfg) (L : Lang) : Nat → Pos → TExpr → M F (Val F)
  | 0, _, _ => M.fuel
  | n + 1, pos, e =>
    match e with
    | .const _ lexeme prom => do
        let v ← M.need (literal lexeme)
        promote prom v
    | .fmtStr _ parts => do
        let vs ← evalEs cfg L n pos parts
        let h ← M.heap
        let ss ← M.res (vs.mapM (displayVal h))
        pure (.str (String.join ss))
    | .var _ name sym prom => do
        let id ← nameSym L pos name sym
        let v ← readVar L id
        promote prom v
    | .converta _ target fromTy toTy => do
        let v ← evalE cfg L n pos target
        convert fromTy toTy v
    | .alvo _ sym => readVar L sym
    | .bin _ op l r lty rty prom =>
        match nuloTest op l r lty rty with
        | some (onRight, neg) => do
            let v ← evalE cfg L n pos (if onRight then l else r)
            pure (.bool (v.isNone != neg))
        | none => do
            let a ← evalE cfg L n pos l
            let b ← evalE cfg L n pos r
            let o ← M.need (operator op)
            let v ← M.res (binop a o b)
            promote prom v
    | .un _ op operand prom => do
        let a ← evalE cfg L n pos operand
        let o ← M.need (prefixOp op)
        let v ← M.need (unary cfg o a)
        promote prom v
    | .assign _ sym right => do
        let v ← evalE cfg L n pos right
        writeVar L sym (some v)
        pure v
    | .iguala _ decision => do
        let o ← evalD cfg L n pos decision
        M.need o
    | .call _ callee args sym prom =>
        match callShape L sym callee with
        | .variant v => do
            let vs ← evalEs cfg L n pos args
            makeVariant L pos v vs
        | .record name id => do
            let fs ← evalFields cfg L n pos args
            let r ← makeRecord L pos name id fs
            promote prom r
        | .function name id => do
            let vs ← evalEs cfg L n pos args
            let r ← apply cfg L pos (evalSs cfg L n) name id vs
            promote prom r
        | .unknown => M.stuck
    | .list _ elements => do
        let vs ← evalEs cfg L n pos elements
        let c ← M.alloc (.vec vs)
        pure (.vector c)
    | .named _ _ _ => M.stuck
    | .get _ target member _ => do
        let o ← evalE cfg L n pos target
        readField o member
    | .index _ target index => do
        let t ← evalE cfg L n pos target
        let i ← evalE cfg L n pos index
        let i ← asIndex i
        let h ← M.heap
        M.res (indexGet cfg h t i)
    | .indexSet _ target index value => do
        let t ← evalE cfg L n pos target
        let i ← evalE cfg L n pos index
        let v ← evalE cfg L n pos value
        let i ← asIndex i
        let h ← M.heap
        let h ← M.res (indexSet h t i v)
        M.setHeap h
        pure v
    | .set _ (.get _ target member _) value => do
        let o ← evalE cfg L n pos target
        let v ← evalE cfg L n pos value
        writeField o member v
        pure v
    | .set _ _ _ => M.stuck
    | .unwrap _ option none => do
        let v ← evalE cfg L n pos option
        if v.isNone then M.fail msgNullRef else pure v
    | .unwrap _ option (some d) => do
        let v ← evalE cfg L n pos option
        let w ← evalE cfg L n pos d
        pure (if v.isNone then w else v)
    | .path _ none => M.stuck
    | .path _ (some v) =>
        if v.arity = 0 then do
          let tag ← M.need (L.tag pos.mod v.id)
          pure (.variant tag none)
        else M.stuck
/-- The values of expressions, from left to right. -/
def evalEs (cfg : Cfg) (L : Lang) : Nat → Pos → List TExpr → M F (List (Val F))
  | 0, _, _ => M.fuel
  | _ + 1, _, [] => pure []
  | n + 1, pos, e :: es => do
      let v ← evalE cfg L n pos e
      let vs ← evalEs cfg L n pos es
      pure (v :: vs)
/-- Named arguments, from left to right. -/
def evalFields (cfg : Cfg) (L : Lang) : Nat → Pos → List TExpr → M F (List (String × Val F))
  | 0, _, _ => M.fuel
  | _ + 1, _, [] => pure []
  | n + 1, pos, .named _ name arg :: es => do
      let v ← evalE cfg L n pos arg
      let vs ← evalFields cfg L n pos es
      pure ((name, v) :: vs)
  | _ + 1, _, _ => M.stuck
/-- A decision: the arm it selects, with the value given by `produz`.  Runs that reach a fallback have
no value here: there is no code for it (codegen.py:762-763), see `iguala_fallback_violated`. -/
def evalD (cfg : Cfg) (L : Lang) : Nat → Pos → Decision → M F (Option (Val F))
  | 0, _, _ => M.fuel
  | n + 1, pos, d =>
    match d with
    | .fail => M.stuck
    | .success bindings _ scope body => do
        clear L scope
        bindNames L scope bindings
        evalSs cfg L n { pos with scope := some scope } body
    | .switch subject cases _ => evalCases cfg L n pos subject cases
/-- The first case the subject fits. -/
def evalCases (cfg : Cfg) (L : Lang) : Nat → Pos → SymId → List DCase → M F (Option (Val F))
  | 0, _, _, _ => M.fuel
  | _ + 1, _, _, [] => M.stuck
  | n + 1, pos, subject, .mk c args body :: rest => do
      let v ← readVar L subject
      let yes ← fits L pos c v
      if yes then do
        bindParts L c args v
        evalD cfg L n pos body
      else evalCases cfg L n pos subject rest
/-- A statement; its value is the one given by `produz`, if any. -/
def evalS (cfg : Cfg) (L : Lang) : Nat → Pos → TStmt → M F (Option (Val F))
  | 0, _, _ => M.fuel
  | n + 1, pos, s =>
    match s with
    | .expr (.iguala _ d) => do
        let _ ← evalD cfg L n pos d
        pure none
    | .expr e => do
        let _ ← evalE cfg L n pos e
        pure none
    | .varDecl _ _ _ (some (.mk sym right)) => do
        let v ← evalE cfg L n pos right
        writeVar L sym (some v)
        pure none
    | .varDecl _ name ty none => do
        let id ← M.need (L.env.resolve pos.scope name)
        writeVar L id (defaultVal ty)
        pure none
    | .loopCtl _ isBreak => fun st => .leave (if isBreak then .quebra else .continua) st
    | .retorna _ (some e) => do
        let v ← evalE cfg L n pos e
        fun st => .leave (.retorna v) st
    | .retorna _ none => fun st => .leave (.retorna (.bool false)) st
    | .produz _ e => do
        let v ← evalE cfg L n pos e
        pure (some v)
    | .mostra _ e => do
        let v ← evalE cfg L n pos e
        let h ← M.heap
        let s ← M.res (displayVal h v)
        fun st => .done none { st with world := { st.world with out := st.world.out ++ s ++ "\n" } }
    | .se _ cond thenB elsifs elseB => do
        let c ← evalE cfg L n pos cond
        let b ← truth c
        if b then evalB cfg L n pos thenB else evalElses cfg L n pos elsifs elseB
    | .enquanto _ cond (.mk scope body) => do
        clear L scope
        evalWhile cfg L n { pos with scope := some scope } cond body
    | .para _ name start stop inc (.mk scope body) => do
        clear L scope
        let v ← evalE cfg L n { pos with scope := some scope } start
        let id ← M.need (L.env.resolve (some scope) name)
        writeVar L id (some v)
        evalPara cfg L n { pos with scope := some scope } id stop inc body
    | .func _ _ _ => pure none
    | .registo _ name fields => do
        let id ← M.need (L.env.resolve pos.scope name)
        writeVar L id (some (.registo ⟨name, fields⟩))
        pure none
    | .uniao _ _ _ => pure none
    | .noop _ => pure none
/-- Statements in order, until `produz`. -/
def evalSs (cfg : Cfg) (L : Lang) : Nat → Pos → List TStmt → M F (Option (Val F))
  | 0, _, _ => M.fuel
  | _ + 1, _, [] => pure none
  | n + 1, pos, s :: ss => do
      let o ← evalS cfg L n pos s
      match o with
      | none => evalSs cfg L n pos ss
      | some v => pure (some v)
/-- A block. -/
def evalB (cfg : Cfg) (L : Lang) : Nat → Pos → TBlock → M F (Option (Val F))
  | 0, _, _ => M.fuel
  | n + 1, pos, .mk scope body => do
      clear L scope
      evalSs cfg L n { pos with scope := some scope } body
/-- The `senaose` branches, then `senao`. -/
def evalElses (cfg : Cfg) (L : Lang) : Nat → Pos → List TElse → Option TBlock → M F (Option (Val F))
  | 0, _, _, _ => M.fuel
  | _ + 1, _, [], none => pure none
  | n + 1, pos, [], some b => evalB cfg L n pos b
  | n + 1, pos, .mk cond body :: rest, e => do
      let c ← evalE cfg L n pos cond
      let b ← truth c
      if b then evalB cfg L n pos body else evalElses cfg L n pos rest e
/-- `enquanto`. -/
def evalWhile (cfg : Cfg) (L : Lang) : Nat → Pos → TExpr → List TStmt → M F (Option (Val F))
  | 0, _, _, _ => M.fuel
  | n + 1, pos, cond, body => do
      let c ← evalE cfg L n pos cond
      let b ← truth c
      if b then fun st => (endRound (evalWhile cfg L n pos cond body) (evalSs cfg L n pos body st)).tick
      else pure none
/-- `para`, once the variable has its first value: while it is below the bound, which is evaluated
each time, run the body and add the increment. -/
def evalPara (cfg : Cfg) (L : Lang) : Nat → Pos → SymId → TExpr → Option TExpr → List TStmt →
    M F (Option (Val F))
  | 0, _, _, _, _, _ => M.fuel
  | n + 1, pos, id, stop, inc, body => do
      let i ← readVar L id
      let s ← evalE cfg L n pos stop
      let c ← M.res (binop i .opLess s)
      let b ← truth c
      if b then fun st => (endRound (evalParaStep cfg L n pos id stop inc body) (evalSs cfg L n pos body st)).tick
      else pure none
/-- The end of a round of `para`. -/
def evalParaStep (cfg : Cfg) (L : Lang) : Nat → Pos → SymId → TExpr → Option TExpr → List TStmt →
    M F (Option (Val F))
  | 0, _, _, _, _, _ => M.fuel
  | n + 1, pos, id, stop, inc, body => do
      let k ← evalInc cfg L n pos inc
      let i ← readVar L id
      let v ← M.res (binop k .opAdd i)
      writeVar L id (some v)
      evalPara cfg L n pos id stop inc body
/-- The increment of `para`. -/
def evalInc (cfg : Cfg) (L : Lang) : Nat → Pos → Option TExpr → M F (Val F)
  | 0, _, _ => M.fuel
  | _ + 1, _, none => pure (.int 1)
  | n + 1, pos, some e => evalE cfg L n pos e
end

end

end Source

end Amanda

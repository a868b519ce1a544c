import Verif.Source
import Verif.Codegen

/-!
# Programs for which the generated code is claimed to be right

`okE`, `okS` and the others say where constructs may stand.  Each condition that is not simply a rule
of the language is there because the generated code is wrong without it; `Verif.Props.Correctness` has
the counterexamples.

`cleanE`, `cleanS` say which constructs leave nothing behind on the stack of the virtual machine.
Statements that are expressions leave their value, and `iguala` leaves the subject of a case without
parts (codegen.py:784-797).
-/

namespace Amanda

namespace Source

/-- A scope is the other one or around it. -/
inductive Above (env : SymEnv) (k : ScopeId) : ScopeId → Prop where
  | refl : Above env k k
  | up {l p : ScopeId} : (env.scopes[l]?).bind (·.parent) = some p → Above env k p → Above env k l

/-- Where a piece of program stands: module, function (`none` for the statements of the module
itself), scope, whether `produz` and `quebra`/`continua` may be used, whether functions of the program
may be called (not in the statements of an imported module itself: a return leads to the main module,
vm.rs:400-404, binload.rs:325-340), whether it is a statement of the module itself, where functions
and unions may be declared.  `home` says in which scope each local variable belongs, and `chain` has the
scopes of the blocks it stands in, up to the one of the function or module. -/
structure Wf where
  L : Lang
  mod : String
  home : SymId → Option ScopeId
  chain : List ScopeId
  scope : Option ScopeId
  yields : Bool := false
  inLoop : Bool := false
  calls : Bool := true
  top : Bool := false

/-- In a block. -/
def Wf.enter (W : Wf) (scope : ScopeId) : Wf :=
  { W with chain := scope :: W.chain, scope := some scope, top := false }

/-- In the body of an `enquanto`. -/
def Wf.loopIn (W : Wf) (scope : ScopeId) : Wf :=
  { W with chain := scope :: W.chain, scope := some scope, yields := false, inLoop := true, top := false }

/-- In the body of a `para`. -/
def Wf.paraIn (W : Wf) (scope : ScopeId) : Wf :=
  { W with chain := scope :: W.chain, scope := some scope, yields := false, inLoop := false, top := false }

/-- In the body of a function. -/
def Wf.funcIn (W : Wf) (scope : ScopeId) : Wf :=
  { W with chain := [scope], scope := some scope, yields := false, inLoop := false, calls := true, top := false }

/-- The scope of a block is inside the scope it stands in. -/
def Wf.inside (W : Wf) (scope : ScopeId) : Bool :=
  decide ((W.L.env.scopes[scope]?).bind (·.parent) = W.scope)

/-- A block inside the scope it stands in, that declares the variables that belong in it. -/
def Wf.block (W : Wf) (scope : ScopeId) : Bool :=
  W.inside scope && decide (W.chain.head? = W.scope) &&
    (List.range W.L.env.syms.length).all fun i =>
      decide (W.home i ≠ some scope) || (W.L.env.ids scope).contains i

/-- A local variable of the function, that belongs in one of the blocks it is used in. -/
def Wf.isLocal (W : Wf) (id : SymId) (s : Sym) : Bool :=
  !s.isGlobal && decide (s.modPath = W.mod) && (W.home id).any W.chain.contains

/-- A variable that may be read: a global, or a local of the function. -/
def Wf.canRead (W : Wf) (id : SymId) : Bool :=
  match W.L.env.syms[id]? with
  | none => false
  | some s => s.isGlobal || W.isLocal id s

/-- A variable that may be changed: a global of the module that is not a function, or a local of the
function. -/
def Wf.canWrite (W : Wf) (id : SymId) : Bool :=
  match W.L.env.syms[id]? with
  | none => false
  | some s =>
      if s.isGlobal then decide (s.modPath = W.mod) && (W.L.funs s.modPath s.name).isNone
      else W.isLocal id s

/-- A local variable. -/
def Wf.local (W : Wf) (id : SymId) : Bool :=
  match W.L.env.syms[id]? with
  | none => false
  | some s => W.isLocal id s

/-- The symbol of a name. -/
def Wf.nameSym (W : Wf) (name : String) (sym : Option SymId) : Option SymId :=
  sym.orElse fun _ => W.L.env.resolve W.scope name

/-- A property of the symbol of a name, if it has one. -/
def optAll (o : Option SymId) (p : SymId → Bool) : Bool :=
  match o with
  | some id => p id
  | none => true

/-- A name that is called: a global, not converted. -/
def Wf.callee (W : Wf) : TExpr → Bool
  | .var _ name sym prom =>
      decide (prom ≠ .real) &&
        optAll (W.nameSym name sym) fun id => (W.L.env.syms[id]?).any (·.isGlobal)
  | .path _ (some v) => decide (v.arity ≠ 0)
  | _ => false

/-- The name is not one of a function of the program, or those may be called. -/
def Wf.mayCall (W : Wf) (name : String) (sym : Option SymId) : Bool :=
  W.calls || optAll (W.nameSym name sym) fun id =>
    (W.L.env.syms[id]?).all fun s => (W.L.funs s.modPath s.name).isNone

mutual
/-- Expressions that leave exactly their value. -/
def cleanE : TExpr → Bool
  | .const _ _ _ => true
  | .fmtStr _ parts => cleanEs parts
  | .var _ _ _ _ => true
  | .converta _ target _ _ => cleanE target
  | .alvo _ _ => true
  | .bin _ _ l r _ _ _ => cleanE l && cleanE r
  | .un _ _ e _ => cleanE e
  | .assign _ _ r => cleanE r
  | .iguala _ d => cleanD d
  | .call _ _ args _ _ => cleanEs args
  | .list _ es => cleanEs es
  | .named _ _ e => cleanE e
  | .get _ t _ _ => cleanE t
  | .index _ t i => cleanE t && cleanE i
  | .indexSet _ t i v => cleanE t && cleanE i && cleanE v
  | .set _ t v => cleanE t && cleanE v
  | .unwrap _ o none => cleanE o
  | .unwrap _ o (some d) => cleanE o && cleanE d
  | .path _ _ => true
def cleanEs : List TExpr → Bool
  | [] => true
  | e :: es => cleanE e && cleanEs es
/-- Every case names parts of the subject, and the arms are clean and not left early. -/
def cleanD : Decision → Bool
  | .success _ _ _ body => cleanSs false body
  | .switch _ cases _ => cleanCases cases
  | .fail => true
def cleanCases : List DCase → Bool
  | [] => true
  | .mk (.variant _) args body :: rest => !args.isEmpty && cleanD body && cleanCases rest
  | _ :: _ => false
/-- Statements that leave nothing; `leave` says whether `retorna`, `quebra` and `continua` may be
used. -/
def cleanS (leave : Bool) : TStmt → Bool
  | .expr (.assign _ _ r) => cleanE r
  | .expr (.set _ t v) => cleanE t && cleanE v
  | .expr (.indexSet _ t i v) => cleanE t && cleanE i && cleanE v
  | .expr _ => false
  | .varDecl _ _ _ (some (.mk _ r)) => cleanE r
  | .varDecl _ _ _ none => true
  | .loopCtl _ _ => leave
  | .retorna _ none => leave
  | .retorna _ (some e) => leave && cleanE e
  | .produz _ e => cleanE e
  | .mostra _ e => cleanE e
  | .se _ c t es e => cleanE c && cleanB leave t && cleanElses leave es && cleanOptB leave e
  | .enquanto _ c b => cleanE c && cleanB leave b
  | .para _ _ s t none b => cleanE s && cleanE t && cleanB leave b
  | .para _ _ s t (some i) b => cleanE s && cleanE t && cleanE i && cleanB leave b
  | .func _ _ _ => true
  | .registo _ _ _ => true
  | .uniao _ _ _ => true
  | .noop _ => true
def cleanSs (leave : Bool) : List TStmt → Bool
  | [] => true
  | s :: ss => cleanS leave s && cleanSs leave ss
def cleanB (leave : Bool) : TBlock → Bool
  | .mk _ body => cleanSs leave body
def cleanOptB (leave : Bool) : Option TBlock → Bool
  | none => true
  | some b => cleanB leave b
def cleanElses (leave : Bool) : List TElse → Bool
  | [] => true
  | .mk c b :: rest => cleanE c && cleanB leave b && cleanElses leave rest
end

/-- A statement that gives a local variable a slot. -/
def Wf.declares (W : Wf) : TStmt → Bool
  | .varDecl _ _ _ (some (.mk sym _)) => (W.L.env.syms[sym]?).any (!·.isGlobal)
  | .varDecl _ name _ none => ((W.L.env.resolve W.scope name).bind (W.L.env.syms[·]?)).any (!·.isGlobal)
  | _ => false

/-- The declaration of a function: it stands in its module, outside of other declarations, and its
parameters are different variables of its own.  A function without variables must be clean: what its
statements leave on the stack stays there when it returns (vm.rs:394-406). -/
def Wf.header (W : Wf) (sym : SymId) (scope : ScopeId) (body : List TStmt) : Bool :=
  W.top && (W.L.env.syms[sym]?).any fun f =>
    decide (f.modPath = W.mod) &&
      (f.builtin ||
        (f.params.all (W.funcIn scope).local && decide f.params.Nodup &&
          (!f.params.isEmpty || cleanSs true body || body.any (W.funcIn scope).declares)))

/-- The text of a literal that the virtual machine can load: not empty, and the first character (and
the last one of a text in quotes) takes one byte (binload.rs:59-64). -/
def textOk (lexeme : String) : Bool := (unquote lexeme.toList).isSome

/-- A pattern with a text that can be loaded. -/
def consOk : ConsRef → Bool
  | .str s => textOk s
  | _ => true

/-- What an expression is used for: its value, the value of an assignment, nothing. -/
inductive Use where
  | value | rhs | stmt
  deriving DecidableEq, Repr

mutual
/-- Expressions.  Assignments are used as statements or on the right side of assignments; the other
changes as statements.  Operands after the first must be clean: what they leave would
come between the operands. -/
def okE (W : Wf) (u : Use) : TExpr → Bool
  | .const _ lexeme _ => textOk lexeme
  | .fmtStr _ parts => okEs W parts
  | .var _ name sym _ => optAll (W.nameSym name sym) W.canRead
  | .converta _ target _ _ => okE W .value target
  | .alvo _ sym => W.canRead sym
  | .bin _ op l r lty rty _ =>
      decide (Codegen.nullTest op lty rty = nuloTest op l r lty rty) && okE W .value l && okE W .value r && cleanE r
  | .un _ _ e _ => okE W .value e
  | .assign _ sym r => decide (u ≠ .value) && W.canWrite sym && okE W .rhs r
  | .iguala _ d => okD { W with yields := true } d
  | .call _ callee args sym _ =>
      W.callee callee &&
        (match callShape W.L sym callee with
          | .record _ _ => okFields W args
          | .function name id => W.mayCall name id && okEs W args
          | _ => okEs W args)
  | .list _ es => okEs W es
  | .named _ _ _ => false
  | .get _ t _ inSet => !inSet && okE W .value t
  | .index _ t i => okE W .value t && okE W .value i && cleanE i
  | .indexSet _ t i v =>
      decide (u = .stmt) && okE W .value t && okE W .value i && cleanE i && okE W .value v && cleanE v
  | .set _ (.get _ t _ inSet) v =>
      decide (u = .stmt) && inSet && okE W .value t && okE W .value v && cleanE v
  | .set _ _ _ => false
  | .unwrap _ o none => okE W .value o
  | .unwrap _ o (some d) => okE W .value o && okE W .value d && cleanE d
  | .path _ _ => true
/-- Expressions one after another: those after the first are clean. -/
def okEs (W : Wf) : List TExpr → Bool
  | [] => true
  | e :: es => okE W .value e && okEs W es && cleanEs es
/-- Named arguments: all clean. -/
def okFields (W : Wf) : List TExpr → Bool
  | [] => true
  | .named _ _ e :: es => okE W .value e && cleanE e && okFields W es
  | _ :: _ => false
/-- Decisions. -/
def okD (W : Wf) : Decision → Bool
  | .success bindings _ scope body =>
      W.block scope && okNames { W with chain := scope :: W.chain } scope bindings && okSs (W.enter scope) body
  | .switch subject cases _ => W.canRead subject && okCases W cases
  | .fail => true
def okCases (W : Wf) : List DCase → Bool
  | [] => true
  | .mk c args body :: rest => consOk c && args.all W.local && okD W body && okCases W rest
def okNames (W : Wf) (scope : ScopeId) : List (String × SymId) → Bool
  | [] => true
  | (name, id) :: rest =>
      W.canRead id && optAll (W.L.env.resolve (some scope) name) W.canWrite && okNames W scope rest
/-- Statements.  `produz` comes last in its block; `quebra` and `continua` stand in the body of an
`enquanto` without a `para` in between, and not in its condition. -/
def okS (W : Wf) : TStmt → Bool
  | .expr e => okE W .stmt e
  | .varDecl _ _ _ (some (.mk sym r)) => W.canWrite sym && okE W .rhs r
  | .varDecl _ name _ none => optAll (W.L.env.resolve W.scope name) W.canWrite
  | .loopCtl _ _ => W.inLoop
  | .retorna _ none => true
  | .retorna _ (some e) => okE W .value e
  | .produz _ e => W.yields && okE W .value e
  | .mostra _ e => okE W .value e
  | .se _ c t es e => okE W .value c && okB W t && okElses W es && okOptB W e
  | .enquanto _ c (.mk scope body) =>
      W.block scope && okE (W.paraIn scope) .value c &&
        okSs (W.loopIn scope) body
  | .para _ name s t none (.mk scope body) =>
      W.block scope && okE (W.enter scope) .value s &&
        optAll (W.L.env.resolve (some scope) name) (W.enter scope).canWrite &&
        optAll (W.L.env.resolve (some scope) name) (W.enter scope).canRead &&
        okE (W.enter scope) .value t && cleanE t &&
        okSs (W.paraIn scope) body
  | .para _ name s t (some i) (.mk scope body) =>
      W.block scope && okE (W.enter scope) .value s &&
        optAll (W.L.env.resolve (some scope) name) (W.enter scope).canWrite &&
        optAll (W.L.env.resolve (some scope) name) (W.enter scope).canRead &&
        okE (W.enter scope) .value t && cleanE t && okE (W.enter scope) .value i &&
        okSs (W.paraIn scope) body
  | .func _ sym (.mk scope body) =>
      W.header sym scope body &&
        ((W.L.env.syms[sym]?).any (·.builtin) || (W.inside scope && okSs (W.funcIn scope) body))
  | .registo _ name _ => optAll (W.L.env.resolve W.scope name) W.canWrite
  | .uniao _ _ _ => W.top
  | .noop _ => true
def okSs (W : Wf) : List TStmt → Bool
  | [] => true
  | s :: ss => okS { W with yields := W.yields && ss.isEmpty } s && okSs W ss
def okB (W : Wf) : TBlock → Bool
  | .mk scope body => W.block scope && okSs (W.enter scope) body
def okOptB (W : Wf) : Option TBlock → Bool
  | none => true
  | some b => okB W b
def okElses (W : Wf) : List TElse → Bool
  | [] => true
  | .mk c b :: rest => okE W .value c && okB W b && okElses W rest
end

end Source

end Amanda

import Verif.SourceWf
import Verif.Compile

/-!
# Whole source programs

A program is a main module and the modules it imports, each a list of statements
(`Codegen.ModuleIn`).  `Prog.eval` is its meaning: the modules run one after the other, the main module
last.  `Prog.Ok` says for which programs the compiled image is claimed to do the same
(`Verif.Props.Correctness`).
-/

namespace Amanda

namespace Source

open Codegen (ModuleIn)

/-- A checked program: the symbols, the path of the module with the built-in functions, the modules,
and which module of the standard library a path stands for. -/
structure Prog where
  env : SymEnv
  builtinPath : String
  main : ModuleIn
  imports : List ModuleIn
  library : String → String

/-- All modules, in the order they run. -/
def Prog.modules (P : Prog) : List ModuleIn := P.imports ++ [P.main]

/-- The module with a path. -/
def Prog.find (P : Prog) (p : String) : Option ModuleIn := P.modules.find? fun m => decide (m.path = p)

/-- The functions declared by the statements of a module: symbol, scope and statements. -/
def funcDecls : List TStmt → List (SymId × ScopeId × List TStmt)
  | [] => []
  | .func _ sym (.mk scope body) :: rest => (sym, scope, body) :: funcDecls rest
  | _ :: rest => funcDecls rest

/-- The variants of the unions declared by the statements of a module. -/
def unionVariants : List TStmt → List String
  | [] => []
  | .uniao _ _ vs :: rest => vs.map VariantRef.id ++ unionVariants rest
  | _ :: rest => unionVariants rest

/-- A list without repetitions. -/
def distinct : List String → List String
  | [] => []
  | x :: xs => x :: (distinct xs).filter fun y => decide (y ≠ x)

/-- A function written in the program. -/
def declOf (env : SymEnv) (name : String) (d : SymId × ScopeId × List TStmt) : Option FunDecl :=
  match env.syms[d.1]? with
  | some f => if f.name = name ∧ f.builtin = false then some ⟨f.params, d.2.1, d.2.2⟩ else none
  | none => none

/-- The function of a module with a name. -/
def Prog.funs (P : Prog) (p n : String) : Option FunDecl :=
  match P.find p with
  | some m => if m.builtin then none else (funcDecls m.body).findSome? (declOf P.env n)
  | none => none

/-- The number of a variant: its place among the variants of its module. -/
def Prog.tag (P : Prog) (p id : String) : Option Nat :=
  match P.find p with
  | some m => (distinct (unionVariants m.body)).idxOf? id
  | none => none

/-- What does not change while the program runs. -/
def Prog.lang (P : Prog) : Lang :=
  { env := P.env, builtinPath := P.builtinPath, funs := P.funs, tag := P.tag }

section
variable {F : Type} [FloatOps F]

/-- The state in which a module begins: no locals, and of its own globals those in `defs`. -/
def St.begin (st : St F) (p : String) (defs : List (String × Val F)) : St F :=
  { st with locals := fun _ => none
            globals := fun q n => if q = p then assocGet defs n else st.globals q n }

/-- One module: one of the standard library defines its names, any other runs its statements. -/
def Prog.evalModule (cfg : Cfg) (P : Prog) (fuel : Nat) (m : ModuleIn) (st : St F) : Out F Unit :=
  if m.builtin then
    match builtinDefs (P.library m.path) with
    | some defs => .done () (st.begin m.path defs)
    | none => .stuck
  else
    match evalSs cfg P.lang fuel ⟨m.path, some m.scope, 1⟩ m.body (st.begin m.path []) with
    | .done none st' => .done () st'
    | .fail msg w => .fail msg w
    | .fuel k => .fuel k
    | _ => .stuck

/-- One module after the other. -/
def Prog.evalModules (cfg : Cfg) (P : Prog) (fuel : Nat) : List ModuleIn → St F → Out F Unit
  | [], st => .done () st
  | m :: ms, st =>
      match P.evalModule cfg fuel m st with
      | .done () st' => P.evalModules cfg fuel ms st'
      | o => o

/-- The whole program, with lines `inp` to read. -/
def Prog.eval (cfg : Cfg) (P : Prog) (fuel : Nat) (inp : List String) : Out F Unit :=
  P.evalModules cfg fuel P.modules
    { locals := fun _ => none, globals := fun _ _ => none, world := { heap := [], out := "", inp := inp } }

end

/-! ## Conditions -/

/-- Where the statements of a module stand.  An imported module may not call functions of the program
while it is loaded. -/
def Prog.wf (P : Prog) (home : SymId → Option ScopeId) (m : ModuleIn) (calls : Bool) : Wf :=
  { L := P.lang, mod := m.path, home := home, chain := [m.scope], scope := some m.scope, calls := calls, top := true }

/-- The names of the functions a module declares. -/
def funcNames (env : SymEnv) (m : ModuleIn) : List (Option String) :=
  (funcDecls m.body).map fun d => (env.syms[d.1]?).map fun f => f.name

/-- Programs the claim is about.  `home` says in which scope each local variable belongs. -/
structure Prog.Ok (P : Prog) (home : SymId → Option ScopeId) : Prop where
  /-- the statements of the main module -/
  main : P.main.builtin = false ∧ okSs (P.wf home P.main true) P.main.body = true
  /-- the statements of the imported modules -/
  imports : ∀ m ∈ P.imports, m.builtin = false → okSs (P.wf home m false) m.body = true
  /-- modules have different paths -/
  paths : (P.modules.map ModuleIn.path).Nodup
  /-- the built-in functions come first -/
  first : ∃ m ms, P.imports = m :: ms ∧ m.builtin = true ∧ m.path = P.builtinPath ∧
    P.library m.path = "embutidos"
  /-- modules of the standard library are found under their names -/
  library : ∀ m ∈ P.imports, m.builtin = true → Codegen.moduleName m.path = P.library m.path
  /-- the functions of a module have different names -/
  names : ∀ m ∈ P.modules, (funcNames P.env m).Nodup
  /-- local variables of the program that can be visible at the same time have different internal names -/
  outIds : ∀ i j si sj k l, P.env.syms[i]? = some si → P.env.syms[j]? = some sj →
    si.isGlobal = false → sj.isGlobal = false → si.modPath = sj.modPath → si.modPath ≠ P.builtinPath →
    home i = some k → home j = some l → Above P.env k l →
    si.outId = sj.outId → i = j

end Source

end Amanda

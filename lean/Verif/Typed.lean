import Verif.SourceProg
import Verif.Props.Typing
import Mathlib.Data.List.Forall2

/-!
# Typing rules for annotated programs

What it means for a program to use its values and variables as their types say, written as rules on
the trees of `Verif.Annot` and independent of the checker (amanda/compiler/check): `TE` gives the type
of the value an expression evaluates to, `TS` the variables that have a value after a statement.
`Verif.TypedSound` shows that programs which keep to the rules never get stuck.

Covered: `int`, `real`, `bool`, `texto`, vectors of these (nested), variables, functions,
`se`, `enquanto`, `para`, `mostra`, `retorna`, `converta`, format strings, the functions `leia`, `leia_int`,
`leia_real`, `escreva`, `escrevaln`, `txt_contem`, `tam`, `anexa` and `remova` of the standard library.  Not covered: registos,
uniões, `iguala`, variables of type `indef`, optional types, other functions of the standard library.
-/

namespace Amanda

namespace Source

open Codegen

variable {F : Type}

/-- The type of the value that refers to a cell. -/
abbrev Cells := Nat → Option Ty

/-- The values of a type.  A call of a function without result gives `falso`, one of the standard library `None`. -/
inductive HasTy (C : Cells) : Ty → Val F → Prop
  | int (n : Int) : InI64 n → HasTy C .int (.int n)
  | real (x : F) : HasTy C .real (.f64 x)
  | bool (b : Bool) : HasTy C .bool (.bool b)
  | texto (s : String) : HasTy C .texto (.str s)
  | vazio : HasTy C .vazio (.bool false)
  | nothing : HasTy C .vazio .none
  | vec (c : Nat) (t : Ty) : C c = some (.vec t) → HasTy C (.vec t) (.vector c)

/-- What a cell holds. -/
inductive CellOk (C : Cells) : Ty → Cell F → Prop
  | vec (t : Ty) (items : List (Val F)) : (∀ v ∈ items, HasTy C t v) → CellOk C (.vec t) (.vec items)

/-- A function: types of the parameters and the result, and the global variables that must have a
value when it is called. -/
structure FnTy where
  params : List Ty
  ret : Ty
  needs : List SymId

/-- Types of variables and functions, and the names of the functions of the standard library. -/
structure Table where
  vty : SymId → Option Ty
  fn : SymId → Option FnTy
  lib : SymId → Option String

/-- The functions of the standard library: types of the arguments and of the result (std/embutidos.ama:6-37,
embutidos.rs:13-158). -/
inductive LibTy : String → List Ty → Ty → Prop
  | escreva (a : Ty) : LibTy "escreva" [a] .vazio
  | escrevaln (a : Ty) : LibTy "escrevaln" [a] .vazio
  | leia : LibTy "leia" [.texto] .texto
  | leiaInt : LibTy "leia_int" [.texto] .int
  | leiaReal : LibTy "leia_real" [.texto] .real
  | txtContem : LibTy "txt_contem" [.texto, .texto] .bool
  | anexa (t : Ty) : LibTy "anexa" [.vec t, t] .vazio
  | remova (t : Ty) : LibTy "remova" [.vec t, .int] t
  | tamTexto : LibTy "tam" [.texto] .int
  | tamVec (t : Ty) : LibTy "tam" [.vec t] .int

/-- The type after the conversion that `prom_type` asks for. -/
inductive Prom : Ty → Ty → Ty → Prop
  | none (p t : Ty) : p ≠ .real → Prom p t t
  | real : Prom .real .int .real

/-- The types of `converta`. -/
inductive ConvTy : Ty → Ty → Ty → Prop
  | same (a b : Ty) : b.eqv a = true → ConvTy a b a
  | cast (a b : Ty) : Basic a → Basic b → Ty.checkCast a b = .ok true → ConvTy a b b

section
variable (F) [FloatOps F] (L : Lang) (T : Table)

mutual
/-- `TE u Γ sc e t`: in scope `sc`, where the variables `Γ` have a value, the value of `e` is of type `t`.  `u` says
what the expression is used for: assignments stand alone or on the right side of assignments. -/
inductive TE : Use → List SymId → Option ScopeId → TExpr → Ty → Prop
  | const {u Γ sc line lexeme prom t t'} (v : Val F) :
      literal lexeme = some v → HasTy (fun _ => none) t v → textOk lexeme = true → Prom prom t t' →
      TE u Γ sc (.const line lexeme prom) t'
  | fmtStr {u Γ sc line parts ts} : TEs Γ sc parts ts → TE u Γ sc (.fmtStr line parts) .texto
  | var {u Γ sc line name prom t t'} (i : SymId) :
      i ∈ Γ → T.vty i = some t → Prom prom t t' → TE u Γ sc (.var line name (some i) prom) t'
  | converta {u Γ sc line target a b t} : TE .value Γ sc target a → ConvTy a b t →
      TE u Γ sc (.converta line target a b) t
  | bin {u Γ sc line op l r lty rty prom a b t t'} :
      TE .value Γ sc l a → TE .value Γ sc r b → Basic a → Basic b → nuloTest op l r lty rty = none →
      nullTest op lty rty = none →
      Ty.binop a op b = some t → (op = .doubleslash → a = .int ∧ b = .int) → Prom prom t t' →
      TE u Γ sc (.bin line op l r lty rty prom) t'
  | un {u Γ sc line op operand prom a t t'} :
      TE .value Γ sc operand a → Basic a → Ty.unaryop a op = some t → op ≠ .plus → Prom prom t t' →
      TE u Γ sc (.un line op operand prom) t'
  | assign {u Γ sc line i right t} : u ≠ .value → i ∈ Γ → T.vty i = some t → TE .rhs Γ sc right t →
      TE u Γ sc (.assign line i right) t
  | call {u Γ sc line cline name id cprom args sym prom t'} (i : SymId) (f : FnTy) :
      (L.env.syms[sym]?).map Sym.kind = some .func → cprom ≠ .real →
      (id.orElse fun _ => L.env.resolve sc name) = some i → T.fn i = some f →
      TEs Γ sc args f.params → f.needs ⊆ Γ → Prom prom f.ret t' →
      TE u Γ sc (.call line (.var cline name id cprom) args sym prom) t'
  | lib {u Γ sc line cline name id cprom args sym prom ts t t'} (i : SymId) (nm : String) :
      (L.env.syms[sym]?).map Sym.kind = some .func → cprom ≠ .real →
      (id.orElse fun _ => L.env.resolve sc name) = some i → T.lib i = some nm →
      TEs Γ sc args ts → LibTy nm ts t → Prom prom t t' →
      TE u Γ sc (.call line (.var cline name id cprom) args sym prom) t'
  | list {u Γ sc line elements ts} (t : Ty) : TEs Γ sc elements ts → (∀ u ∈ ts, u = t) →
      TE u Γ sc (.list line elements) (.vec t)
  | index {u Γ sc line target i t} : TE .value Γ sc target (.vec t) → TE .value Γ sc i .int →
      TE u Γ sc (.index line target i) t
  | charAt {u Γ sc line target i} : TE .value Γ sc target .texto → TE .value Γ sc i .int →
      TE u Γ sc (.index line target i) .texto
  | indexSet {Γ sc line target i e t} : TE .value Γ sc target (.vec t) → TE .value Γ sc i .int → TE .value Γ sc e t →
      TE .stmt Γ sc (.indexSet line target i e) t
/-- Expressions in order. -/
inductive TEs : List SymId → Option ScopeId → List TExpr → List Ty → Prop
  | nil {Γ sc} : TEs Γ sc [] []
  | cons {Γ sc e es t ts} : TE .value Γ sc e t → TEs Γ sc es ts → TEs Γ sc (e :: es) (t :: ts)
end

/-- Optional increment of `para`. -/
inductive TInc (Γ : List SymId) (sc : Option ScopeId) : Option TExpr → Prop
  | none : TInc Γ sc none
  | some (e : TExpr) : TE F L T .value Γ sc e .int → TInc Γ sc (some e)

/-- None of the variables is declared in the block with scope `s`. -/
def Apart (s : ScopeId) (Γ : List SymId) : Prop := ∀ i ∈ Γ, i ∉ L.env.ids s

/-- The block with scope `s` stands in the scope `sc`. -/
def Within (s : ScopeId) (sc : Option ScopeId) : Prop := (L.env.scopes[s]?).bind (·.parent) = sc

/-- The variable belongs in the scope. -/
def Declared (sc : Option ScopeId) (i : SymId) : Prop := ∃ k, sc = some k ∧ i ∈ L.env.ids k

/-- Where a statement stands: whether `quebra` and `continua` may be used, and whether statements may leave no
value behind.  `strict` keeps loops from being left in the body of a `para`, for which the generated code is wrong.
`top` says whether it is a statement of the module itself. -/
structure Mode where
  loop : Bool
  tidy : Bool
  strict : Bool
  top : Bool

/-- In a block. -/
abbrev Mode.block (m : Mode) : Mode := { m with top := false }

/-- In the body of an `enquanto`. -/
abbrev Mode.loopIn (m : Mode) : Mode := { m with loop := true, top := false }

/-- In the body of a `para`. -/
abbrev Mode.paraIn (m : Mode) : Mode := { m with loop := !m.strict, top := false }

/-- A change of a variable or vector. -/
def isChange : TExpr → Bool
  | .assign .. | .indexSet .. => true
  | _ => false

mutual
/-- `TS ret m Γ sc s Γ'`: where `Γ` have a value, `s` keeps to the types and afterwards `Γ'` have a
value.  `ret` is the result type of the function around it. -/
inductive TS : Option Ty → Mode → List SymId → Option ScopeId → TStmt → List SymId → Prop
  | expr {ret m Γ sc e t} : TE F L T .stmt Γ sc e t → (m.tidy = true → isChange e = true) → TS ret m Γ sc (.expr e) Γ
  | decl {ret m Γ sc line name ty i right t} : T.vty i = some t → Declared L sc i → TE F L T .rhs Γ sc right t →
      TS ret m Γ sc (.varDecl line name ty (some (.mk i right))) (i :: Γ)
  | default {ret m Γ sc line name ty} (i : SymId) (v : Val F) : L.env.resolve sc name = some i → Declared L sc i →
      T.vty i = some ty → defaultVal ty = some v → HasTy (fun _ => none) ty v →
      TS ret m Γ sc (.varDecl line name ty none) (i :: Γ)
  | loopCtl {ret m Γ sc line isBreak} : m.loop = true → TS ret m Γ sc (.loopCtl line isBreak) Γ
  | retorna {m Γ sc line e t} : TE F L T .value Γ sc e t → TS (some t) m Γ sc (.retorna line (some e)) Γ
  | retornaVazio {m Γ sc line} : TS (some .vazio) m Γ sc (.retorna line none) Γ
  | mostra {ret m Γ sc line e t} : TE F L T .value Γ sc e t → TS ret m Γ sc (.mostra line e) Γ
  | se {ret m Γ sc line cond s body elsifs elseB Γ'} : TE F L T .value Γ sc cond .bool →
      Apart L s Γ → Within L s sc → TSs ret m.block Γ (some s) body Γ' → TElses ret m Γ sc elsifs elseB →
      TS ret m Γ sc (.se line cond (.mk s body) elsifs elseB) Γ
  | enquanto {ret m Γ sc line cond s body Γ'} : TE F L T .value Γ (some s) cond .bool →
      Apart L s Γ → Within L s sc → TSs ret m.loopIn Γ (some s) body Γ' →
      TS ret m Γ sc (.enquanto line cond (.mk s body)) Γ
  | para {ret m Γ sc line name start stop inc s body Γ'} (i : SymId) :
      Apart L s Γ → Within L s sc → TE F L T .value Γ (some s) start .int → L.env.resolve (some s) name = some i →
      Declared L (some s) i → T.vty i = some .int →
      TE F L T .value (i :: Γ) (some s) stop .int → TInc F L T (i :: Γ) (some s) inc →
      TSs ret m.paraIn (i :: Γ) (some s) body Γ' →
      TS ret m Γ sc (.para line name start stop inc (.mk s body)) Γ
  | func {ret m Γ sc line sym body} : m.top = true → TS ret m Γ sc (.func line sym body) Γ
  | noop {ret m Γ sc line} : TS ret m Γ sc (.noop line) Γ
/-- Statements in order. -/
inductive TSs : Option Ty → Mode → List SymId → Option ScopeId → List TStmt → List SymId → Prop
  | nil {ret m Γ sc} : TSs ret m Γ sc [] Γ
  | cons {ret m Γ sc s ss Γ' Γ''} : TS ret m Γ sc s Γ' → TSs ret m Γ' sc ss Γ'' →
      TSs ret m Γ sc (s :: ss) Γ''
/-- The branches of `se` after the first. -/
inductive TElses : Option Ty → Mode → List SymId → Option ScopeId → List TElse → Option TBlock → Prop
  | nil {ret m Γ sc} : TElses ret m Γ sc [] none
  | senao {ret m Γ sc s body Γ'} : Apart L s Γ → Within L s sc → TSs ret m.block Γ (some s) body Γ' →
      TElses ret m Γ sc [] (some (.mk s body))
  | cons {ret m Γ sc cond s body rest e Γ'} : TE F L T .value Γ sc cond .bool →
      Apart L s Γ → Within L s sc → TSs ret m.block Γ (some s) body Γ' → TElses ret m Γ sc rest e →
      TElses ret m Γ sc (.mk cond (.mk s body) :: rest) e
end

end

mutual
/-- A statement after which nothing of the function runs. -/
def mustReturn : TStmt → Bool
  | .retorna _ _ => true
  | .se _ _ (.mk _ body) elsifs (some (.mk _ last)) =>
      mustReturns body && mustReturnElses elsifs && mustReturns last
  | _ => false
def mustReturns : List TStmt → Bool
  | [] => false
  | s :: ss => mustReturn s || mustReturns ss
def mustReturnElses : List TElse → Bool
  | [] => true
  | .mk _ (.mk _ body) :: rest => mustReturns body && mustReturnElses rest
end

section
variable (F) [FloatOps F] (L : Lang) (T : Table)

/-- A function keeps to its type: its body does, where the parameters and the needed globals have a
value, and a function with a result always returns one. -/
structure FnOk (d : FunDecl) (f : FnTy) : Prop where
  params : List.Forall₂ (fun p t => T.vty p = some t) d.params f.params
  locals : ∀ p ∈ d.params, ∃ s, L.env.syms[p]? = some s ∧ s.isGlobal = false
  needs : ∀ i ∈ f.needs, ∃ s, L.env.syms[i]? = some s ∧ s.isGlobal = true
  body : ∃ m Γ', m.loop = false ∧ TSs F L T (some f.ret) m (d.params ++ f.needs) (some d.scope) d.body Γ'
  returns : f.ret = .vazio ∨ mustReturns d.body = true

/-- The types of variables and functions are consistent: typed variables exist, variables kept in the
same place have the same type, functions keep to their types, functions of the standard library are global and
kept in places of their own. -/
structure Table.Ok : Prop where
  vars : ∀ i t, T.vty i = some t → ∃ s, L.env.syms[i]? = some s
  places : ∀ i j t u s s', T.vty i = some t → T.vty j = some u → L.env.syms[i]? = some s →
    L.env.syms[j]? = some s' → s.isGlobal = true → s'.isGlobal = true → s.modPath = s'.modPath →
    s.name = s'.name → t = u
  fns : ∀ i f, T.fn i = some f → ∃ s d, L.env.syms[i]? = some s ∧
    L.funs s.modPath s.name = some d ∧ FnOk F L T d f
  libs : ∀ i nm, T.lib i = some nm → ∃ s, L.env.syms[i]? = some s ∧ s.isGlobal = true ∧
    L.funs s.modPath s.name = none ∧ ∀ j t s', T.vty j = some t → L.env.syms[j]? = some s' → s'.isGlobal = true →
      ¬ (s.modPath = s'.modPath ∧ s.name = s'.name)

end

end Source

end Amanda

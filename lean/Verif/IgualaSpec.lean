import Verif.Iguala

/-!
# What an `iguala` should do

Values, what it means for a pattern to match one, and what a decision tree selects.  None of this
refers to the pattern compiler.
-/

namespace Amanda.Iguala

/-- Values an `iguala` looks into.  `other` stands for values of types without patterns. -/
inductive V where
  | int (n : Int)
  | str (s : String)
  | bool (b : Bool)
  | variant (tag : Nat) (args : List V)
  | other

/-- The text a literal denotes: its lexeme without the two quotes. -/
def textOf (lexeme : String) : String := String.ofList ((lexeme.toList.drop 1).dropLast)

mutual
/-- Whether a pattern matches a value, and the parts its names stand for. -/
def matchPat : MPat → V → Option (List (String × V))
  | .int n, .int m => if m = n then some [] else none
  | .str s, .str t => if t = textOf s then some [] else none
  | .bind x, v => some [(x, v)]
  | .adt (some tag) ps, .variant tag' vs => if tag' = tag then matchArgs ps vs else none
  | _, _ => none
/-- The same for the patterns and parts of a variant. -/
def matchArgs : List MPat → List V → Option (List (String × V))
  | [], [] => some []
  | p :: ps, v :: vs =>
    match matchPat p v, matchArgs ps vs with
    | some a, some b => some (a ++ b)
    | _, _ => none
  | _, _ => none
end

/-- The first arm, counted from `i`, whose pattern matches, with what its names stand for. -/
def firstMatch : List MPat → Nat → V → Option (Nat × List (String × V))
  | [], _, _ => none
  | p :: ps, i, v =>
    match matchPat p v with
    | some bs => some (i, bs)
    | none => firstMatch ps (i + 1) v

/-- The values of the variables of a decision tree. -/
abbrev Env := Nat → Option V

/-- Whether a value is built with a constructor, and its parts. -/
def parts : Cons → V → Option (List V)
  | .int n, .int m => if m = n then some [] else none
  | .str s, .str t => if t = textOf s then some [] else none
  | .bool b, .bool c => if c = (b == 1) then some [] else none
  | .variant tag _, .variant tag' vs => if tag' = tag then some vs else none
  | _, _ => none

/-- The argument variables of a case hold the parts of the value. -/
def setArgs (env : Env) : List MVar → List V → Env
  | a :: as, v :: vs => setArgs (upd env a.id (some v)) as vs
  | _, _ => env

mutual
/-- Walking down a decision tree: the arm reached and the values of the variables there. -/
def run (env : Env) : MTree → Option (Nat × Env)
  | .fail => none
  | .success arm => some (arm, env)
  | .switch v cases none =>
    match env v.id with
    | none => none
    | some x => runCases env x cases none
  | .switch v cases (some t) =>
    match env v.id with
    | none => none
    | some x => runCases env x cases (run env t)
/-- The first case whose constructor the value has, otherwise the fallback. -/
def runCases (env : Env) (x : V) : List (Cons × List MVar × MTree) → Option (Nat × Env) →
    Option (Nat × Env)
  | [], fb => fb
  | (k, args, t) :: rest, fb =>
    match parts k x with
    | some vs => run (setArgs env args vs) t
    | none => runCases env x rest fb
end

/-- The value a name stands for: that of its variable. -/
def nameValues (env : Env) : List (String × MVar) → Option (List (String × V))
  | [] => some []
  | (x, a) :: rest =>
    match env a.id, nameValues env rest with
    | some v, some bs => some ((x, v) :: bs)
    | _, _ => none

/-- What a compiled `iguala` selects for a value of its target: the arm and its names' values. -/
def selects (target : MVar) (m : Match) (v : V) : Option (Nat × List (String × V)) :=
  match run (fun i => if i = target.id then some v else none) m.tree with
  | none => none
  | some (arm, env) => (nameValues env (m.bindings arm)).map fun bs => (arm, bs)

mutual
/-- Values of a type.  Types other than the primitive types with patterns and unions may hold
anything. -/
inductive HasTy (U : Unions) : V → Ty → Prop where
  | int (n : Int) : HasTy U (.int n) .int
  | str (s : String) : HasTy U (.str s) .texto
  | bool (b : Bool) : HasTy U (.bool b) .bool
  | variant {m n : String} {tag : Nat} {name : String} {tys : List Ty} {vs : List V} :
      (U m n)[tag]? = some (name, tys) → HasTys U vs tys → HasTy U (.variant tag vs) (.uniao m n)
  | any {v : V} {t : Ty} : (t.isPrim = true → t ≠ .int ∧ t ≠ .texto ∧ t ≠ .bool) →
      (∀ m n, t ≠ .uniao m n) → HasTy U v t
/-- Values of a list of types. -/
inductive HasTys (U : Unions) : List V → List Ty → Prop where
  | nil : HasTys U [] []
  | cons {v : V} {t : Ty} {vs : List V} {ts : List Ty} :
      HasTy U v t → HasTys U vs ts → HasTys U (v :: vs) (t :: ts)
end

end Amanda.Iguala

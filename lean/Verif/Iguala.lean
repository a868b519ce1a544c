import Verif.Lexer
import Verif.Types

/-!
# The compiler of `iguala` patterns

`check/exhaustiveness.py` turns the arms of an `iguala` into a decision tree.  It works on `Row`
objects that it changes in place and that several cases of a tree may share, so the model keeps the
rows and their column lists as objects in a store: `PState.row` gives a row object's `columns`
(the name of a list object) and arm, `PState.list` gives the contents of a list object.

Not modelled: `DGuard` and `Row.guard`, as every row is made with `guard=None`
(exhaustiveness.py:267); `Constructor`s of patterns hold the tag only, which is all that
`compile_constructor_cases` reads (exhaustiveness.py:414-416).
-/

namespace Amanda.Iguala

/-- Patterns after `check_pattern` (ast.py:294-333, check/iguala.py:97-140): numbers, texts (with
the lexeme of the source, quotes included), names, and variants.  `cons` is the tag stored by
`check_pattern`; it is `none` for a variant pattern inside another pattern, which `check_pattern`
never annotates (check/iguala.py:110-118). -/
inductive MPat where
  | int (n : Int)
  | str (lexeme : String)
  | bind (name : String)
  | adt (cons : Option Nat) (args : List MPat)

/-- `VariableSymbol` (symbols/core.py:8-24).  `id` stands for the identity of the object. -/
structure MVar where
  id : Nat
  name : String
  ty : Ty
  deriving DecidableEq, Repr

/-- `==` of the dataclass `VariableSymbol`, which compares name and type (symbols/core.py:8-11),
after the identity test that `list.index` makes first. -/
def MVar.same (a b : MVar) : Bool := a.id == b.id || (a.name == b.name && a.ty.eqv b.ty)

/-- `Constructor` (types/core.py:664-708).  `variant` has the tag and the qualified name. -/
inductive Cons where
  | variant (tag : Nat) (name : String)
  | bool (val : Nat)
  | int (val : Int)
  | str (val : String)
  deriving DecidableEq, Repr

/-- `Decision` (exhaustiveness.py:64-104).  A success names its arm; its bindings are in the
`Body` object that the arm's rows share. -/
inductive MTree where
  | fail
  | success (arm : Nat)
  | switch (v : MVar) (cases : List (Cons × List MVar × MTree)) (fallback : Option MTree)

/-- `Column` (exhaustiveness.py:43-46). -/
structure Col where
  v : MVar
  pat : MPat

/-- `Row` (exhaustiveness.py:50-54): `columns` is the name of a list object, `arm` the arm whose
`Body` the row holds. -/
structure RowObj where
  list : Nat
  arm : Nat
  deriving DecidableEq, Repr

/-- The variants of a union: qualified name and parameter types, in order of declaration
(`Uniao.variants`, types/core.py:461, 478-479). -/
abbrev Unions := String → String → List (String × List Ty)

/-- The objects of one run of `IgualaCompiler`: row objects, list objects, the `bindings` of each
arm's `Body`, the `Diagnostics`, and the names in the scope of the `iguala`. -/
structure PState where
  row : Nat → RowObj
  nRows : Nat
  list : Nat → List Col
  nLists : Nat
  bindings : Nat → List (String × MVar)
  missing : Bool
  reachable : List Nat
  names : List String
  nVars : Nat

/-- Python code that may raise and changes the store. -/
abbrev P (α : Type) := PState → Except PyErr (α × PState)

/-- A function with one place changed. -/
def upd {β : Type} (f : Nat → β) (i : Nat) (x : β) : Nat → β := fun j => if j = i then x else f j

/-- `row.columns`. -/
def PState.cols (σ : PState) (r : Nat) : List Col := σ.list (σ.row r).list

/-- The loop of `move_variable_patterns` (exhaustiveness.py:454-459) over the old columns: the
columns that stay and the bindings made. -/
def splitCols : List Col → List Col × List (String × MVar)
  | [] => ([], [])
  | c :: cs =>
    let (keep, bs) := splitCols cs
    match c.pat with
    | .bind name => (keep, (name, c.v) :: bs)
    | _ => (c :: keep, bs)

/-- `move_variable_patterns` (exhaustiveness.py:450-459): the row gets a new column list, and the
bindings are appended to the `Body` of its arm. -/
def moveVars (σ : PState) (r : Nat) : PState :=
  let o := σ.row r
  let (keep, bs) := splitCols (σ.list o.list)
  { σ with
    row := upd σ.row r { o with list := σ.nLists }
    list := upd σ.list σ.nLists keep
    nLists := σ.nLists + 1
    bindings := upd σ.bindings o.arm (σ.bindings o.arm ++ bs) }

/-- `for row in rows: self.move_variable_patterns(row)` (exhaustiveness.py:283-284). -/
def moveAll (σ : PState) (rows : List Nat) : PState := rows.foldl moveVars σ

/-- `self.columns.pop(idx)` at the first column whose variable equals the given one
(exhaustiveness.py:57-61). -/
def popCol (v : MVar) : List Col → Option (Col × List Col)
  | [] => none
  | c :: cs =>
    if c.v.same v then some (c, cs)
    else match popCol v cs with
      | some (d, ds) => some (d, c :: ds)
      | none => none

/-- `Row.remove_column` (exhaustiveness.py:56-61), which changes the list object. -/
def removeColumn (σ : PState) (r : Nat) (v : MVar) : Option Col × PState :=
  match popCol v (σ.cols r) with
  | none => (none, σ)
  | some (c, rest) => (some c, { σ with list := upd σ.list (σ.row r).list rest })

/-- `counts[id(var)]` of `branch_variable` (exhaustiveness.py:464-468). -/
def countVar (σ : PState) (rows : List Nat) (id : Nat) : Nat :=
  (rows.map fun r => ((σ.cols r).filter fun c => c.v.id == id).length).sum

/-- Python's `max(.., key=..)` over a non-empty list: the first element of largest key. -/
def maxBy (key : MVar → Nat) : MVar → List MVar → MVar
  | best, [] => best
  | best, v :: vs => if key v > key best then maxBy key v vs else maxBy key best vs

/-- `branch_variable` (exhaustiveness.py:463-472), for a first row with columns. -/
def branchVar (σ : PState) (rows : List Nat) (c : Col) (cs : List Col) : MVar :=
  maxBy (fun v => countVar σ rows v.id) c.v (cs.map (·.v))

/-- `new_unique_var` (symbols/core.py:167-170). -/
def newVar (σ : PState) (ty : Ty) : MVar × PState :=
  let name := "_r" ++ toString σ.names.length ++ "_"
  ({ id := σ.nVars, name := name, ty := ty },
    { σ with
      names := if name ∈ σ.names then σ.names else σ.names ++ [name]
      nVars := σ.nVars + 1 })

/-- `new_variables` (exhaustiveness.py:481-482). -/
def newVars (σ : PState) : List Ty → List MVar × PState
  | [] => ([], σ)
  | t :: ts =>
    let (v, σ1) := newVar σ t
    let (vs, σ2) := newVars σ1 ts
    (v :: vs, σ2)

/-- `has_finite_constructors` (types/core.py:199-204, 543-544, symbols/base.py:102-103). -/
def finite : Ty → Bool
  | .prim .bool => true
  | .uniao .. => true
  | _ => false

/-- `VariantCons(variant.tag, ...)` for each variant, in order (types/core.py:546-552): the tag is
the number of variants declared before (types/core.py:479). -/
def variantCons (i : Nat) : List (String × List Ty) → List (Cons × List Ty)
  | [] => []
  | (name, tys) :: rest => (.variant i name, tys) :: variantCons (i + 1) rest

/-- `get_constructors` with the `args()` of each constructor (types/core.py:206-212, 546-552,
674-687). -/
def constructors (U : Unions) : Ty → List (Cons × List Ty)
  | .prim .bool => [(.bool 0, []), (.bool 1, [])]
  | .uniao m n => variantCons 0 (U m n)
  | _ => []

/-- The list of `(cons, self.new_variables(cons.args()), [])` (exhaustiveness.py:315-320). -/
def openCases (σ : PState) :
    List (Cons × List Ty) → List (Cons × List MVar × List Nat) × PState
  | [] => ([], σ)
  | (c, tys) :: rest =>
    let (vs, σ1) := newVars σ tys
    let (cs, σ2) := openCases σ1 rest
    ((c, vs, []) :: cs, σ2)

/-- A case of a switch before its rows are compiled: constructor, argument variables, rows. -/
abbrev RawCase := Cons × List MVar × List Nat

/-- `cases[i][2].append(row)`. -/
def pushRow (r : Nat) (c : RawCase) : RawCase := (c.1, c.2.1, c.2.2 ++ [r])

/-- The loop of `compile_constructor_cases` (exhaustiveness.py:410-423).  A row with the column
gives a new row object that shares its column list and body; a row without it goes to every case. -/
def spread (v : MVar) : List Nat → List RawCase → P (List RawCase)
  | [], cases, σ => .ok (cases, σ)
  | r :: rs, cases, σ =>
    match removeColumn σ r v with
    | (none, σ1) => spread v rs (cases.map (pushRow r)) σ1
    | (some c, σ1) =>
      match c.pat with
      | .adt none _ => .error (.exc "TypeError")
      | .adt (some tag) args =>
        match cases[tag]? with
        | none => .error (.exc "IndexError")
        | some (k, vs, ids) =>
          let l := (σ1.row r).list
          let new := (vs.zip args).map fun (v, p) => Col.mk v p
          let σ2 := { σ1 with
            list := upd σ1.list l (σ1.list l ++ new)
            row := upd σ1.row σ1.nRows { list := l, arm := (σ1.row r).arm }
            nRows := σ1.nRows + 1 }
          spread v rs (cases.set tag (k, vs, ids ++ [σ1.nRows])) σ2
      | _ => spread v rs cases σ1

/-- The key of `tested` and the constructor for a literal pattern (exhaustiveness.py:345-355). -/
def litCons : MPat → Option Cons
  | .int n => some (.int n)
  | .str s => some (.str s)
  | _ => none

/-- `tested.get(key)`. -/
def testedGet (k : Cons) : List (Cons × Nat) → Option Nat
  | [] => none
  | (k', i) :: rest => if k' = k then some i else testedGet k rest

/-- The loop of `compile_infinite_cases` (exhaustiveness.py:341-364): raw cases and fallback rows.
`if index := tested.get(key)` also takes the second way when the index is 0. -/
def gather (v : MVar) : List Nat → List (Cons × Nat) → List RawCase → List Nat →
    P (List RawCase × List Nat)
  | [], _, raw, fb, σ => .ok ((raw, fb), σ)
  | r :: rs, tested, raw, fb, σ =>
    match removeColumn σ r v with
    | (none, σ1) => gather v rs tested raw (fb ++ [r]) σ1
    | (some c, σ1) =>
      match litCons c.pat with
      | none => .error (.exc "NotImplementedError")
      | some k =>
        match testedGet k tested with
        | some (i + 1) => gather v rs tested (raw.modify (i + 1) (pushRow r)) fb σ1
        | _ => gather v rs ((k, raw.length) :: tested) (raw ++ [(k, [], [r])]) fb σ1

/-- `list(map(lambda case: Case(case[0], case[1], self._compile_rows(case[2])), cases))`
(exhaustiveness.py:369-376, 425-432). -/
def compileCases (go : List Nat → P MTree) : List RawCase → P (List (Cons × List MVar × MTree))
  | [], σ => .ok ([], σ)
  | (k, vs, ids) :: rest, σ =>
    match go ids σ with
    | .error e => .error e
    | .ok (t, σ1) =>
      match compileCases go rest σ1 with
      | .error e => .error e
      | .ok (ts, σ2) => .ok ((k, vs, t) :: ts, σ2)

/-- `_compile_rows` from the test of the first row on (exhaustiveness.py:290-326), with
`compile_infinite_cases` and `compile_constructor_cases` (exhaustiveness.py:332-378, 404-432);
`go` stands for the recursive calls. -/
def branch (U : Unions) (go : List Nat → P MTree) (r : Nat) (rs : List Nat) : P MTree := fun σ =>
  match σ.cols r with
  | [] =>
    let arm := (σ.row r).arm
    .ok (.success arm, { σ with reachable := σ.reachable ++ [arm] })
  | c :: cs =>
    let v := branchVar σ (r :: rs) c cs
    if finite v.ty then
      let (cases, σ2) := openCases σ (constructors U v.ty)
      match spread v (r :: rs) cases σ2 with
      | .error e => .error e
      | .ok (raw, σ3) =>
        match compileCases go raw σ3 with
        | .error e => .error e
        | .ok (ts, σ4) => .ok (.switch v ts none, σ4)
    else if v.ty.eqv .int || v.ty.eqv .texto then
      match gather v (r :: rs) [] [] [] σ with
      | .error e => .error e
      | .ok ((raw, fb), σ2) =>
        match compileCases go (raw.map fun c => (c.1, c.2.1, c.2.2 ++ fb)) σ2 with
        | .error e => .error e
        | .ok (ts, σ3) =>
          match go fb σ3 with
          | .error e => .error e
          | .ok (t, σ4) => .ok (.switch v ts (some t), σ4)
    else .error (.exc "NotImplementedError")

/-- `_compile_rows` (exhaustiveness.py:276-326).  The number bounds the depth of the recursion. -/
def compileRows (U : Unions) : Nat → List Nat → P MTree
  | 0, _, _ => .error .fuel
  | _ + 1, [], σ => .ok (.fail, { σ with missing := true })
  | fuel + 1, r :: rs, σ => branch U (compileRows U fuel) r rs (moveAll σ (r :: rs))

/-- `_into_rows` (exhaustiveness.py:263-271): the columns of the row of each arm; row, list and
`Body` objects are numbered like the arms. -/
def intoRows (target : MVar) (arms : List MPat) (names : List String) : PState where
  row i := { list := i, arm := i }
  nRows := arms.length
  list i := match arms[i]? with | some p => [⟨target, p⟩] | none => []
  nLists := arms.length
  bindings _ := []
  missing := false
  reachable := []
  names := names
  nVars := target.id + 1

mutual
/-- Columns a pattern can lead to. -/
def MPat.size : MPat → Nat
  | .adt _ args => 1 + sizes args
  | _ => 1
/-- Columns a list of patterns can lead to. -/
def sizes : List MPat → Nat
  | [] => 0
  | p :: ps => p.size + sizes ps
end

/-- `Match` (exhaustiveness.py:161-165), with the bindings of each arm's `Body` and the names that
the scope then has. -/
structure Match where
  tree : MTree
  bindings : Nat → List (String × MVar)
  missing : Bool
  reachable : List Nat
  names : List String

/-- `IgualaCompiler.compile` (exhaustiveness.py:255-261).  `names` are the names already in the
scope of the `iguala` (check/iguala.py:28-37). -/
def compile (U : Unions) (target : MVar) (arms : List MPat) (names : List String) :
    Except PyErr Match :=
  match compileRows U ((arms.map MPat.size).sum + 2) (List.range arms.length)
      (intoRows target arms names) with
  | .error e => .error e
  | .ok (t, σ) => .ok
    { tree := t, bindings := σ.bindings, missing := σ.missing, reachable := σ.reachable,
      names := σ.names }

/-- `Term` (exhaustiveness.py:138-142). -/
structure Term where
  v : MVar
  name : String
  args : List MVar

/-- `mapping` of `add_missing_patterns` (exhaustiveness.py:185, 199-200): the last term of a
variable wins. -/
def termIdx (terms : List Term) (id : Nat) : Option Nat :=
  let rec go : List Term → Nat → Option Nat → Option Nat
    | [], _, best => best
    | t :: ts, i, best => go ts (i + 1) (if t.v.id = id then some i else best)
  go terms 0 none

/-- `Term.pattern_name` (exhaustiveness.py:144-157); an index of 0 counts as none.  The number
bounds the recursion, which Python ends with a `RecursionError`. -/
def patternName (terms : List Term) : Nat → Term → Except PyErr String
  | 0, _ => .error (.exc "RecursionError")
  | fuel + 1, t =>
    if t.args.isEmpty then .ok t.name
    else
      match t.args.mapM fun a =>
        match termIdx terms a.id with
        | some (i + 1) =>
          match terms[i + 1]? with
          | some u => patternName terms fuel u
          | none => .error (.exc "IndexError")
        | _ => .ok "_" with
      | .error e => .error e
      | .ok parts => .ok (t.name ++ "(" ++ String.intercalate ", " parts ++ ")")

/-- The term of a case (exhaustiveness.py:208-219). -/
def caseTerm (v : MVar) (args : List MVar) : Cons → Except PyErr Term
  | .bool b => .ok ⟨v, if b = 1 then "true" else "false", []⟩
  | .int _ => .ok ⟨v, "_", []⟩
  | .variant _ name => .ok ⟨v, name, args⟩
  | .str _ => .error (.exc "NotImplementedError")

mutual
/-- `add_missing_patterns` (exhaustiveness.py:175-225): the names added, in order. -/
def missingNames : MTree → List Term → Except PyErr (List String)
  | .success _, _ => .ok []
  | .fail, terms =>
    match terms with
    | [] => .ok ["_"]
    | t :: _ => (patternName terms (terms.length + 1) t).map fun s => [s]
  | .switch v cases none, terms => missingCases v cases terms
  | .switch v cases (some t), terms => do
    let a ← missingCases v cases terms
    let b ← missingNames t terms
    pure (a ++ b)
/-- The loop over the cases (exhaustiveness.py:207-222). -/
def missingCases (v : MVar) : List (Cons × List MVar × MTree) → List Term →
    Except PyErr (List String)
  | [], _ => .ok []
  | (k, args, t) :: rest, terms => do
    let term ← caseTerm v args k
    let a ← missingNames t (terms ++ [term])
    let b ← missingCases v rest terms
    pure (a ++ b)
end

/-- `missing_patterns` (exhaustiveness.py:167-173); a set, so the order and repeats do not count. -/
def Match.missingPatterns (m : Match) : Except PyErr (List String) := missingNames m.tree []

end Amanda.Iguala

import Verif.ScopeTree
import Verif.Props.CheckLines

/-!
# C65: names are scoped lexically

What a statement declares inside itself (in its blocks, loops, arms, fields and parameters) means nothing after it.  A
declaration gives a meaning to the one name it declares, in the scope it stands in, and changes the meaning of no other
name.  This is about the whole language, and about every state in which scopes are made after the scopes around them;
`scopes_nest` says that this is so at the end of every program.
-/

namespace Amanda.Check

open Source Imports Pipeline Compiled

/-! ## Spec -/

/-- The names a statement declares where it stands.  A method is a property of its type and declares none. -/
def declared : Stmt → List String
  | .varDecl _ name _ _ | .func name _ _ _ _ _ | .registo name _ _ _ | .uniao name _ _ _ => [name.str]
  | _ => []

/-- The name of a method. -/
def methodName : Stmt → List String
  | .method _ _ name _ _ _ _ => [name.str]
  | _ => []

/-- The checker is where it was: the same scope, nesting, function, loop and type context, in the same analyzer. -/
def Returned (s s' : CState) : Prop :=
  s'.ana.ctxScope = s.ana.ctxScope ∧ s'.ana.globalScope = s.ana.globalScope ∧ s'.ana.depth = s.ana.depth ∧
    s'.ana.ctxFunc = s.ana.ctxFunc ∧ s'.ana.inLoop = s.ana.inLoop ∧ s'.ana.tyCtx = s.ana.tyCtx ∧
    s'.ana.yield.isSome = s.ana.yield.isSome ∧ s'.waiting = s.waiting

/-- The name means the same in both states, wherever it meant something or nothing in the first. -/
def Unmoved (x : String) (s s' : CState) : Prop :=
  ∀ k : Nat, k < s.scopes.length → ∀ i, Seen s'.scopes x k i ↔ Seen s.scopes x k i

/-! ## The theorems -/

theorem returned_of {s s' : CState} (h : s'.ana.place = s.ana.place) (hw : s'.waiting = s.waiting) : Returned s s' := by
  simp only [Ana.place, Place.mk.injEq] at h
  exact ⟨h.2.1, h.1, h.2.2.1, h.2.2.2.1, h.2.2.2.2.1, h.2.2.2.2.2.1, h.2.2.2.2.2.2, hw⟩

theorem defines_declared {st : Stmt} {x : String} : x ∈ defines st ↔ x ∈ declared st ∨ x ∈ methodName st := by
  cases st <;> simp [defines, declared, methodName]

/-- **C65, expressions**: an expression leaves the checker where it was and changes the meaning of no name, whatever
blocks are inside it. -/
theorem expr_scoping {cfg : CCfg} {mod : String} {par : Par} {e : Expr} {s s' : CState} {r : AExpr} (hs : Rooted s)
    (h : visitE cfg mod par e s = .ok (r, s')) : Returned s s' ∧ Rooted s' ∧ ∀ x, Unmoved x s s' := by
  obtain ⟨h1, h2, h3, -⟩ := (visitE_back (cfg := cfg) (mod := mod) (n := s.scopes.length) (D := fun _ _ => False) e s.ana.place [] par).run
    s r s' rfl (Nat.le_refl _) hs (by simp) h
  exact ⟨returned_of h1 (congrArg Prod.fst h3.waits), h2, fun x => seen_kept hs.down (fun i hi => h3.same i x hi (fun h => h)) h3.par h3.grows⟩

/-- **C65, statements**: a statement leaves the checker where it was and changes the meaning of no name other than those
it declares.  Missing: the name of a method (`method_name_violated`). -/
theorem stmt_scoping_partial {cfg : CCfg} {mod : String} {y l : Bool} {st : Stmt} {s s' : CState} {r : AStmt} (hs : Rooted s)
    (h : visitS cfg mod y l st s = .ok (r, s')) :
    Returned s s' ∧ Rooted s' ∧ ∀ x, x ∉ declared st → x ∉ methodName st → Unmoved x s s' := by
  obtain ⟨h1, h2, h3, -⟩ := (visitS_back (cfg := cfg) (mod := mod) (n := s.scopes.length)
    (D := fun i m => i = s.ana.ctxScope ∧ m ∈ defines st) st s.ana.place [] y l fun m hm => .inr ⟨rfl, hm⟩).run
    s r s' rfl (Nat.le_refl _) hs (by simp) h
  refine ⟨returned_of h1 (congrArg Prod.fst h3.waits), h2, fun x hx hx' => ?_⟩
  refine seen_kept hs.down (fun i hi => h3.same i x hi ?_) h3.par h3.grows
  rintro ⟨-, hm⟩
  exact (defines_declared.mp hm).elim hx hx'

/-- **C65, scopes**: a declaration changes what its name means only in the scope it stands in: other scopes define the
same names, for the same symbols. -/
theorem declaration_scope {cfg : CCfg} {mod : String} {y l : Bool} {st : Stmt} {s s' : CState} {r : AStmt} (hs : Rooted s)
    (h : visitS cfg mod y l st s = .ok (r, s')) {k : Nat} (hk : k < s.scopes.length) (hc : k ≠ s.ana.ctxScope) (x : String) :
    lookIn s'.scopes k x = lookIn s.scopes k x := by
  obtain ⟨-, -, h3, -⟩ := (visitS_back (cfg := cfg) (mod := mod) (n := s.scopes.length)
    (D := fun i m => i = s.ana.ctxScope ∧ m ∈ defines st) st s.ana.place [] y l fun m hm => .inr ⟨rfl, hm⟩).run
    s r s' rfl (Nat.le_refl _) hs (by simp) h
  exact h3.same k x hk fun h => hc h.1

/-- **C65, declarations**: a declaration is accepted only if its scope does not define the name yet, and then the scope
defines it. -/
theorem declaration_defines {cfg : CCfg} {mod : String} {y l : Bool} {st : Stmt} {s s' : CState} {r : AStmt} (hs : Rooted s)
    (h : visitS cfg mod y l st s = .ok (r, s')) {x : String} (hx : x ∈ declared st) :
    lookIn s.scopes s.ana.ctxScope x = none ∧ ∃ i, lookIn s'.scopes s'.ana.ctxScope x = some i ∧ Seen s'.scopes x s'.ana.ctxScope i := by
  have hd : x ∈ defines st := defines_declared.mpr (.inl hx)
  refine ⟨visitS_refuses st ?_ x hd s r s' h, ?_⟩
  · rintro gs t f ps r b as rfl
    exact nomatch hx
  · obtain ⟨h1, -, -, h4⟩ := (visitS_bound (cfg := cfg) (mod := mod) (n := s.scopes.length) (D := fun _ _ => True) st s.ana.place [] y l
      (fun _ _ => .inr trivial) x hd).run s r s' rfl (Nat.le_refl _) hs (by simp) h
    have hb : (lookIn s'.scopes s.ana.place.scope x).isSome := h4 (.bound s.ana.place.scope x) (by simp)
    rw [← h1] at hb
    obtain ⟨i, hi⟩ := Option.isSome_iff_exists.mp hb
    have hi : lookIn s'.scopes s'.ana.ctxScope x = some i := hi
    refine ⟨i, hi, ?_⟩
    unfold lookIn at hi
    cases ht : s'.scopes[s'.ana.ctxScope]? with
    | none => rw [ht] at hi; cases hi
    | some t => rw [ht] at hi; exact .here ht hi

/-- **C65, programs**: in an accepted program of any number of files every scope was made after the scope around it, so
that looking up a name ends: it finds the symbol that the innermost scope gives it, if any scope does. -/
theorem scopes_nest {cfg : CCfg} {py : PyCfg} {files : Files} {n : Nat} {main : Path} {t : Tree} {P : Prog}
    (h : checkProgram cfg py files n main t = .ok P) :
    (∀ (k p : Nat) tab, P.env.scopes[k]? = some tab → tab.parent = some p → p < k) ∧
      ∀ (k : ScopeId) x i, P.env.resolve (some k) x = some i ↔ Seen P.env.scopes x k i := by
  have hw : ∀ (k : Nat) (tab : ScopeTab) (p : Nat), P.env.scopes[k]? = some tab → tab.parent = some p → p < k :=
    fun k tab p hk hp => checkProgram_rooted h hk hp
  refine ⟨fun k p tab => hw k tab p, fun k x i => ⟨fun hr => seen_of_resolve hr, fun hr => ?_⟩⟩
  exact resolve_of_seen hw hr (Nat.lt_succ_of_lt hr.lt)

/-! ## Examples -/

/-- The first analyzer, before anything is declared. -/
def startState : CState :=
  match freshAna (initState "") with
  | .ok (_, s) => s
  | .error _ => initState ""

theorem startState_rooted : Rooted startState := by
  refine ⟨fun i p h => ?_, by decide, by decide⟩
  rcases i with _ | _ | i <;> simp [parentOf, startState, freshAna, initState] at h

/-- The names seen after a statement, of some. -/
def namesAfter (text : List Char) (names : List String) : Option (List Bool) :=
  match (treeOf text).stmts with
  | [st] =>
    match visitS stdCfg "" false false st startState with
    | .ok (_, s) => some (names.map fun x => (SymEnv.resolve ⟨[], s.scopes⟩ (some s.ana.ctxScope) x).isSome)
    | .error _ => none
  | _ => none

set_option maxRecDepth 100000 in
/-- Hypotheses of the theorems on statements are met: a function with a loop and a block inside is accepted at the
start; its name means something afterwards, those inside it do not. -/
example : namesAfter (chars! "func f(a : int) : int\n enquanto a > 0 faca\n  b : int = 1\n  a = a - b\n fim\n para c de 0..3 faca\n fim\n retorna a\nfim\n")
    ["f", "a", "b", "c"] = some [true, false, false, false] := by decide +kernel

set_option maxRecDepth 100000 in
/-- Likewise a function that matches its parameter; the name bound by a pattern means nothing afterwards. -/
example : namesAfter (chars! "func f(a : int) : int\n retorna iguala a\n  1 => 2,\n  b => b\n fim\nfim\n") ["f", "a", "b"] =
    some [true, false, false] := by decide +kernel

set_option maxRecDepth 100000 in
/-- Likewise a record; its fields are in a scope of its own. -/
example : namesAfter (chars! "registo P\n x : int\nfim\n") ["P", "x"] = some [true, false] := by decide +kernel

set_option maxRecDepth 100000 in
/-- The hypotheses of `scopes_nest` are met by a program of two files. -/
example : (checkProgram stdCfg samplePy (stdFiles (pairOf (chars! "usa \"/b\" => b\nmostra b.y\n") (chars! "se verdadeiro entao\n z : int = 1\nfim\ny : int = 2\n"))) 3 (chars! "/m.ama")
    (treeOf (chars! "usa \"/b\" => b\nmostra b.y\n"))).toOption.isSome = true := by decide +kernel

set_option maxRecDepth 100000 in
/-- **C65, violated** (check/core.py:516-526, 598-655: `make_func_symbol` defines the name of a method in the scope of
the module): `f` is a function of one number; after a method `f` of `P` it means the method, and the call is refused.
Without the method it is accepted. -/
theorem method_name_violated :
    troubleIn (chars! "func f(x : int) : int\n retorna x\nfim\nregisto P\n x : int\nfim\nmet P::f(alvo) : int\n retorna 2\nfim\nmostra f(1)\n") =
      some (.amanda ⟨false, chars! "/m.ama",
        "número incorrecto de argumentos para o método P::f. Esperava 0 argumento(s), porém recebeu 1", 10, -1⟩) ∧
    troubleIn (chars! "func f(x : int) : int\n retorna x\nfim\nregisto P\n x : int\nfim\nmostra f(1)\n") = none := by decide +kernel

end Amanda.Check

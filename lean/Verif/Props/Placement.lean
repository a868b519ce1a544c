import Verif.Props.Scoping

/-!
# C66: statements of accepted programs stand where they mean something

`quebra` and `continua` stand in the body of an `enquanto` of the same function; `retorna` and `alvo` stand in a function or
method; `produz` is the last statement of the block of an arm of an `iguala`; functions are declared between the
statements of a module.  The spec is `standsTop` (`PlaceSpec.lean`), on the trees that the generator is given.
-/

namespace Amanda.Check

open Source Imports Pipeline Compiled

/-- **C66**: in a program that the checker accepts, every statement that is given to the generator stands where it may, in
every module.  Missing: the blocks of arms that can not be reached, which the checker does not visit and the generator is
not given (`unreached_placement_violated`). -/
theorem placement_partial {cfg : CCfg} {py : PyCfg} {files : Files} {n : Nat} {main : Path} {t : Tree} {P : Prog}
    (h : checkProgram cfg py files n main t = .ok P) {m : Codegen.ModuleIn} (hm : m = P.main ∨ m ∈ P.imports) :
    ∀ s ∈ m.body, standsTop s = true :=
  fun _ hs => checkProgram_stood h hm hs

/-- The statements of the modules of a program, if it is accepted. -/
def bodiesOf (a b : List Char) : Option (List (List TStmt)) :=
  match checkProgram stdCfg samplePy (stdFiles (pairOf a b)) 3 (chars! "/m.ama") (treeOf a) with
  | .ok P => some (P.main.body :: P.imports.map (·.body))
  | .error _ => none

set_option maxRecDepth 100000 in
/-- The hypotheses of `placement_partial` are met by a program of two files with all these statements, in which the main
module has four statements, the library none and the other module three. -/
example : (bodiesOf
    (chars! "usa \"/b\" => b\nfunc f(x : int) : int\n enquanto x > 0 faca\n  se x == 3 entao\n   quebra\n  fim\n  x = x - 1\n  continua\n fim\n retorna iguala x\n  1 => 2,\n  y => faca\n   mostra y\n   produz y\n  fim\n fim\nfim\nmostra f(5)\nmostra b.y\n")
    (chars! "registo P\n x : int\nfim\nmet P::f(alvo) : int\n retorna alvo.x\nfim\ny : int = 2\n")).map
      (fun bs => bs.map fun b => (b.length, b.all standsTop)) = some [(4, true), (0, true), (3, true)] := by decide +kernel

set_option maxRecDepth 100000 in
/-- Programs that are refused: each statement out of place. -/
example : (bodiesOf (chars! "quebra\n") []).isSome = false ∧
    (bodiesOf (chars! "para i de 0..3 faca\n continua\nfim\n") []).isSome = false ∧
    (bodiesOf (chars! "retorna 1\n") []).isSome = false ∧
    (bodiesOf (chars! "produz 1\n") []).isSome = false ∧
    (bodiesOf (chars! "mostra alvo\n") []).isSome = false ∧
    (bodiesOf (chars! "se verdadeiro entao\n func f(x : int) : int\n  retorna x\n fim\nfim\n") []).isSome = false := by decide +kernel

/-- The spec refuses a `quebra` in a function inside a loop, and a `produz` that is not the last statement of its arm. -/
example : standsTop (.enquanto 1 (.var 1 "x" none (.prim .unknown)) (.mk 0 [.func 2 0 (.mk 1 [.loopCtl 3 true])])) = false ∧
    standsYs false false [.produz 1 (.var 1 "x" none (.prim .unknown)), .noop 2] = false := by decide

/-- The words of a text. -/
def wordsOf (text : List Char) : List TT :=
  match lexAll samplePy text with
  | .ok ts => ts.map (·.tt)
  | .error _ => []

/-- Both arms of the `iguala` match any value, so the second can not be reached. -/
def unreachedText : List Char := chars! "x : int = 1\nmostra iguala x\n a => a,\n b => faca\n  quebra\n  retorna 3\n fim\nfim\n"

set_option maxRecDepth 100000 in
/-- **C66, violated** (check/iguala.py:62-74: only the blocks in the decision tree are visited): a program without loops
and functions that has a `quebra` and a `retorna` is accepted. -/
theorem unreached_placement_violated :
    (bodiesOf unreachedText []).isSome = true ∧ (treeOf unreachedText).stmts.length = 2 ∧
    .quebra ∈ wordsOf unreachedText ∧ .retorna ∈ wordsOf unreachedText ∧
    .enquanto ∉ wordsOf unreachedText ∧ .para ∉ wordsOf unreachedText ∧ .func ∉ wordsOf unreachedText ∧
    .met ∉ wordsOf unreachedText := by decide +kernel

end Amanda.Check

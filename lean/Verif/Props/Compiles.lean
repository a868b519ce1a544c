import Verif.Props.Whole
import Verif.Props.Calm
import Verif.FragGen

/-!
# C57 and C63: accepted programs are compiled

`checker_reports_partial` (`Verif.Props.Calm`) is about the checker.  Here the code generator is added: on an accepted
program of `Verif.Frag` it raises an exception only when a number does not fit its place in the image.
-/

namespace Amanda.Check

open Source Imports Pipeline Codegen Compiled

/-- The exceptions of a number that does not fit: too many constants or names (codegen.py:467-469), code that is too
long (codegen.py:310-314), an operand that is no byte or no 64-bit word (codegen.py:338-341, 357), and the numbers and
lengths of the image (bindump.py:6-11, 25-30). -/
def tooBigNames : List String := ["AssertionError", "Exception", "ValueError", "struct.error", "OverflowError"]

theorem tooBig_name {e : PyErr} (h : TooBig e) : ∃ name ∈ tooBigNames, e = .exc name := by
  rcases h with h | h | h | h | h <;> exact ⟨_, by simp [tooBigNames], h⟩

/-- **C57**, the code generator, for the strict programs of `Verif.Frag` with the library as it is: an accepted program
is compiled, or something in it is too big for the image.  Missing: the parts of the language outside `Verif.Frag`. -/
theorem accepted_compiles_partial {l : List (Path × List Char)} {n : Nat} {main : Path} {t : Tree} {P : Prog} {K : Frag}
    {e : PyErr}
    (hm : pstr stdBuiltin ≠ pstr main) (hK : ∀ f ∈ K.fns, f ∉ libraryNames) (hk : okTree K t = true)
    (ha : builtinAnn t.annotations = false) (hs : K.strict = true)
    (h : checkFile stdCfg samplePy (stdFiles l) n main t = .ok P)
    (he : compileProgram P.env P.builtinPath P.main P.imports = .error e) : ∃ name ∈ tooBigNames, e = .exc name := by
  obtain ⟨bt, hp, hr⟩ := std_ready K main hm hK (okTree_libs hk)
  have hlib := (std_read l).trans hp
  have hready : LibraryReady stdCfg (builtinPath (stdFiles l)) bt K main := by rw [stdFiles_builtin]; exact hr
  obtain ⟨m, r, ls', rfl, hr, hv, hP⟩ := accepted_tree hlib hready.1 h
  obtain ⟨hs', hm'⟩ := hready.2 r hr
  obtain ⟨X, Δ, -, -, hfacts, -⟩ := tree_typed (F := CutFloat) (K := K)
    (ls := ⟨[(builtinPath (stdFiles l), true)], main, [builtinPath (stdFiles l)], r⟩) rfl hk ha hs' (by simp) hm' hv P hP
  exact tooBig_name (compile_of_facts hfacts hs (by rw [hP]; rfl) he)

/-- The process for an accepted program that is not compiled. -/
theorem runMain_uncompiled (F : Type) [FloatOps F] (env : Env) (check : Path → Tree → Except Trouble Prog) (file : Path)
    {P : Prog} (hA : Accepted env check file P) {name : String}
    (hc : compileProgram P.env P.builtinPath P.main P.imports = .error (.exc name)) (fuel : Nat) :
    runMain F env check fuel file = .raised name := by
  simp only [runMain, hA.1, ↓reduceIte, runFile]
  rcases frontend_cases env check file hA.1 with ⟨P', hA', hr⟩ | ⟨e, hR, -⟩ | ⟨h1, -⟩
  · cases accepted_unique hA hA'
    simp only [hr, hc]
  · exact (not_both hA hR).elim
  · exact absurd hA (h1 P)

/-- **C57**, the process, for the strict programs of `Verif.Frag` with the library as it is: it ends with a Python
exception only if a condition is bare (and then with `AttributeError`), if something is too big for the image, or if
the error it wants to report names no line of its file.  Missing: the parts of the language outside `Verif.Frag`. -/
theorem process_raises_partial {F : Type} [FloatOps F] (env : Env) {l : List (Path × List Char)} {n fuel : Nat} {file : Path}
    {text : List Char} {t : Tree} {K : Frag} {name : String} (hfile : env.files.isFile file = true)
    (hread : env.files.read file = .ok text) (hparse : parse env.py text = .ok t) (hm : pstr stdBuiltin ≠ pstr file)
    (hK : ∀ f ∈ K.fns, f ∉ libraryNames) (hk : okTree K t = true) (ha : builtinAnn t.annotations = false)
    (hs : K.strict = true)
    (h : runMain F env (checkFile stdCfg samplePy (stdFiles l) (n + 1)) fuel file = .raised name) :
    (t.stmts.any bareS = true ∧ name = "AttributeError") ∨ name ∈ tooBigNames ∨
      ∃ e, Rejected env (checkFile stdCfg samplePy (stdFiles l) (n + 1)) file e ∧ ¬ NamesLine env e := by
  cases hc : checkFile stdCfg samplePy (stdFiles l) (n + 1) file t with
  | ok P =>
      have hA : Accepted env (checkFile stdCfg samplePy (stdFiles l) (n + 1)) file P := ⟨hfile, text, t, hread, hparse, hc⟩
      cases hi : compileProgram P.env P.builtinPath P.main P.imports with
      | ok image =>
          rw [runMain_accepted F env _ file hA hi] at h
          cases hr : runImage F env.vm fuel env.input image <;> rw [hr] at h <;> cases h
      | error e =>
          obtain ⟨nm, hn, rfl⟩ := accepted_compiles_partial hm hK hk ha hs hc hi
          rw [runMain_uncompiled F env _ file hA hi] at h
          cases h
          exact .inr (.inl hn)
  | error tr =>
      simp only [runMain, hfile, ↓reduceIte, runFile, runFrontend, parseMain, hread, hparse, bind, Except.bind, hc] at h
      rcases checker_reports_partial hm hK hk ha hc with ⟨e, rfl⟩ | ⟨hb, rfl⟩
      · refine .inr (.inr ⟨e, ⟨hfile, text, hread, .inr ⟨t, hparse, hc⟩⟩, fun hn => ?_⟩)
        obtain ⟨line, hl⟩ := reportError_named hn
        simp only [hl] at h
        cases h
      · cases h
        exact .inl ⟨hb, rfl⟩

/-- **C63**, for the strict programs of `Verif.Frag` with the library as it is: what becomes of the process for a file
is what becomes of the source program, or something in the program is too big for the image, and the process ends with
the exception of that whatever happens.  Missing: as in `file_faithful_partial`, but for the image. -/
theorem file_outcome_partial {F : Type} [FloatOps F] [LawfulFloatOps F] [ReadsNumerals F] (env : Env)
    {l : List (Path × List Char)} {n : Nat} {file : Path} {text : List Char} {t : Tree} {P : Prog} {K : Frag}
    (hfile : env.files.isFile file = true) (hread : env.files.read file = .ok text)
    (hparse : parse env.py text = .ok t) (hm : pstr stdBuiltin ≠ pstr file)
    (hK : ∀ f ∈ K.fns, f ∉ libraryNames) (hk : okTree K t = true) (ha : builtinAnn t.annotations = false)
    (hs : K.strict = true) (h : checkFile stdCfg samplePy (stdFiles l) n file t = .ok P) (hvm : env.vm.debug = false)
    (hout : nestSs t.stmts ≤ 9) (hsl : slotsCheck P = true) :
    (Faithful F env.vm env.input P fun fuel => runMain F env (checkFile stdCfg samplePy (stdFiles l) n) fuel file) ∨
    ∃ name ∈ tooBigNames, ∀ fuel, runMain F env (checkFile stdCfg samplePy (stdFiles l) n) fuel file = .raised name := by
  cases hi : compileProgram P.env P.builtinPath P.main P.imports with
  | ok image => exact .inl (file_faithful_partial env hfile hread hparse hm hK hk ha hs h hvm hout hsl hi)
  | error e =>
      obtain ⟨nm, hn, rfl⟩ := accepted_compiles_partial hm hK hk ha hs h hi
      exact .inr ⟨nm, hn, runMain_uncompiled F env _ file ⟨hfile, text, t, hread, hparse, h⟩ hi⟩

/-! ## Examples -/

/-- A vector with 256 elements: their number is written as one byte. -/
def longText : List Char := chars! "v : [int] = [int: 1" ++ (List.replicate 255 (chars! ", 1")).flatten ++ chars! "]\n"

/-- Its names. -/
def longNames : Frag := ⟨["v"], [], [], false, true⟩

/-- How the process for a text ends. -/
def endOf (text : List Char) : Ended :=
  runMain CutFloat (stdEnv text) (checkFile stdCfg samplePy (stdFiles [(chars! "/m.ama", text)]) 2) 0 (chars! "/m.ama")

/-- A process that ends with a Python exception. -/
def raisedIn : Ended → Option String
  | .raised name => some name
  | _ => none

set_option maxRecDepth 100000 in
/-- **C57, violated** (codegen.py:356-357): the checker accepts a vector with 256 elements, and compiling it ends with
`ValueError`. -/
theorem long_vector_violated : okTree longNames (treeOf longText) = true ∧ (treeOf longText).stmts.any bareS = false ∧
    raisedIn (endOf longText) = some "ValueError" := by decide +kernel

/-- The hypotheses of `process_raises_partial` are met by `longText`. -/
example {name : String} (hp : parse samplePy longText = .ok (treeOf longText)) (h : endOf longText = .raised name) :
    name ∈ tooBigNames ∨ ∃ e, Rejected (stdEnv longText) (checkFile stdCfg samplePy (stdFiles [(chars! "/m.ama", longText)]) 2)
      (chars! "/m.ama") e ∧ ¬ NamesLine (stdEnv longText) e := by
  rcases process_raises_partial (stdEnv longText) (text := longText) (K := longNames) (n := 1) rfl rfl hp (by decide) (by decide)
    long_vector_violated.1 (by decide +kernel) rfl h with ⟨hb, -⟩ | h
  · rw [long_vector_violated.2.1] at hb; cases hb
  · exact h

end Amanda.Check

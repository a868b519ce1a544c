import Verif.ErrorFiles
import Verif.Props.Compiles

/-!
# C64: errors name a line of the file they name

Every error that the parser or the checker gives to the user names a file and a line; the report shows that line of
that file (error.py, `reportError` in `Verif.Pipeline`), and an error that names no line of its file ends the process
with `AssertionError` instead.  This is about the whole language and about programs of any number of files.
-/

namespace Amanda.Check

open Source Imports Pipeline Lines Compiled

/-! ## The theorem -/

/-- **C64**, for programs in whose format strings the expressions have no backslash and no line feed: an error names a line of a file, or
it says that the alias of an import is in use, and has the line of the import but the file imported.  Missing: those two
cases (`format_line_violated`, `alias_file_violated`). -/
theorem error_line_partial {env : Env} {cfg : CCfg} {n : Nat} {file : Path} {e : AmandaError}
    (hl : Legible (icfg cfg env.py env.files) file) (hs : SameFile env.files)
    (hf : ∀ p text, env.files.read p = .ok text → env.files.isFile p = true)
    (h : Rejected env (checkFile cfg env.py env.files n) file e) :
    NamesLine env e ∨ ∃ l : Nat, e.line = l ∧ Mislaid (icfg cfg env.py env.files) file e.fpath l e.message := by
  have named : ∀ {p l m c b}, FileLine env.files p l → NamesLine env ⟨b, p, m, Int.ofNat l, c⟩ := by
    rintro p l m c b ⟨text, hr, hl⟩
    refine ⟨by rw [(hs p).1]; exact hf p text hr, text, l, by rw [(hs p).2]; exact hr, rfl, hl⟩
  obtain ⟨-, text, hread, ⟨msg, line, col, hp, rfl⟩ | ⟨tree, hp, hc⟩⟩ := h
  · exact .inl (named ⟨text, hread, syntax_error_line hl.python text hp⟩)
  · have hpf : parseFile (icfg cfg env.py env.files) file = .ok tree := by
      unfold parseFile
      rw [show (icfg cfg env.py env.files).files.read file = .ok text from hread]
      exact hp
    unfold checkFile at hc
    split at hc
    · cases hc
    · rename_i er hpr
      have hr := checkProgram_right hl hpf hpr
      simp only [Except.error.injEq] at hc
      cases er with
      | fuel => simp [troubleOf] at hc
      | cyclic f p l =>
        simp only [troubleOf, Trouble.amanda.injEq] at hc
        subst hc
        exact .inl (named hr)
      | py f x =>
        cases x with
        | amanda m l c =>
          simp only [troubleOf, Trouble.amanda.injEq] at hc
          subst hc
          rcases hr with hr | hr
          · exact .inl (named hr)
          · exact .inr ⟨l, rfl, hr⟩
        | exc _ => simp [troubleOf] at hc
        | fuel => simp [troubleOf] at hc

/-! ## Programs without imports -/

theorem partOf_noUsa {c : ICfg CState} {main p : Path} (h1 : noUsa (parseFile c main) = true)
    (h2 : noUsa (parseFile c (builtinPath c.files)) = true) (h : PartOf c main p) : p = main ∨ p = builtinPath c.files := by
  rcases h with h | h
  · left
    rcases Relation.ReflTransGen.cases_head h with h | ⟨q, hq, -⟩
    · exact h.symm
    · exact absurd hq (noUsa_imp h1)
  · right
    rcases Relation.ReflTransGen.cases_head h with h | ⟨q, hq, -⟩
    · exact h.symm
    · exact absurd hq (noUsa_imp h2)

/-- Without imports nothing is imported under an alias. -/
theorem not_mislaid {c : ICfg CState} {main f : Path} {l : Nat} {m : String} (h1 : noUsa (parseFile c main) = true)
    (h2 : noUsa (parseFile c (builtinPath c.files)) = true) : ¬ Mislaid c main f l m := by
  rintro ⟨g, tree, tok, module, name, hg, hp, hu, ht, -⟩
  have hi : Imp c g f := ⟨tree, hp, tok, module, _, hu, ht⟩
  rcases partOf_noUsa h1 h2 hg with rfl | rfl
  · exact noUsa_imp h1 hi
  · exact noUsa_imp h2 hi

/-- `PlainFormats`, computed. -/
def plainCheck (py : PyCfg) (src : List Char) : Bool :=
  (Lex.stream py (src.length + 1) (Lex.init src)).1.all fun t => t.tt != .formatStr || (fmtSplit false t.inner []).all fun p =>
    match p with
    | .expr cs => !cs.contains '\n' && !cs.contains '\\'
    | _ => true

theorem plainCheck_ok {py : PyCfg} {src : List Char} (h : plainCheck py src = true) : PlainFormats py src := by
  intro t ht hf cs hc
  have := List.all_eq_true.1 h t ht
  simp only [hf, bne_self_eq_false, Bool.false_or, List.all_eq_true] at this
  have := this _ hc
  simpa using this

set_option maxRecDepth 100000 in
/-- The format strings of the library. -/
theorem library_formats : PlainFormats samplePy embutidosText := plainCheck_ok (by decide +kernel)

/-- **C64**, the process, for programs in whose format strings the expressions have no backslash and no line feed and that import nothing
under an alias: whatever the error of the parser or the checker, it is reported.  Missing: as in `error_line_partial`. -/
theorem rejected_reported_partial {F : Type} [FloatOps F] {env : Env} {cfg : CCfg} {n fuel : Nat} {file : Path} {e : AmandaError}
    (hl : Legible (icfg cfg env.py env.files) file) (hs : SameFile env.files)
    (hf : ∀ p text, env.files.read p = .ok text → env.files.isFile p = true)
    (hn : ∀ g tree tok module name, PartOf (icfg cfg env.py env.files) file g → parseFile (icfg cfg env.py env.files) g = .ok tree →
      Stmt.usa tok module (.scoped name) ∉ tree.stmts)
    (h : Rejected env (checkFile cfg env.py env.files n) file e) :
    ∃ line, runMain F env (checkFile cfg env.py env.files n) fuel file = .exit 0 "" (fmtError env (strip env.py line) e) := by
  rcases error_line_partial hl hs hf h with hn | ⟨l, -, g, tree, tok, module, name, h1, h2, h3, -⟩
  · obtain ⟨line, hr⟩ := reportError_named hn
    refine ⟨line, ?_⟩
    simp only [runMain, h.1, ↓reduceIte, runFile]
    rcases frontend_cases env (checkFile cfg env.py env.files n) file h.1 with ⟨P, hA, -⟩ | ⟨e', hR, he⟩ | ⟨-, h2, -⟩
    · exact (not_both hA h).elim
    · cases rejected_unique h hR
      simp only [he, hr]
    · exact absurd h (h2 e)
  · exact absurd h3 (hn _ _ _ _ _ h1 h2)

/-! ## With the library as it is -/

theorem textFiles_read {l : List (Path × List Char)} {p : Path} {text : List Char} (h : (textFiles l).read p = .ok text) :
    (p, text) ∈ l := by
  simp only [textFiles] at h
  split at h
  · rename_i x hx
    cases h
    have h1 := List.find?_some hx
    simp only [beq_iff_eq] at h1
    exact h1 ▸ List.mem_of_find?_eq_some hx
  · cases h

theorem textFiles_silent (l : List (Path × List Char)) (p : Path) : Silent ((textFiles l).read p) := by
  intro m l c
  simp only [textFiles]
  split <;> simp

theorem textFiles_isFile {l : List (Path × List Char)} {p : Path} {text : List Char} (h : (textFiles l).read p = .ok text) :
    (textFiles l).isFile p = true := by
  simp only [textFiles, List.any_eq_true]
  exact ⟨_, textFiles_read h, by simp⟩

/-- The files of a program beside the library are legible when their format strings are plain. -/
theorem legible_std {l : List (Path × List Char)} {main : Path} (h : ∀ e ∈ l, PlainFormats samplePy e.2) :
    Legible (icfg stdCfg samplePy (stdFiles l)) main where
  python := samplePy_lawful
  errors := textFiles_silent _
  plain p text _ hr := by
    rcases List.mem_cons.1 (textFiles_read hr) with h' | h'
    · cases h'
      exact library_formats
    · exact h _ h'

theorem sameFile_std (l : List (Path × List Char)) : SameFile (stdFiles l) := fun _ => ⟨rfl, rfl⟩

/-- **C57**, the process, for the strict programs of `Verif.Frag` in whose format strings the expressions have no
backslash and no line feed, with the library as it is: it ends with a Python exception only if a condition is bare (and then with
`AttributeError`), or if something is too big for the image.  Missing: the parts of the language outside `Verif.Frag`. -/
theorem process_ends_partial {F : Type} [FloatOps F] (env : Env) {l : List (Path × List Char)} {n fuel : Nat} {file : Path}
    {text : List Char} {t : Tree} {K : Frag} {name : String} (hpy : env.py = samplePy) (hfs : env.files = stdFiles l)
    (hread : env.files.read file = .ok text) (hparse : parse env.py text = .ok t) (hm : pstr stdBuiltin ≠ pstr file)
    (hK : ∀ f ∈ K.fns, f ∉ libraryNames) (hk : okTree K t = true) (ha : builtinAnn t.annotations = false)
    (hs : K.strict = true) (hp : PlainFormats samplePy text)
    (h : runMain F env (checkFile stdCfg samplePy (stdFiles l) (n + 1)) fuel file = .raised name) :
    (t.stmts.any bareS = true ∧ name = "AttributeError") ∨ name ∈ tooBigNames := by
  have hfile : env.files.isFile file = true := by rw [hfs] at hread ⊢; exact textFiles_isFile hread
  rcases process_raises_partial env hfile hread hparse hm hK hk ha hs h with h | h | ⟨e, hR, hN⟩
  · exact .inl h
  · exact .inr h
  have hu1 : noUsa (parseFile (icfg stdCfg samplePy (stdFiles l)) file) = true := by
    have : parseFile (icfg stdCfg samplePy (stdFiles l)) file = .ok t := by
      unfold parseFile
      rw [show (icfg stdCfg samplePy (stdFiles l)).files.read file = .ok text from hfs ▸ hread]
      exact hpy ▸ hparse
    rw [this]
    refine List.all_eq_true.2 fun s hsm => ?_
    simp only [okTree, Bool.and_eq_true, List.all_eq_true] at hk
    have := hk.1.1.1.1 s hsm
    cases s <;> first | rfl | (simp [okTop, okS] at this)
  have hu2 : noUsa (parseFile (icfg stdCfg samplePy (stdFiles l)) (builtinPath (stdFiles l))) = true := by
    rw [std_read]; exact embutidos_noUsa
  have hl : Legible (icfg stdCfg samplePy (stdFiles l)) file := by
    refine ⟨samplePy_lawful, textFiles_silent _, fun p text' hpo hr => ?_⟩
    rcases partOf_noUsa hu1 hu2 hpo with rfl | rfl
    · rw [show (icfg stdCfg samplePy (stdFiles l)).files.read p = .ok text from hfs ▸ hread] at hr
      cases hr
      exact hp
    · cases (show (icfg stdCfg samplePy (stdFiles l)).files.read (builtinPath (stdFiles l)) = .ok embutidosText from
        read_builtin _ l).symm.trans hr
      exact library_formats
  have hR' : Rejected env (checkFile stdCfg env.py env.files (n + 1)) file e := by rw [hpy, hfs]; exact hR
  rcases error_line_partial (by rw [hpy, hfs]; exact hl) (by rw [hfs]; exact sameFile_std l)
    (by rw [hfs]; exact fun p t => textFiles_isFile) hR' with h | ⟨ln, -, h⟩
  · exact absurd h hN
  · rw [hpy, hfs] at h
    exact absurd h (not_mislaid hu1 hu2)

/-! ## Examples -/

/-- A program of two files. -/
def pairOf (a b : List Char) : List (Path × List Char) := [(chars! "/m.ama", a), (chars! "/b.ama", b)]

/-- Its surroundings. -/
def twoEnv (a b : List Char) : Env := { stdEnv [] with files := stdFiles (pairOf a b) }

/-- How the checker ends on it. -/
def troubleOfTwo (a b : List Char) : Option Trouble :=
  match checkFile stdCfg samplePy (stdFiles (pairOf a b)) 3 (chars! "/m.ama") (treeOf a) with
  | .ok _ => none
  | .error e => some e

/-- How the process for it ends. -/
def endOfTwo (a b : List Char) : Ended :=
  runMain CutFloat (twoEnv a b) (checkFile stdCfg samplePy (stdFiles (pairOf a b)) 3) 0 (chars! "/m.ama")

set_option maxRecDepth 100000 in
/-- **C64, violated** (parse.py:145-166, 1151-1198: the expressions in format strings are read after their escapes; error.py:91-101): the `\n` in
the format string on the only line of the program make the checker name line 4, and the process ends with
`AssertionError`. -/
theorem format_line_violated : troubleIn (chars! "mostra f\"{leia(\\n\\n\\nx)}\"\n") =
      some (.amanda ⟨false, chars! "/m.ama", "o identificador 'x' não foi declarado", 4, -1⟩) ∧
    raisedIn (endOf (chars! "mostra f\"{leia(\\n\\n\\nx)}\"\n")) = some "AssertionError" := by decide +kernel

set_option maxRecDepth 100000 in
/-- **C64, violated** (check/core.py:403, 412-415, 427): the alias on line 4 of the program is in use; the error names
line 4 of the file imported, which has one line, and the process ends with `AssertionError`. -/
theorem alias_file_violated :
    troubleOfTwo (chars! "\n\n\nusa \"/b\" => tam\n") (chars! "y : int = 2\n") =
      some (.amanda ⟨false, chars! "/b.ama", "O identificador 'tam' já foi declarado neste escopo", 4, -1⟩) ∧
    raisedIn (endOfTwo (chars! "\n\n\nusa \"/b\" => tam\n") (chars! "y : int = 2\n")) = some "AssertionError" := by decide +kernel

set_option maxRecDepth 100000 in
/-- The error in an imported file names a line of that file. -/
example : troubleOfTwo (chars! "usa \"/b\"\nmostra 1\n") (chars! "y : int = 2\n\nmostra y + x\n") =
    some (.amanda ⟨false, chars! "/b.ama", "o identificador 'x' não foi declarado", 3, -1⟩) := by decide +kernel

/-- A program whose imported file has an error. -/
def mainText : List Char := chars! "usa \"/b\"\nmostra 1\n"

/-- The file with the error. -/
def sideText : List Char := chars! "y : int = 2\n\nmostra f\"a\\n{y + x}\"\n"

theorem two_plain : ∀ e ∈ pairOf mainText sideText, PlainFormats samplePy e.2 := by
  intro e he
  simp only [pairOf, List.mem_cons, List.not_mem_nil, or_false] at he
  rcases he with rfl | rfl
  · exact plainCheck_ok (by decide +kernel)
  · exact plainCheck_ok (by decide +kernel)

/-- Its hypotheses are met by a program of two files. -/
example {e : AmandaError} (h : Rejected (twoEnv mainText sideText)
    (checkFile stdCfg (twoEnv mainText sideText).py (twoEnv mainText sideText).files 3) (chars! "/m.ama") e) :
    NamesLine (twoEnv mainText sideText) e ∨ ∃ l : Nat, e.line = l ∧
      Mislaid (icfg stdCfg samplePy (stdFiles (pairOf mainText sideText))) (chars! "/m.ama") e.fpath l e.message :=
  error_line_partial (legible_std two_plain) (sameFile_std _) (fun _ _ => textFiles_isFile) h

/-- A program with an error on its second line. -/
def wrongText : List Char := chars! "x : int = 1\nmostra x + y\n"

/-- It is rejected. -/
theorem wrong_rejected : Rejected (stdEnv wrongText) (checkFile stdCfg (stdEnv wrongText).py (stdEnv wrongText).files 2) (chars! "/m.ama")
    ⟨false, chars! "/m.ama", "o identificador 'y' não foi declarado", 2, -1⟩ := by
  have h : (match parse samplePy wrongText with | .ok _ => true | .error _ => false) = true := by decide +kernel
  have he : (match checkFile stdCfg samplePy (stdFiles [(chars! "/m.ama", wrongText)]) 2 (chars! "/m.ama") (treeOf wrongText) with
      | .ok _ => none
      | .error e => some e) = some (.amanda ⟨false, chars! "/m.ama", "o identificador 'y' não foi declarado", 2, -1⟩) := by
    decide +kernel
  refine ⟨rfl, wrongText, rfl, .inr ⟨treeOf wrongText, ?_, ?_⟩⟩
  · show parse samplePy wrongText = _
    unfold treeOf
    cases hp : parse samplePy wrongText with
    | ok t => rfl
    | error e => rw [hp] at h; cases h
  · show checkFile stdCfg samplePy (stdFiles [(chars! "/m.ama", wrongText)]) 2 (chars! "/m.ama") (treeOf wrongText) = _
    cases hc : checkFile stdCfg samplePy (stdFiles [(chars! "/m.ama", wrongText)]) 2 (chars! "/m.ama") (treeOf wrongText) with
    | ok P => rw [hc] at he; cases he
    | error e => rw [hc] at he; cases he; rfl

/-- The hypotheses of `rejected_reported_partial` are met by `wrongText`. -/
example : ∃ line, runMain CutFloat (stdEnv wrongText) (checkFile stdCfg samplePy (stdFiles [(chars! "/m.ama", wrongText)]) 2) 0 (chars! "/m.ama") =
    .exit 0 "" (fmtError (stdEnv wrongText) (strip samplePy line)
      ⟨false, chars! "/m.ama", "o identificador 'y' não foi declarado", 2, -1⟩) := by
  have hu1 : noUsa (parseFile (icfg stdCfg samplePy (stdFiles [(chars! "/m.ama", wrongText)])) (chars! "/m.ama")) = true := by
    decide +kernel
  have hu2 : noUsa (parseFile (icfg stdCfg samplePy (stdFiles [(chars! "/m.ama", wrongText)]))
      (builtinPath (stdFiles [(chars! "/m.ama", wrongText)]))) = true := by
    rw [std_read]; exact embutidos_noUsa
  refine rejected_reported_partial (F := CutFloat) (fuel := 0) (legible_std fun e he => ?_) (sameFile_std _) (fun _ _ => textFiles_isFile) ?_ wrong_rejected
  · obtain rfl := List.mem_singleton.1 he
    exact plainCheck_ok (by decide +kernel)
  · intro g tree tok module name hg hp hm
    replace hp : parseFile (icfg stdCfg samplePy (stdFiles [(chars! "/m.ama", wrongText)])) g = .ok tree := hp
    rcases partOf_noUsa hu1 hu2 hg with rfl | rfl
    · rw [hp] at hu1
      simpa using List.all_eq_true.1 hu1 _ hm
    · rw [show parseFile _ (builtinPath (stdFiles _)) = .ok tree from hp] at hu2
      simpa using List.all_eq_true.1 hu2 _ hm

/-- The hypotheses of `process_ends_partial` are met by `longText`. -/
example {name : String} (hp : parse samplePy longText = .ok (treeOf longText)) (h : endOf longText = .raised name) :
    name ∈ tooBigNames := by
  rcases process_ends_partial (stdEnv longText) (text := longText) (K := longNames) (n := 1) rfl rfl rfl hp (by decide) (by decide)
    long_vector_violated.1 (by decide +kernel) rfl (plainCheck_ok (by decide +kernel)) h with ⟨hb, -⟩ | h
  · rw [long_vector_violated.2.1] at hb; cases hb
  · exact h

end Amanda.Check

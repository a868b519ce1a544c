import Verif.Props.ErrorLines
import Verif.Props.Correctness
import Verif.Props.Imports

/-!
# C52: the exit status
-/

namespace Amanda.Pipeline

open Imports Codegen Source Compiled

/-! ## Statement -/

/-- The checker accepts the file and hands over the program `P`. -/
def Accepted (env : Env) (check : Path → Tree → Except Trouble Prog) (file : Path) (P : Prog) : Prop :=
  env.files.isFile file = true ∧ ∃ text tree, env.files.read file = .ok text ∧ parse env.py text = .ok tree ∧
    check file tree = .ok P

/-- The compiled program runs to its end. -/
def RunsToEnd (F : Type) [FloatOps F] (env : Env) (fuel : Nat) (P : Prog) : Prop :=
  ∃ image out, compileProgram P.env P.builtinPath P.main P.imports = .ok image ∧
    runImage F env.vm fuel env.input image = .exited 0 out ""

/-- The parser or the checker rejects the file with the error `e`. -/
def Rejected (env : Env) (check : Path → Tree → Except Trouble Prog) (file : Path) (e : AmandaError) : Prop :=
  env.files.isFile file = true ∧ ∃ text, env.files.read file = .ok text ∧
    ((∃ msg line col, parse env.py text = .error (.amanda msg line col) ∧ e = ⟨true, file, msg, line, col⟩) ∨
     ∃ tree, parse env.py text = .ok tree ∧ check file tree = .error (.amanda e))

/-- The error names a line of a file. -/
def NamesLine (env : Env) (e : AmandaError) : Prop :=
  env.files.isFile (env.files.absPath e.fpath) = true ∧
    ∃ text n, env.files.read (env.files.absPath e.fpath) = .ok text ∧ e.line = Int.ofNat n ∧ LineOf text n

/-- `os.path.abspath` names the same file. -/
def SameFile (files : Files) : Prop :=
  ∀ p, files.isFile (files.absPath p) = files.isFile p ∧ files.read (files.absPath p) = files.read p

/-! ## Lemmas -/

theorem lineAt_some {text : List Char} {line : Int} :
    (∃ c, lineAt text line = some c) ↔ ∃ n, line = Int.ofNat n ∧ LineOf text n := by
  unfold lineAt
  constructor
  · rintro ⟨c, h⟩
    split at h
    · simp at h
    next hl =>
      obtain ⟨h, -⟩ := List.getElem?_eq_some_iff.1 h
      refine ⟨line.toNat, ?_, (lineOf_iff _ _).2 ⟨by omega, by omega⟩⟩
      simp only [Int.ofNat_eq_natCast]
      omega
  · rintro ⟨n, rfl, h⟩
    rw [lineOf_iff] at h
    simp only [Int.ofNat_eq_natCast]
    rw [if_neg (by omega)]
    have : ((n : Int) - 1).toNat < (fileLines text).length := by omega
    exact ⟨_, List.getElem?_eq_getElem this⟩

theorem reportError_named {env : Env} {e : AmandaError} (h : NamesLine env e) :
    ∃ line, reportError env e = .exit 0 "" (fmtError env (strip env.py line) e) := by
  obtain ⟨h1, text, n, h2, h3⟩ := h
  obtain ⟨c, hc⟩ := lineAt_some.2 ⟨n, h3⟩
  exact ⟨c, by simp [reportError, h1, h2, hc]⟩

theorem reportError_unnamed {env : Env} {e : AmandaError} (h : ¬ NamesLine env e) :
    (reportError env e).status = some 1 := by
  unfold reportError
  simp only
  split
  next h1 =>
    split
    · rfl
    next text h2 =>
      split
      · rfl
      next c h3 =>
        obtain ⟨n, h4⟩ := lineAt_some.1 ⟨c, h3⟩
        exact absurd ⟨h1, text, n, h2, h4⟩ h
  · rfl

/-- The frontend has three outcomes. -/
theorem frontend_cases (env : Env) (check : Path → Tree → Except Trouble Prog) (file : Path)
    (hf : env.files.isFile file = true) :
    (∃ P, Accepted env check file P ∧ runFrontend env check file = .ok P) ∨
    (∃ e, Rejected env check file e ∧ runFrontend env check file = .error (reportError env e)) ∨
    ((∀ P, ¬ Accepted env check file P) ∧ (∀ e, ¬ Rejected env check file e) ∧
      ∃ name, runFrontend env check file = .error (.raised name)) := by
  unfold Accepted Rejected
  simp only [hf, true_and, runFrontend, parseMain]
  cases hr : env.files.read file with
  | error x => exact .inr (.inr ⟨by simp, by simp, _, rfl⟩)
  | ok text =>
      simp only [Except.ok.injEq]
      cases hp : parse env.py text with
      | error x =>
          cases x with
          | amanda msg line col =>
              exact .inr (.inl ⟨⟨true, file, msg, line, col⟩, ⟨text, rfl, .inl ⟨msg, line, col, hp, rfl⟩⟩, rfl⟩)
          | exc name => exact .inr (.inr ⟨by simp [hp], by simp [hp], _, rfl⟩)
          | fuel => exact .inr (.inr ⟨by simp [hp], by simp [hp], _, rfl⟩)
      | ok tree =>
          simp only [bind, Except.bind]
          cases hc : check file tree with
          | ok P => exact .inl ⟨P, ⟨text, tree, rfl, hp, hc⟩, rfl⟩
          | error x =>
              cases x with
              | amanda e => exact .inr (.inl ⟨e, ⟨text, rfl, .inr ⟨tree, hp, hc⟩⟩, rfl⟩)
              | other name => exact .inr (.inr ⟨by simp [hp, hc], by simp [hp, hc], _, rfl⟩)

theorem accepted_unique {env : Env} {check : Path → Tree → Except Trouble Prog} {file : Path} {P P' : Prog}
    (h : Accepted env check file P) (h' : Accepted env check file P') : P = P' := by
  obtain ⟨-, t, r, h1, h2, h3⟩ := h
  obtain ⟨-, t', r', h1', h2', h3'⟩ := h'
  rw [h1] at h1'
  cases h1'
  rw [h2] at h2'
  cases h2'
  rw [h3] at h3'
  cases h3'
  rfl

theorem rejected_unique {env : Env} {check : Path → Tree → Except Trouble Prog} {file : Path} {e e' : AmandaError}
    (h : Rejected env check file e) (h' : Rejected env check file e') : e = e' := by
  obtain ⟨-, t, h1, h2⟩ := h
  obtain ⟨-, t', h1', h2'⟩ := h'
  rw [h1] at h1'
  cases h1'
  rcases h2 with ⟨m, l, c, hp, rfl⟩ | ⟨r, hp, hc⟩ <;> rcases h2' with ⟨m', l', c', hp', rfl⟩ | ⟨r', hp', hc'⟩ <;>
    rw [hp] at hp' <;> cases hp'
  · rfl
  · rw [hc] at hc'
    cases hc'
    rfl

theorem not_both {env : Env} {check : Path → Tree → Except Trouble Prog} {file : Path} {P : Prog} {e : AmandaError}
    (h : Accepted env check file P) (h' : Rejected env check file e) : False := by
  obtain ⟨-, t, r, h1, h2, h3⟩ := h
  obtain ⟨-, t', h1', h2'⟩ := h'
  rw [h1] at h1'
  cases h1'
  rcases h2' with ⟨m', l', c', hp', rfl⟩ | ⟨r', hp', hc'⟩ <;> rw [h2] at hp' <;> cases hp'
  rw [h3] at hc'
  cases hc'

/-- Only a run to the end leaves status 0. -/
theorem image_status (F : Type) [FloatOps F] (cfg : Cfg) (fuel : Nat) (inp : List String) (image : Bytes)
    {n : Nat} {out err : String} (h : runImage F cfg fuel inp image = .exited n out err) :
    (n = 0 ∧ err = "") ∨ n = 1 := by
  unfold runImage at h
  split at h
  · simp at h
  · split at h
    · simp at h
    · split at h <;> simp at h
      · exact .inl ⟨h.1.symm, by simpa using h.2.2⟩
      · exact .inr h.1.symm

/-! ## C52 -/

/-- **C52.** Running a file leaves status 0 exactly when the program was accepted and ran to completion,
or was rejected with an error that names a line of a file.

Partial: the property allows only the first case; see `exit_status_violated` and `syntax_error_status`. -/
theorem exit_status_partial (F : Type) [FloatOps F] (env : Env) (check : Path → Tree → Except Trouble Prog) (fuel : Nat)
    (file : Path) :
    (runMain F env check fuel file).status = some 0 ↔
      (∃ P, Accepted env check file P ∧ RunsToEnd F env fuel P) ∨
      (∃ e, Rejected env check file e ∧ NamesLine env e) := by
  by_cases hf : env.files.isFile file = true
  · simp only [runMain, hf, ↓reduceIte, runFile]
    rcases frontend_cases env check file hf with ⟨P, hA, hrun⟩ | ⟨e, hR, hrun⟩ | ⟨h1, h2, name, hrun⟩
    · rw [hrun]
      have hno : ∀ e, ¬ Rejected env check file e := fun e h => not_both hA h
      constructor
      · intro h
        refine .inl ⟨P, hA, ?_⟩
        simp only at h
        split at h
        · simp [Ended.status] at h
        · simp [Ended.status] at h
        · simp [Ended.status] at h
        next image hc =>
          split at h
          next status out err hi =>
            simp only [Ended.status, Option.some.injEq] at h
            subst h
            rcases image_status F _ _ _ _ hi with ⟨-, rfl⟩ | h
            · exact ⟨image, out, hc, hi⟩
            · simp at h
          · simp [Ended.status] at h
          · simp [Ended.status] at h
      · rintro (⟨P', hA', image, out, hc, hi⟩ | ⟨e, h, -⟩)
        · cases accepted_unique hA hA'
          simp only [hc, hi, Ended.status]
        · exact absurd h (hno e)
    · rw [hrun]
      constructor
      · intro h
        refine .inr ⟨e, hR, ?_⟩
        apply Classical.byContradiction
        intro hn
        have := reportError_unnamed hn
        simp only at h
        rw [this] at h
        simp at h
      · rintro (⟨P, hA, -⟩ | ⟨e', hR', hn⟩)
        · exact (not_both hA hR).elim
        · cases rejected_unique hR hR'
          obtain ⟨line, hl⟩ := reportError_named hn
          simp only [hl, Ended.status]
    · rw [hrun]
      simp only [Ended.status, Option.some.injEq, Nat.one_ne_zero, false_iff]
      rintro (⟨P, hA, -⟩ | ⟨e, hR, -⟩)
      · exact h1 P hA
      · exact h2 e hR
  · have hno : (runMain F env check fuel file).status = some 1 := by simp [runMain, hf, Ended.status]
    rw [hno]
    simp only [Option.some.injEq, Nat.one_ne_zero, false_iff]
    rintro (⟨P, hA, -⟩ | ⟨e, hR, -⟩)
    · exact hf hA.1
    · exact hf hR.1

/-- **C52** for accepted programs that the compiler compiles: status 0 exactly when the program runs to
its end. -/
theorem accepted_status (F : Type) [FloatOps F] (env : Env) (check : Path → Tree → Except Trouble Prog) (fuel : Nat)
    (file : Path) {P : Prog} (hA : Accepted env check file P) :
    (runMain F env check fuel file).status = some 0 ↔ RunsToEnd F env fuel P := by
  rw [exit_status_partial]
  constructor
  · rintro (⟨P', h, hr⟩ | ⟨e, h, -⟩)
    · exact accepted_unique hA h ▸ hr
    · exact (not_both hA h).elim
  · exact fun h => .inl ⟨P, hA, h⟩

/-- **C52** in terms of the source program: an accepted program that runs to its end leaves status 0 and
nothing on the error stream, one that fails leaves status 1 and a report ending with its error. -/
theorem source_status (F : Type) [FloatOps F] [LawfulFloatOps F] (env : Env)
    (check : Path → Tree → Except Trouble Prog) (file : Path) {P : Prog} (hA : Accepted env check file P)
    (home : SymId → Option ScopeId) (hP : P.Ok home) (hS : SlotsFit P) {image : Bytes}
    (hc : compileProgram P.env P.builtinPath P.main P.imports = .ok image) (n : Nat) :
    (∀ st : St F, P.eval env.vm n env.input = .done () st →
      ∃ k, ∀ fuel, k ≤ fuel → runMain F env check fuel file = .exit 0 st.world.out "") ∧
    (∀ (msg : String) (w : World F), P.eval env.vm n env.input = .fail msg w →
      ∃ k trace, ∀ fuel, k ≤ fuel → runMain F env check fuel file = .exit 1 w.out (trace ++ msg ++ ".")) := by
  have hrun : ∀ fuel, runMain F env check fuel file =
      match runImage F env.vm fuel env.input image with
      | .exited status out err => .exit status out err
      | .panicked out => .aborted out
      | .outOfFuel out => .running out := by
    intro fuel
    simp only [runMain, hA.1, ↓reduceIte, runFile]
    rcases frontend_cases env check file hA.1 with ⟨P', hA', hr⟩ | ⟨e, hR, -⟩ | ⟨h1, -⟩
    · cases accepted_unique hA hA'
      simp only [hr, hc]
      cases runImage F env.vm fuel env.input image <;> rfl
    · exact (not_both hA hR).elim
    · exact absurd hA (h1 P)
  obtain ⟨h1, h2⟩ := compiled_program_correct F env.vm P home hP hS image hc env.input n
  constructor
  · intro st he
    obtain ⟨k, hk⟩ := h1 st he
    exact ⟨k, fun fuel hf => by rw [hrun, hk fuel hf]⟩
  · intro msg w he
    obtain ⟨k, tr, hk⟩ := h2 msg w he
    exact ⟨k, tr, fun fuel hf => by rw [hrun, hk fuel hf]⟩

/-- **C52 fails for every file with a syntax error**: it leaves status 0, whatever the checker does. -/
theorem syntax_error_status (F : Type) [FloatOps F] (env : Env) (hpy : env.py.Lawful) (hsame : SameFile env.files)
    (check : Path → Tree → Except Trouble Prog) (fuel : Nat) (file : Path) (hf : env.files.isFile file = true)
    {text : List Char} (hr : env.files.read file = .ok text) {msg : String} {line : Nat} {col : Int}
    (hp : parse env.py text = .error (.amanda msg line col)) :
    (runMain F env check fuel file).status = some 0 ∧ ∀ P, ¬ Accepted env check file P := by
  have hR : Rejected env check file ⟨true, file, msg, line, col⟩ := ⟨hf, text, hr, .inl ⟨msg, line, col, hp, rfl⟩⟩
  refine ⟨(exit_status_partial F env check fuel file).2 (.inr ⟨_, hR, ?_⟩), fun P hA => not_both hA hR⟩
  obtain ⟨h1, h2⟩ := hsame file
  exact ⟨by rw [h1]; exact hf, text, line, by rw [h2]; exact hr, rfl, syntax_error_line hpy text hp⟩

/-- And for every file the checker rejects with an error about one of its lines. -/
theorem check_error_status (F : Type) [FloatOps F] (env : Env) (hsame : SameFile env.files)
    (check : Path → Tree → Except Trouble Prog) (fuel : Nat) (file : Path) (hf : env.files.isFile file = true)
    {text : List Char} (hr : env.files.read file = .ok text) {tree : Tree} (hp : parse env.py text = .ok tree)
    {msg : String} {line : Nat} {col : Int} (hl : LineOf text line)
    (hc : check file tree = .error (.amanda ⟨false, file, msg, line, col⟩)) :
    (runMain F env check fuel file).status = some 0 ∧ ∀ P, ¬ Accepted env check file P := by
  have hR : Rejected env check file ⟨false, file, msg, line, col⟩ := ⟨hf, text, hr, .inr ⟨tree, hp, hc⟩⟩
  refine ⟨(exit_status_partial F env check fuel file).2 (.inr ⟨_, hR, ?_⟩), fun P hA => not_both hA hR⟩
  obtain ⟨h1, h2⟩ := hsame file
  exact ⟨by rw [h1]; exact hf, text, line, by rw [h2]; exact hr, rfl, hl⟩

/-! ## Concrete runs -/

/-- One file. -/
def oneFile (text : List Char) : Env where
  py := samplePy
  files := textFiles [(chars! "/m.ama", text)]
  relPath := id
  vm := plainCfg
  input := []

theorem oneFile_same (text : List Char) : SameFile (oneFile text).files := fun _ => ⟨rfl, rfl⟩

/-- **C52 fails**: a file with a syntax error, which leaves status 0. -/
theorem exit_status_violated (check : Path → Tree → Except Trouble Prog) :
    (runMain WholeFloat (oneFile (chars! "mostra )")) check 0 (chars! "/m.ama")).status = some 0 ∧
    ∀ P, ¬ Accepted (oneFile (chars! "mostra )")) check (chars! "/m.ama") P :=
  syntax_error_status WholeFloat (oneFile (chars! "mostra )")) samplePy_lawful (oneFile_same _) check 0 _ rfl rfl
    (errOf_some (e := .amanda "início inválido de expressão: ')'" 1 9) (by decide +kernel))

/-- A program with one global variable. -/
def tiny : Prog where
  env := { syms := [glob "/m.ama" "x" .var], scopes := [⟨[("x", 0)], none⟩] }
  builtinPath := "/embutidos.ama"
  library := fun _ => ""
  imports := [{ path := "/embutidos.ama", builtin := true, scope := 0, body := [] }]
  main := { path := "/m.ama", builtin := false, scope := 0, body := [.varDecl 1 "x" .int (some (.mk 0 (lit "2")))] }

/-- An accepted program that runs to its end, and one that fails while running (hypotheses of
`accepted_status` and `source_status`). -/
example : Accepted (oneFile (chars! "x : int = 2")) (fun _ _ => .ok tiny) (chars! "/m.ama") tiny ∧
    runMain WholeFloat (oneFile (chars! "x : int = 2")) (fun _ _ => .ok tiny) 50 (chars! "/m.ama") = .exit 0 "" "" := by
  have : (parse samplePy (chars! "x : int = 2")).toOption.isSome = true := by decide +kernel
  cases h : parse samplePy (chars! "x : int = 2") with
  | ok t => exact ⟨⟨rfl, _, t, rfl, h, rfl⟩, by decide +kernel⟩
  | error e => rw [h] at this; simp [Except.toOption] at this

example : Accepted (oneFile []) (fun _ _ => .ok demo) (chars! "/m.ama") demo ∧ demo.Ok demoHome ∧ SlotsFit demo ∧
    runMain WholeFloat (oneFile []) (fun _ _ => .ok demo) 2000 (chars! "/m.ama") =
      .exit 1 "7\n120\n9\n0\n" "Erro na linha 1: não pode dividir um número por zero." := by
  obtain ⟨t, ht⟩ := parse_empty samplePy
  exact ⟨⟨rfl, [], t, rfl, ht, rfl⟩, demo_ok, demo_slots, by decide +kernel⟩

end Amanda.Pipeline

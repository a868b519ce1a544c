import Verif.ImportsOrder
import Verif.PyModel
import Mathlib.Data.List.Nodup
import Verif.Props.Limits

/-!
# C50, C51: imports

Loading the imports of a program ends, finds cycles, and analyses every file once, the builtin one
excepted.  The modules run in the order in which they were met, so a module runs before those that only
it imports.
-/

namespace Amanda.Imports

variable {σ : Type}

/-! ## C50 -/

/-- **C50 (termination).** When the files that can be imported are finitely many, loading ends: the bound
of the model is not reached, and from some bound on the result is the same. -/
theorem imports_terminate {cfg : ICfg σ} (hb : PlainBuiltin cfg) {all : List Path} (hf : ∀ p q, Imp cfg p q → q ∈ all)
    (main : Path) (init : σ) :
    ∃ r, r ≠ .error .fuel ∧ ∀ n, all.length < n → analyseProgram cfg n main init = r := by
  refine ⟨_, program_ends hb hf (Nat.lt_succ_self _) main init, fun n hn => ?_⟩
  obtain ⟨k, rfl⟩ := Nat.exists_eq_add_of_le hn
  exact program_stable hb hf main init k

/-- What an accepted program has loaded. -/
theorem accepted_imports {cfg : ICfg σ} (hb : PlainBuiltin cfg) {n : Nat} {main : Path} {init : σ} {s : LState σ}
    (h : analyseProgram cfg n main init = .ok s) (q : Path) (hq : Relation.TransGen (Imp cfg) main q) :
    status s.imports q = some true := by
  obtain ⟨hi, -, -, hm⟩ := (program_tr hb n main init).1 s h
  induction hq with
  | single h => exact hm _ h
  | tail _ h ih => exact hi.closed _ ih _ h

/-- **C50 (cycles are rejected).** A program among whose files there is a cycle is never accepted. -/
theorem cyclic_rejected {cfg : ICfg σ} (hb : PlainBuiltin cfg) {n : Nat} {main : Path} {init : σ} {s : LState σ}
    (h : analyseProgram cfg n main init = .ok s) : ¬ Cyclic cfg main := by
  rintro ⟨p, hr, hc⟩
  have hp : Relation.TransGen (Imp cfg) main p := by
    rcases Relation.reflTransGen_iff_eq_or_transGen.1 hr with rfl | h
    · exact hc
    · exact h
  exact ((program_tr hb n main init).1 s h).1.acyclic p (accepted_imports hb h p hp) hc

/-- **C50 (the error is right).** When loading fails with the error for cyclic imports, the file it names is
reachable from the program and imports itself, directly or through other files; and the file the error is
reported in is reachable and imports that file. -/
theorem cyclic_error_sound {cfg : ICfg σ} (hb : PlainBuiltin cfg) {n : Nat} {main f p : Path} {line : Nat} {init : σ}
    (h : analyseProgram cfg n main init = .error (.cyclic f p line)) :
    Reachable cfg main p ∧ OnCycle cfg p ∧ Reachable cfg main f ∧ Imp cfg f p :=
  (program_tr hb n main init).2 _ h

/-- **C50 (exactly the cycles).** When nothing else is wrong, loading fails with the error for cyclic imports
exactly when the files reachable from the program import each other in a cycle, and accepts the program
otherwise. -/
theorem cyclic_error_iff {cfg : ICfg σ} (hb : PlainBuiltin cfg) {all : List Path} (hf : ∀ p q, Imp cfg p q → q ∈ all)
    {n : Nat} (hn : all.length < n) {main : Path} (fine : Fine cfg main) (init : σ) :
    ((∃ f p line, analyseProgram cfg n main init = .error (.cyclic f p line)) ↔ Cyclic cfg main) ∧
    ((∃ s, analyseProgram cfg n main init = .ok s) ↔ ¬ Cyclic cfg main) := by
  have h1 := program_ends hb hf hn main init
  cases hr : analyseProgram cfg n main init with
  | ok s =>
    have := cyclic_rejected hb hr
    exact ⟨⟨(fun ⟨_, _, _, h⟩ => nomatch h), fun h => absurd h this⟩, ⟨fun _ => this, fun _ => ⟨s, rfl⟩⟩⟩
  | error e =>
    cases e with
    | fuel => exact absurd hr h1
    | py f x => exact absurd ((program_tr hb n main init).2 _ hr : Blame cfg main x) fine.blameless
    | cyclic f p line =>
      have : Cyclic cfg main := ⟨p, (cyclic_error_sound hb hr).1, (cyclic_error_sound hb hr).2.1⟩
      exact ⟨⟨fun _ => this, fun _ => ⟨f, p, line, rfl⟩⟩, ⟨(fun ⟨_, h⟩ => nomatch h), fun h => absurd this h⟩⟩

/-- **C50 (once), partial.** In an accepted program every file but the builtin one is analysed once if it is
reachable from the program, and not at all otherwise. The property claims this of the builtin file
too (`builtin_again_violated`) and of rejected programs (`main_again_violated`). -/
theorem file_analysed_once_partial {cfg : ICfg σ} (hb : PlainBuiltin cfg) {n : Nat} {main p : Path} {init : σ} {s : LState σ}
    (h : analyseProgram cfg n main init = .ok s) (hp : p ≠ builtinPath cfg.files) :
    (Reachable cfg main p → s.log.count p = 1) ∧ (¬ Reachable cfg main p → s.log.count p = 0) := by
  obtain ⟨hi, -, -, -⟩ := (program_tr hb n main init).1 s h
  have hm : main ∉ s.imports.map (·.1) ∨ main = builtinPath cfg.files := by
    by_cases e : main = builtinPath cfg.files
    · exact .inr e
    · exact .inl fun hk => cyclic_rejected hb h ⟨main, .refl, hi.reach main hk e⟩
  rw [hi.log p hp]
  constructor
  · intro hr
    rcases Relation.reflTransGen_iff_eq_or_transGen.1 hr with rfl | ht
    · rw [if_pos rfl, List.count_eq_zero_of_not_mem]
      exact hm.resolve_right hp
    · have hk : p ∈ s.imports.map (·.1) := Decidable.byContradiction fun hk => by
        have := accepted_imports hb h p ht
        rw [status_none.2 hk] at this; cases this
      rw [if_neg, List.count_eq_one_of_mem hi.nodup hk]
      rintro rfl
      exact cyclic_rejected hb h ⟨p, .refl, ht⟩
  · intro hr
    rw [if_neg (by rintro rfl; exact hr .refl), List.count_eq_zero_of_not_mem]
    intro hk
    exact hr (hi.reach p hk hp).to_reflTransGen

/-! ## C51

The modules of a program are compiled in the order of `imports` (codegen.py:254-264), the virtual
machine runs them in that order and the program last (vm.rs; `runImage`). -/

/-- The order in which the modules of an accepted program run. -/
def runOrder (main : Path) (s : LState σ) : List Path := s.imports.map (·.1) ++ [main]

/-- **C51, partial (the program itself).** Every module the program imports, directly or through others, runs
before it. -/
theorem imports_before_main_partial {cfg : ICfg σ} (hb : PlainBuiltin cfg) {n : Nat} {main q : Path} {init : σ} {s : LState σ}
    (h : analyseProgram cfg n main init = .ok s) (hq : Relation.TransGen (Imp cfg) main q) :
    Before (runOrder main s) q main := by
  have hk : q ∈ s.imports.map (·.1) := Decidable.byContradiction fun hk => by
    have := accepted_imports hb h q hq
    rw [status_none.2 hk] at this; cases this
  obtain ⟨l1, l2, e⟩ := List.append_of_mem hk
  exact ⟨l1, l2, [], by simp [runOrder, e]⟩

/-- **C51, partial (programs that import in order).** When the program imports, before a module, everything that
module imports, every module runs after those it imports. The property claims this of every accepted
program (`sole_importer_runs_first`). -/
theorem imports_ready_partial {cfg : ICfg σ} (hb : PlainBuiltin cfg) {n : Nat} {main : Path} {init : σ} {s : LState σ} {t : Tree}
    (hp : parseFile cfg main = .ok t)
    (hn : ∀ l1 p l2, targets cfg t.stmts = l1 ++ p :: l2 → ∀ q, Imp cfg p q → q ∈ builtinPath cfg.files :: l1)
    (h : analyseProgram cfg n main init = .ok s) {p q : Path} (hr : p ∈ runOrder main s) (hq : Imp cfg p q) :
    Before (runOrder main s) q p := by
  obtain ⟨h1, h2⟩ := (calm_program hb hp hn).1 s h
  obtain ⟨l1, l2, e⟩ := List.append_of_mem hr
  have := (h1.snoc h2) l1 p l2 e q hq
  obtain ⟨l3, l4, rfl⟩ := List.append_of_mem this
  exact ⟨l3, l4, l2, e⟩

/-- **C51 is violated,** in every accepted program where a module `p` imports a module `q` that no other file
imports: `p` runs before `q`. -/
theorem sole_importer_runs_first {cfg : ICfg σ} (hb : PlainBuiltin cfg) {n : Nat} {main p q : Path} {init : σ} {s : LState σ}
    (h : analyseProgram cfg n main init = .ok s) (hr : Relation.TransGen (Imp cfg) main p) (hq : Imp cfg p q)
    (sole : ∀ r, Imp cfg r q → r = p) (hne : q ≠ builtinPath cfg.files) : Before (runOrder main s) p q := by
  obtain ⟨hi, -, -, -⟩ := (program_tr hb n main init).1 s h
  have hk : q ∈ s.imports.map (·.1) := Decidable.byContradiction fun hk => by
    have := accepted_imports hb h q (hr.tail hq)
    rw [status_none.2 hk] at this; cases this
  obtain ⟨l1, l2, e⟩ := List.append_of_mem hk
  obtain ⟨r, h1, h2⟩ := hi.parent l1 q l2 e hne
  obtain rfl := sole r h1
  rcases h2 with rfl | h2
  · exact absurd ⟨r, .refl, hr⟩ (cyclic_rejected hb h)
  · obtain ⟨l3, l4, rfl⟩ := List.append_of_mem h2
    exact ⟨l3, l4, l2 ++ [main], by simp [runOrder, e]⟩

/-! ## Concrete sets of files -/

open Lean in
/-- The characters of a text. (The kernel is slow to compute them of a `String`.) -/
macro:max "chars! " s:str : term => do
  let cs := s.getString.toList.toArray.map fun c => Syntax.mkCharLit c
  `(([$cs,*] : List Char))

/-- A directory given by its files; the library is in `/std`. -/
def textFiles (l : List (Path × List Char)) : Files where
  isFile p := l.any fun e => e.1 == p
  absPath p := p
  read p := match l.find? fun e => e.1 == p with
    | some e => .ok e.2
    | none => .error (.exc "FileNotFoundError")
  stdLib := chars! "/std"

/-- A checker without complaints. -/
def quiet : Hooks Unit :=
  ⟨fun _ _ => .ok (), fun _ => .ok (), fun _ => (), fun _ _ _ => .ok (), fun _ s => s, fun _ _ _ => .ok (), fun _ _ _ => .ok (),
    fun _ _ _ _ => .ok (), fun _ _ _ _ => .ok ()⟩

theorem read_builtin (b : List Char) (l : List (Path × List Char)) :
    (textFiles ((chars! "/std/embutidos.ama", b) :: l)).read (builtinPath (textFiles ((chars! "/std/embutidos.ama", b) :: l))) = .ok b := by
  have : ∀ fs : Files, fs.stdLib = chars! "/std" → builtinPath fs = chars! "/std/embutidos.ama" := by
    intro fs h
    unfold builtinPath
    rw [h]
    decide
  rw [this _ rfl]
  simp [textFiles]

/-- The text of std/embutidos.ama. -/
@[irreducible] def embutidosText : List Char := chars! "# Este módulo contém as declarações de funções que já vêm com a linguagem\n# E estão disponíveis em todos os programas\n@@embutido(nome = \"embutidos\")\n\n\n# Funções de entrada functions\n@embutido\nfunc leia(mensagem: texto): texto fim\n@embutido\nfunc leia_int(mensagem: texto): int fim\n@embutido\nfunc leia_real(mensagem: texto): real fim\n\n\n# Funções de saída\n@embutido\nfunc escreva(item: indef) fim\n@embutido\nfunc escrevaln(item: indef) fim\n\n# Para colecções\n@embutido\nfunc vec(tipo: indef, tam: int): indef fim\n@embutido\nfunc tam(seq: indef): int fim\n@embutido\nfunc anexa(vec: indef, valor: indef) fim\n@embutido\nfunc remova(vec: indef, indice: int): indef fim\n\n\n# 'Metaprogramação'\n#func nativa tipo(objecto: indef):texto\n\n# Funções para trabalhar com texto\n@embutido\nfunc txt_contem(palheiro: texto, agulha: texto): bool fim\n\n@embutido(item = \"Opcao\")\nregisto Opcao[T]\n   valor: T\nfim\n\n@embutido\nmet[T] Opcao[T]::valor_ou(alvo, padrao: T): T fim\n\n"

/-- A short file of builtin functions, for the examples. -/
def tamText : List Char := chars! "func tam(v: indef): int fim\n"

/-- Some files beside the library. -/
def world (l : List (Path × List Char)) : ICfg Unit :=
  ⟨samplePy, textFiles ((chars! "/std/embutidos.ama", tamText) :: l), quiet⟩

/-- What a file imports. -/
def importsOf (cfg : ICfg σ) (p : Path) : List Path :=
  match parseFile cfg p with
  | .ok t => targets cfg t.stmts
  | .error _ => []

theorem imp_iff {cfg : ICfg σ} {p q : Path} : Imp cfg p q ↔ q ∈ importsOf cfg p := by
  unfold importsOf Imp
  cases parseFile cfg p with
  | error e => simp
  | ok t =>
    constructor
    · rintro ⟨t', ht, a, b, c, h1, h2⟩
      cases ht
      exact targets_mem h1 h2
    · intro h
      obtain ⟨a, b, c, h1, h2⟩ := targets_usa h
      exact ⟨t, rfl, a, b, c, h1, h2⟩

/-- Whether a text has no `usa`. -/
def noUsa (r : Except PyErr Tree) : Bool :=
  match r with
  | .ok t => t.stmts.all fun s => match s with | .usa .. => false | _ => true
  | .error _ => false

theorem noUsa_imp {cfg : ICfg σ} {p q : Path} (k : noUsa (parseFile cfg p) = true) : ¬ Imp cfg p q := by
  rintro ⟨t, ht, a, b, c, h1, -⟩
  rw [ht] at k
  exact absurd (List.all_eq_true.1 k _ h1) (by simp)

theorem embutidos_noUsa : noUsa (parse samplePy embutidosText) = true := by decide +kernel

/-- In a directory with std/embutidos.ama as it is the builtin file imports nothing. -/
theorem embutidos_plain (hooks : Hooks σ) (l : List (Path × List Char)) :
    PlainBuiltin (⟨samplePy, textFiles ((chars! "/std/embutidos.ama", embutidosText) :: l), hooks⟩ : ICfg σ) := by
  intro q
  refine noUsa_imp ?_
  unfold parseFile
  rw [read_builtin]
  exact embutidos_noUsa

theorem world_plain (l : List (Path × List Char)) : PlainBuiltin (world l) := by
  intro q
  refine noUsa_imp ?_
  unfold parseFile
  rw [show (world l).files.read (builtinPath (world l).files) = .ok tamText from read_builtin _ l]
  exact (by decide +kernel : noUsa (parse samplePy tamText) = true)

/-- What can be imported is a file. -/
theorem world_finite (l : List (Path × List Char)) : ∀ p q, Imp (world l) p q →
    q ∈ chars! "/std/embutidos.ama" :: l.map fun e => e.1 := by
  rintro p q ⟨t, -, tok, module, mode, -, ht⟩
  unfold target at ht
  cases hu : usaPath (written module.chars) with
  | none => rw [hu] at ht; cases ht
  | some u =>
    rw [hu] at ht
    have ht : resolveImport (world l).files u = some q := ht
    have file : ∀ x, (world l).files.isFile x = true → x ∈ chars! "/std/embutidos.ama" :: l.map fun e => e.1 := by
      intro x hx
      have hx : ((chars! "/std/embutidos.ama", tamText) :: l).any (fun e => e.1 == x) = true := hx
      simp only [List.any_cons, Bool.or_eq_true, List.any_eq_true, beq_iff_eq] at hx
      rcases hx with hx | ⟨e, he, rfl⟩
      · exact hx ▸ List.mem_cons_self ..
      · exact List.mem_cons_of_mem _ (List.mem_map.2 ⟨e, he, rfl⟩)
    unfold resolveImport at ht
    split at ht
    · rename_i hx; cases ht; exact file _ hx
    · split at ht
      · rename_i hx; cases ht; exact file _ hx
      · cases ht

theorem importsOf_missing {l : List (Path × List Char)} {p : Path}
    (h : p ∉ chars! "/std/embutidos.ama" :: l.map fun e => e.1) : importsOf (world l) p = [] := by
  have : (world l).files.read p = .error (.exc "FileNotFoundError") := by
    have hn : ((chars! "/std/embutidos.ama", tamText) :: l).find? (fun e => e.1 == p) = none := by
      refine List.find?_eq_none.2 fun e he => ?_
      simp only [beq_iff_eq]
      rintro rfl
      rcases List.mem_cons.1 he with rfl | he
      · exact h (List.mem_cons_self ..)
      · exact h (List.mem_cons_of_mem _ (List.mem_map.2 ⟨e, he, rfl⟩))
    show (match ((chars! "/std/embutidos.ama", tamText) :: l).find? (fun e => e.1 == p) with
      | some e => Except.ok e.2
      | none => .error (PyErr.exc "FileNotFoundError")) = _
    rw [hn]
  simp only [importsOf, parseFile, this]

/-- What is seen of the result. -/
def outcome (r : Except LErr (LState Unit)) : Except LErr (List Path × List Path) :=
  r.map fun s => (s.imports.map (·.1), s.log)

theorem outcome_ok {r : Except LErr (LState Unit)} {x : List Path × List Path} (h : outcome r = .ok x) :
    ∃ s, r = .ok s ∧ s.imports.map (·.1) = x.1 ∧ s.log = x.2 := by
  cases r with
  | error e => cases h
  | ok s => cases h; exact ⟨s, rfl, rfl, rfl⟩

/-- A program that imports `/a`, which imports `/b` and names it; and `/c`, which imports `/b` too. -/
def chainFiles : List (Path × List Char) := [(chars! "/m.ama", chars! "usa \"/a\"\nusa \"/c\" => c\nmostra 1\n"),
  (chars! "/a.ama", chars! "usa \"/b\" => b\nmostra 2\n"), (chars! "/b.ama", chars! "mostra 3\n"), (chars! "/c.ama", chars! "usa \"/b\"\nmostra 4\n")]

/-- The files of `chainFiles` beside the library. -/
def chain : ICfg Unit := world chainFiles

theorem chain_outcome : outcome (analyseProgram chain 9 chars! "/m.ama" ()) =
    .ok ([chars! "/std/embutidos.ama", chars! "/a.ama", chars! "/b.ama", chars! "/c.ama"],
      [chars! "/std/embutidos.ama", chars! "/m.ama", chars! "/a.ama", chars! "/std/embutidos.ama", chars! "/b.ama", chars! "/std/embutidos.ama", chars! "/c.ama"]) := by
  decide +kernel

/-- **C50 is violated.** The builtin file is analysed again, by another analyzer, for every module imported
with a name or for some of its items (check/core.py:328-331, 44-71). -/
theorem builtin_again_violated : ∃ s, analyseProgram chain 9 chars! "/m.ama" () = .ok s ∧
    s.log.count (builtinPath chain.files) = 3 := by
  obtain ⟨s, h1, -, h3⟩ := outcome_ok chain_outcome
  exact ⟨s, h1, by rw [h3]; decide +kernel⟩

/-- Whether a file is as `Fine` asks. -/
def fileFine (cfg : ICfg σ) (p : Path) : Bool :=
  match parseFile cfg p with
  | .ok t => noBraces p && t.stmts.all fun s => match s with | .usa _ module _ => (target cfg.files module).isSome | _ => true
  | .error _ => false

theorem world_fine {l : List (Path × List Char)} {main : Path}
    (hm : main ∈ chars! "/std/embutidos.ama" :: l.map fun e => e.1)
    (h : (chars! "/std/embutidos.ama" :: l.map fun e => e.1).all (fileFine (world l)) = true) : Fine (world l) main := by
  have hr : ∀ p, Reachable (world l) main p → p ∈ chars! "/std/embutidos.ama" :: l.map fun e => e.1 := by
    intro p hp
    rcases Relation.ReflTransGen.cases_tail hp with rfl | ⟨q, -, hq⟩
    · exact hm
    · exact world_finite l q p hq
  have hb : builtinPath (world l).files = chars! "/std/embutidos.ama" := by
    unfold builtinPath
    rw [show (world l).files.stdLib = chars! "/std" from rfl]
    decide
  have hd : ∀ p, Read (world l) main p → fileFine (world l) p = true := by
    intro p hp
    refine List.all_eq_true.1 h p ?_
    rcases hp with hp | rfl
    · exact hr p hp
    · rw [hb]; exact List.mem_cons_self ..
  refine ⟨fun p hp => ?_, fun p t hp ht tok module mode hu => ?_, fun p hp => ?_, fun _ _ => ⟨(), rfl⟩, fun _ => ⟨(), rfl⟩,
    fun _ _ _ => ⟨(), rfl⟩, fun _ _ _ => ⟨(), rfl⟩, fun _ _ _ => ⟨(), rfl⟩, fun _ _ _ _ => ⟨(), rfl⟩, fun _ _ _ _ => ⟨(), rfl⟩⟩
  · have := hd p hp
    unfold fileFine at this
    cases hp : parseFile (world l) p with
    | ok t => exact ⟨t, rfl⟩
    | error e => rw [hp] at this; cases this
  · have := hd p hp
    unfold fileFine at this
    rw [ht] at this
    exact Option.isSome_iff_exists.1 (List.all_eq_true.1 (Bool.and_eq_true_iff.1 this).2 _ hu)
  · have := hd p (.inl hp)
    unfold fileFine at this
    cases hp : parseFile (world l) p with
    | ok t => rw [hp] at this; exact (Bool.and_eq_true_iff.1 this).1
    | error e => rw [hp] at this; cases this

/-- `imports_terminate` and `file_analysed_once_partial` have instances: `/b` is imported twice. -/
example : (∃ r, r ≠ .error .fuel ∧ ∀ n, chainFiles.length + 1 < n → analyseProgram chain n chars! "/m.ama" () = r) ∧
    ∃ s, analyseProgram chain 9 chars! "/m.ama" () = .ok s ∧ s.log.count chars! "/b.ama" = 1 := by
  have h := imports_terminate (world_plain chainFiles) (world_finite chainFiles) chars! "/m.ama" ()
  simp only [List.length_cons, List.length_map] at h
  refine ⟨h, ?_⟩
  obtain ⟨s, h1, -, -⟩ := outcome_ok chain_outcome
  refine ⟨s, h1, (file_analysed_once_partial (world_plain _) h1 (by decide +kernel)).1 ?_⟩
  exact .tail (.single (imp_iff.2 (by decide +kernel : chars! "/a.ama" ∈ importsOf chain chars! "/m.ama")))
    (imp_iff.2 (by decide +kernel : chars! "/b.ama" ∈ importsOf chain chars! "/a.ama"))

/-- Files that import each other. -/
def ring : List (Path × List Char) :=
  [(chars! "/m.ama", chars! "usa \"/a\"\nmostra 1\n"), (chars! "/a.ama", chars! "usa \"/b\" => [x, y]\n"), (chars! "/b.ama", chars! "usa \"/a\"\n")]

/-- `cyclic_error_iff` has instances with a cycle and without. -/
example : Fine (world ring) chars! "/m.ama" ∧ Cyclic (world ring) chars! "/m.ama" ∧
    outcome (analyseProgram (world ring) 5 chars! "/m.ama" ()) = .error (.cyclic chars! "/b.ama" chars! "/a.ama" 1) := by
  refine ⟨world_fine (by decide +kernel) (by decide +kernel), ?_, by decide +kernel⟩
  have h1 : Imp (world ring) chars! "/m.ama" chars! "/a.ama" := imp_iff.2 (by decide +kernel)
  have h2 : Imp (world ring) chars! "/a.ama" chars! "/b.ama" := imp_iff.2 (by decide +kernel)
  have h3 : Imp (world ring) chars! "/b.ama" chars! "/a.ama" := imp_iff.2 (by decide +kernel)
  exact ⟨_, .single h1, .tail (.single h2) h3⟩

example : Fine chain chars! "/m.ama" ∧ ¬ Cyclic chain chars! "/m.ama" := by
  have hf : Fine chain chars! "/m.ama" := world_fine (by decide +kernel) (by decide +kernel)
  obtain ⟨s, h1, -, -⟩ := outcome_ok chain_outcome
  exact ⟨hf, (cyclic_error_iff (world_plain _) (world_finite _) (by decide) hf ()).2.1 ⟨s, h1⟩⟩

/-- A checker that counts how often `/m.ama` is analysed, and stops the second time. -/
def counting : Hooks Nat :=
  ⟨fun _ n => .ok n, fun n => .ok n, fun n => n,
    fun p _ n => if p = chars! "/m.ama" then (if n = 0 then .ok 1 else .error (.exc "twice")) else .ok n,
    fun _ n => n, fun _ _ n => .ok n, fun _ _ n => .ok n, fun _ _ _ n => .ok n, fun _ _ _ n => .ok n⟩

/-- **C50 is violated.** The file of the program is not among `imports` (__main__.py:22-28), so when it is
imported it is analysed a second time, before the cycle is found. -/
theorem main_again_violated : analyseProgram ⟨samplePy, textFiles [(chars! "/std/embutidos.ama", chars! "mostra 1\n"),
    (chars! "/m.ama", chars! "usa \"/a\"\n"), (chars! "/a.ama", chars! "usa \"/m\"\n")], counting⟩ 5 chars! "/m.ama" 0 = .error (.py chars! "/m.ama" (.exc "twice")) := by
  have : (match analyseProgram ⟨samplePy, textFiles [(chars! "/std/embutidos.ama", chars! "mostra 1\n"),
    (chars! "/m.ama", chars! "usa \"/a\"\n"), (chars! "/a.ama", chars! "usa \"/m\"\n")], counting⟩ 5 chars! "/m.ama" 0 with
    | .ok _ => none | .error e => some e) = some (LErr.py chars! "/m.ama" (.exc "twice")) := by decide +kernel
  revert this
  cases analyseProgram _ 5 chars! "/m.ama" 0 with
  | ok _ => exact fun h => nomatch h
  | error e => intro h; cases h; rfl

/-- **C50 is violated.** With braces in the path of a file the report of the cycle ends in another exception,
because the message is formatted again (check/core.py:145-149, 397-400). -/
theorem braces_violated :
    outcome (analyseProgram (world [(chars! "/m{x}.ama", chars! "usa \"/m{x}\"\n")]) 5 chars! "/m{x}.ama" ()) = .error (.py chars! "/m{x}.ama" (.exc "KeyError")) ∧
    Cyclic (world [(chars! "/m{x}.ama", chars! "usa \"/m{x}\"\n")]) chars! "/m{x}.ama" :=
  ⟨by decide +kernel, _, .refl, .single (imp_iff.2 (by decide +kernel))⟩

/-- A program that imports `/b` before `/a`, which imports `/b`. -/
def inOrder : ICfg Unit := world [(chars! "/m.ama", chars! "usa \"/b\"\nusa \"/a\"\nmostra 1\n"), (chars! "/a.ama", chars! "usa \"/b\" => b\nmostra 2\n"),
  (chars! "/b.ama", chars! "mostra 3\n")]

theorem inOrder_outcome : outcome (analyseProgram inOrder 9 chars! "/m.ama" ()) =
    .ok ([chars! "/std/embutidos.ama", chars! "/b.ama", chars! "/a.ama"],
      [chars! "/std/embutidos.ama", chars! "/m.ama", chars! "/b.ama", chars! "/a.ama"]) := by
  decide +kernel

/-- `imports_ready_partial` has instances. -/
example : ∃ s, analyseProgram inOrder 9 chars! "/m.ama" () = .ok s ∧ Before (runOrder chars! "/m.ama" s) chars! "/b.ama" chars! "/a.ama" := by
  obtain ⟨s, h1, h2, -⟩ := outcome_ok inOrder_outcome
  have hf : Fine inOrder chars! "/m.ama" := world_fine (by decide +kernel) (by decide +kernel)
  obtain ⟨t, hp⟩ := hf.parsed _ (.inl .refl)
  · have ht : targets inOrder t.stmts = [chars! "/b.ama", chars! "/a.ama"] := by
      have : importsOf inOrder chars! "/m.ama" = [chars! "/b.ama", chars! "/a.ama"] := by decide +kernel
      rw [importsOf, hp] at this
      exact this
    have ha : importsOf inOrder chars! "/a.ama" = [chars! "/b.ama"] := by decide +kernel
    have hb : importsOf inOrder chars! "/b.ama" = [] := by decide +kernel
    refine ⟨s, h1, imports_ready_partial (cfg := inOrder) (world_plain _) hp ?_ h1 ?_ (imp_iff.2 (by rw [ha]; simp))⟩
    · intro l1 p l2 he q hq
      rw [ht] at he
      rw [imp_iff] at hq
      rcases l1 with _ | ⟨x, _ | ⟨y, l⟩⟩
      · simp only [List.nil_append, List.cons.injEq] at he
        rw [← he.1, hb] at hq; cases hq
      · simp only [List.cons_append, List.nil_append, List.cons.injEq] at he
        rw [← he.2.1, ha] at hq
        rw [← he.1]
        exact List.mem_cons_of_mem _ hq
      · simp at he
    · simp [runOrder, h2]

/-- A program that imports `/a`, which alone imports `/b`. -/
def nestedFiles : List (Path × List Char) := [(chars! "/m.ama", chars! "usa \"/a\"\nmostra y\n"), (chars! "/a.ama", chars! "usa \"/b\"\ny: int = x\n"),
  (chars! "/b.ama", chars! "x: int = 2\n")]

/-- The files of `nestedFiles` beside the library. -/
def nested : ICfg Unit := world nestedFiles

theorem nested_outcome : outcome (analyseProgram nested 9 chars! "/m.ama" ()) =
    .ok ([chars! "/std/embutidos.ama", chars! "/a.ama", chars! "/b.ama"], [chars! "/std/embutidos.ama", chars! "/m.ama", chars! "/a.ama", chars! "/b.ama"]) := by
  decide +kernel

/-- `sole_importer_runs_first` and `imports_before_main_partial` have instances. -/
example : ∃ s, analyseProgram nested 9 chars! "/m.ama" () = .ok s ∧ Before (runOrder chars! "/m.ama" s) chars! "/a.ama" chars! "/b.ama" ∧
    Before (runOrder chars! "/m.ama" s) chars! "/b.ama" chars! "/m.ama" := by
  obtain ⟨s, h1, -, -⟩ := outcome_ok nested_outcome
  have h2 : Imp nested chars! "/m.ama" chars! "/a.ama" := imp_iff.2 (by decide +kernel)
  have h3 : Imp nested chars! "/a.ama" chars! "/b.ama" := imp_iff.2 (by decide +kernel)
  refine ⟨s, h1, sole_importer_runs_first (cfg := nested) (world_plain _) h1 (.single h2) h3 (fun r hr => ?_) (by decide +kernel),
    imports_before_main_partial (world_plain _) h1 (.tail (.single h2) h3)⟩
  rw [imp_iff] at hr
  by_cases h : r ∈ chars! "/std/embutidos.ama" :: nestedFiles.map fun e => e.1
  · have key : ∀ r ∈ chars! "/std/embutidos.ama" :: nestedFiles.map fun e => e.1,
      chars! "/b.ama" ∈ importsOf nested r → r = chars! "/a.ama" := by decide +kernel
    exact key r h hr
  · rw [show importsOf nested r = [] from importsOf_missing h] at hr
    cases hr

end Amanda.Imports

namespace Amanda

open Source Codegen Compiled

/-- The program of `Imports.nested` after the checker: `/b` declares `x`, `/a` declares `y` with the value of
`x`, the program shows `y`. -/
def nestedProg (imports : List ModuleIn) : Prog where
  env := { syms := [glob "/b.ama" "x" .var, glob "/a.ama" "y" .var]
           scopes := [⟨[("x", 0), ("y", 1)], none⟩] }
  builtinPath := "/embutidos.ama"
  library := fun p => if p = "/embutidos.ama" then "embutidos" else ""
  imports := { path := "/embutidos.ama", builtin := true, scope := 0, body := [] } :: imports
  main := { path := "/m.ama", builtin := false, scope := 0, body := [.mostra 2 (vr "y" 1)] }

/-- The module `/a`. -/
def nestedA : ModuleIn := { path := "/a.ama", builtin := false, scope := 0, body := [.varDecl 2 "y" .int (some (.mk 1 (vr "x" 0)))] }

/-- The module `/b`. -/
def nestedB : ModuleIn := { path := "/b.ama", builtin := false, scope := 0, body := [.varDecl 1 "x" .int (some (.mk 0 (lit "2")))] }

/-- **C51 is violated.** In the order of `Imports.nested_outcome` the virtual machine stops in `/a`, which
reads a variable that does not exist yet; in the other order it shows the value. -/
theorem import_order_violated : machineEnd (nestedProg [nestedA, nestedB]) 1000 = some (.panicked "") ∧
    machineEnd (nestedProg [nestedB, nestedA]) 1000 = some (.exited 0 "2\n" "") := by
  decide +kernel

end Amanda

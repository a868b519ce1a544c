import Verif.SourceFuel
import Verif.Props.Soundness

/-!
# C58 and C63: programs that run forever, and the whole way from a file to its end

`compiled_program_correct` speaks about source programs that end.  Here the others are added: the machine
runs forever exactly when the source program does.  Together with `accepted_std_partial` this says what
becomes of any file of the part of the language in `Verif.Frag`.
-/

namespace Amanda

open Source Codegen Compiled

/-! ## Statement -/

/-- The source program ends after some time as `o` says. -/
def EndsAs {F : Type} [FloatOps F] (cfg : Cfg) (P : Prog) (inp : List String) (o : Out F Unit) : Prop :=
  o.Ended ∧ ∃ n, P.eval cfg n inp = o

/-- The source program never ends. -/
def RunsForever (F : Type) [FloatOps F] (cfg : Cfg) (P : Prog) (inp : List String) : Prop :=
  ∀ n, ∃ k, (P.eval cfg n inp : Out F Unit) = .fuel k

section
variable {F : Type} [FloatOps F] {cfg : Cfg} {P : Prog} {inp : List String}

/-- A source program ends in one way only. -/
theorem endsAs_unique {o o' : Out F Unit} (h : EndsAs cfg P inp o) (h' : EndsAs cfg P inp o') : o = o' := by
  obtain ⟨h1, n, hn⟩ := h
  obtain ⟨h2, m, hm⟩ := h'
  rcases P.eval_mono (F := F) cfg inp (Nat.le_max_left n m) with ⟨k, e⟩ | e
  · exact absurd (hn.symm.trans e) (h1 k)
  · rcases P.eval_mono (F := F) cfg inp (Nat.le_max_right n m) with ⟨k, e'⟩ | e'
    · exact absurd (hm.symm.trans e') (h2 k)
    · rw [← hn, ← hm, e, e']

/-- A source program that ends does not run forever. -/
theorem endsAs_not_forever {o : Out F Unit} (h : EndsAs cfg P inp o) : ¬ RunsForever F cfg P inp := by
  obtain ⟨h1, n, hn⟩ := h
  intro h2
  obtain ⟨k, hk⟩ := h2 n
  exact h1 k (hn.symm.trans hk)

theorem evalModules_leave (n : Nat) : ∀ (ms : List ModuleIn) (st st' : St F) (c : Ctl F),
    P.evalModules cfg n ms st ≠ .leave c st'
  | [], _, _, _, h => by cases h
  | m :: ms, st, st', c, h => by
      unfold Prog.evalModules at h
      cases e : P.evalModule cfg n m st with
      | done u st1 => rw [e] at h; exact evalModules_leave n ms st1 st' c h
      | leave c' st1 =>
          unfold Prog.evalModule at e
          split at e
          · split at e <;> cases e
          · split at e <;> cases e
      | _ => rw [e] at h; cases h

/-- A source program that does not get stuck runs to its end, fails or runs forever. -/
theorem ends_cases (h : ∀ n, (P.eval cfg n inp : Out F Unit) ≠ .stuck) :
    (∃ st, EndsAs (F := F) cfg P inp (.done () st)) ∨ (∃ msg w, EndsAs (F := F) cfg P inp (.fail msg w)) ∨
      RunsForever F cfg P inp := by
  by_cases hf : RunsForever F cfg P inp
  · exact .inr (.inr hf)
  · obtain ⟨n, hn⟩ := not_forall.1 hf
    cases e : (P.eval cfg n inp : Out F Unit) with
    | stuck => exact absurd e (h n)
    | fuel k => exact absurd ⟨k, e⟩ hn
    | fail msg w => exact .inr (.inl ⟨msg, w, fun _ => by simp, n, e⟩)
    | leave c st => exact absurd e (evalModules_leave n _ _ st c)
    | done u st => exact .inl ⟨st, fun _ => by simp, n, e⟩

end

/-! ## Images -/

section
variable {F : Type} [FloatOps F]

/-- A machine that has stopped does nothing more. -/
theorem runImage_steady (cfg : Cfg) (inp : List String) (image : Bytes) {f g : Nat} (h : f ≤ g) :
    (∃ out, runImage F cfg f inp image = .outOfFuel out) ∨ runImage F cfg f inp image = runImage F cfg g inp image := by
  unfold runImage
  cases hd : Bson.loadImage image with
  | error e => exact .inr rfl
  | ok d =>
      cases hp : (loadProgram d : Option (Program F)) with
      | none => exact .inr (by simp only [hp])
      | some prog =>
          simp only [hp]
          rcases runProgram_steady cfg prog inp f g h with ⟨vm, e⟩ | e <;> simp only at e
          · rw [e]; exact .inl ⟨_, rfl⟩
          · rw [e]; exact .inr rfl

/-- A machine gives one result only. -/
theorem runImage_once {cfg : Cfg} {inp : List String} {image : Bytes} {f g : Nat} {r r' : RunResult}
    (h : runImage F cfg f inp image = r) (h' : runImage F cfg g inp image = r') (hr : ∀ out, r ≠ .outOfFuel out)
    (hr' : ∀ out, r' ≠ .outOfFuel out) : r = r' := by
  rcases runImage_steady (F := F) cfg inp image (Nat.le_max_left f g) with ⟨out, e⟩ | e
  · exact absurd (h.symm.trans e) (hr out)
  · rcases runImage_steady (F := F) cfg inp image (Nat.le_max_right f g) with ⟨out, e'⟩ | e'
    · exact absurd (h'.symm.trans e') (hr' out)
    · rw [← h, ← h', e, e']

end

/-- **C58.**  If the source program runs forever, so does its image: for any number of instructions the
machine is still running afterwards, it neither stops nor panics. -/
theorem compiled_program_endless (F : Type) [FloatOps F] [LawfulFloatOps F] (cfg : Cfg) (P : Prog)
    (home : SymId → Option ScopeId) (hP : P.Ok home) (hS : SlotsFit P) (image : Bytes)
    (h : compileProgram P.env P.builtinPath P.main P.imports = .ok image) (inp : List String)
    (hf : RunsForever F cfg P inp) (fuel : Nat) : ∃ out, runImage F cfg fuel inp image = .outOfFuel out := by
  obtain ⟨d, prog, hd, hp, hL⟩ := load_ok (F := F) h (fun m hm out hc => consts_load hP hS hm hc)
  obtain ⟨n, k, he, hk⟩ := P.eval_rounds (F := F) cfg inp hf fuel
  have key := program_runs (cfg := cfg) hP hS empty_text hL n inp
  rw [he] at key
  obtain ⟨vm, hvm⟩ := key fuel hk
  unfold runImage
  rw [hd]
  simp only at hvm
  simp only [hp, hvm]
  exact ⟨_, rfl⟩

/-- **C58, both ways.**  For a source program that does not get stuck, the image stops with status 0
exactly when the source program runs to its end, and then with its output; it stops with status 1 exactly
when the source program fails; it runs forever exactly when the source program does; and it never panics. -/
theorem compiled_program_exact (F : Type) [FloatOps F] [LawfulFloatOps F] (cfg : Cfg) (P : Prog)
    (home : SymId → Option ScopeId) (hP : P.Ok home) (hS : SlotsFit P) (image : Bytes)
    (h : compileProgram P.env P.builtinPath P.main P.imports = .ok image) (inp : List String)
    (hn : ∀ n, (P.eval cfg n inp : Out F Unit) ≠ .stuck) :
    (∀ out err, (∃ fuel, runImage F cfg fuel inp image = .exited 0 out err) ↔
      ∃ st : St F, EndsAs cfg P inp (.done () st) ∧ out = st.world.out ∧ err = "") ∧
    ((∃ fuel out err, runImage F cfg fuel inp image = .exited 1 out err) ↔
      ∃ (msg : String) (w : World F), EndsAs cfg P inp (.fail msg w)) ∧
    ((∀ fuel, ∃ out, runImage F cfg fuel inp image = .outOfFuel out) ↔ RunsForever F cfg P inp) ∧
    (∀ fuel out, runImage F cfg fuel inp image ≠ .panicked out) := by
  have hall := compiled_program_endless F cfg P home hP hS image h inp
  rcases ends_cases hn with ⟨st, hs⟩ | ⟨msg, w, hs⟩ | hs
  · obtain ⟨n, he⟩ := hs.2
    obtain ⟨k, hk⟩ := (compiled_program_correct F cfg P home hP hS image h inp n).1 st he
    have hk := hk k (Nat.le_refl k)
    refine ⟨fun out err => ⟨?_, ?_⟩, ⟨?_, ?_⟩, ⟨?_, ?_⟩, ?_⟩
    · rintro ⟨f, hf⟩
      cases runImage_once hf hk (by simp) (by simp)
      exact ⟨st, hs, rfl, rfl⟩
    · rintro ⟨st', h', rfl, rfl⟩
      cases endsAs_unique hs h'
      exact ⟨k, hk⟩
    · rintro ⟨f, out, err, hf⟩
      cases runImage_once hf hk (by simp) (by simp)
    · rintro ⟨msg, w, h'⟩
      cases endsAs_unique hs h'
    · intro h'
      obtain ⟨out, ho⟩ := h' k
      rw [hk] at ho; cases ho
    · exact fun h' => absurd h' (endsAs_not_forever hs)
    · intro f out hf
      cases runImage_once hf hk (by simp) (by simp)
  · obtain ⟨n, he⟩ := hs.2
    obtain ⟨k, tr, hk⟩ := (compiled_program_correct F cfg P home hP hS image h inp n).2 msg w he
    have hk := hk k (Nat.le_refl k)
    refine ⟨fun out err => ⟨?_, ?_⟩, ⟨?_, ?_⟩, ⟨?_, ?_⟩, ?_⟩
    · rintro ⟨f, hf⟩
      cases runImage_once hf hk (by simp) (by simp)
    · rintro ⟨st', h', rfl, rfl⟩
      cases endsAs_unique hs h'
    · exact fun _ => ⟨msg, w, hs⟩
    · exact fun _ => ⟨k, _, _, hk⟩
    · intro h'
      obtain ⟨out, ho⟩ := h' k
      rw [hk] at ho; cases ho
    · exact fun h' => absurd h' (endsAs_not_forever hs)
    · intro f out hf
      cases runImage_once hf hk (by simp) (by simp)
  · have hr := hall hs
    refine ⟨fun out err => ⟨?_, ?_⟩, ⟨?_, ?_⟩, ⟨fun _ => hs, fun _ => hr⟩, ?_⟩
    · rintro ⟨f, hf⟩
      obtain ⟨o, ho⟩ := hr f
      rw [hf] at ho; cases ho
    · rintro ⟨st', h', rfl, rfl⟩
      exact absurd hs (endsAs_not_forever h')
    · rintro ⟨f, out, err, hf⟩
      obtain ⟨o, ho⟩ := hr f
      rw [hf] at ho; cases ho
    · rintro ⟨msg, w, h'⟩
      exact absurd hs (endsAs_not_forever h')
    · intro f out hf
      obtain ⟨o, ho⟩ := hr f
      rw [hf] at ho; cases ho

/-! ## Files -/

namespace Pipeline

open Imports

/-- The process for an accepted program that is compiled. -/
theorem runMain_accepted (F : Type) [FloatOps F] (env : Env) (check : Path → Tree → Except Trouble Prog) (file : Path)
    {P : Prog} (hA : Accepted env check file P) {image : Bytes}
    (hc : compileProgram P.env P.builtinPath P.main P.imports = .ok image) (fuel : Nat) :
    runMain F env check fuel file =
      match runImage F env.vm fuel env.input image with
      | .exited status out err => .exit status out err
      | .panicked out => .aborted out
      | .outOfFuel out => .running out := by
  simp only [runMain, hA.1, ↓reduceIte, runFile]
  rcases frontend_cases env check file hA.1 with ⟨P', hA', hr⟩ | ⟨e, hR, -⟩ | ⟨h1, -⟩
  · cases accepted_unique hA hA'
    simp only [hr, hc]
    cases runImage F env.vm fuel env.input image <;> rfl
  · exact (not_both hA hR).elim
  · exact absurd hA (h1 P)

/-- How a process ends, in terms of the source program: with status 0 and its output when it runs to its
end, with status 1, its output and a report that ends with its error when it fails; it runs forever when the
source program does; and it is never aborted. -/
structure Faithful (F : Type) [FloatOps F] (cfg : Cfg) (inp : List String) (P : Prog) (run : Nat → Ended) : Prop where
  ends : (∃ st : St F, EndsAs cfg P inp (.done () st)) ∨ (∃ (msg : String) (w : World F), EndsAs cfg P inp (.fail msg w)) ∨
    RunsForever F cfg P inp
  done : ∀ st : St F, EndsAs cfg P inp (.done () st) → ∃ k, ∀ fuel, k ≤ fuel → run fuel = .exit 0 st.world.out ""
  fail : ∀ (msg : String) (w : World F), EndsAs cfg P inp (.fail msg w) →
    ∃ k trace, ∀ fuel, k ≤ fuel → run fuel = .exit 1 w.out (trace ++ msg ++ ".")
  forever : RunsForever F cfg P inp → ∀ fuel, ∃ out, run fuel = .running out
  status0 : ∀ fuel, (run fuel).status = some 0 → ∃ st : St F, EndsAs cfg P inp (.done () st)
  status1 : ∀ fuel, (run fuel).status = some 1 → ∃ (msg : String) (w : World F), EndsAs cfg P inp (.fail msg w)
  aborted : ∀ fuel out, run fuel ≠ .aborted out

/-- **C63**, for programs that do not get stuck and meet the conditions of C47. -/
theorem faithful_of_safe (F : Type) [FloatOps F] [LawfulFloatOps F] (env : Env)
    (check : Path → Tree → Except Trouble Prog) (file : Path) {P : Prog} (hA : Accepted env check file P)
    (home : SymId → Option ScopeId) (hP : P.Ok home) (hS : SlotsFit P) {image : Bytes}
    (hc : compileProgram P.env P.builtinPath P.main P.imports = .ok image)
    (hn : ∀ n, (P.eval env.vm n env.input : Out F Unit) ≠ .stuck) :
    Faithful F env.vm env.input P fun fuel => runMain F env check fuel file := by
  obtain ⟨e1, e2, e3, e4⟩ := compiled_program_exact F env.vm P home hP hS image hc env.input hn
  have hrun := runMain_accepted F env check file hA hc
  constructor
  · exact ends_cases hn
  · rintro st ⟨-, n, he⟩
    exact (source_status F env check file hA home hP hS hc n).1 st he
  · rintro msg w ⟨-, n, he⟩
    exact (source_status F env check file hA home hP hS hc n).2 msg w he
  · intro h fuel
    obtain ⟨out, ho⟩ := e3.2 h fuel
    exact ⟨out, by simp only [hrun, ho]⟩
  · intro fuel h
    simp only [hrun] at h
    cases e : runImage F env.vm fuel env.input image with
    | exited s out err =>
        rw [e] at h
        cases h
        obtain ⟨st, h1, -⟩ := (e1 out err).1 ⟨fuel, e⟩
        exact ⟨st, h1⟩
    | _ => rw [e] at h; cases h
  · intro fuel h
    simp only [hrun] at h
    cases e : runImage F env.vm fuel env.input image with
    | exited s out err => rw [e] at h; cases h; exact e2.1 ⟨fuel, out, err, e⟩
    | _ => rw [e] at h; cases h
  · intro fuel out h
    simp only [hrun] at h
    cases e : runImage F env.vm fuel env.input image with
    | panicked out => exact e4 fuel out e
    | _ => rw [e] at h; cases h

end Pipeline

end Amanda

/-! ## A program that runs forever -/

namespace Amanda

open Source Codegen Compiled

/-- A loop whose condition always holds and whose body always comes to its end never ends. -/
theorem while_endless {F : Type} [FloatOps F] {cfg : Cfg} {L : Lang} {pos : Pos} {cond : TExpr} {body : List TStmt}
    {Inv : St F → Prop}
    (hc : ∀ n st, Inv st → (∃ k, evalE cfg L n pos cond st = .fuel k) ∨
      ∃ st', evalE cfg L n pos cond st = .done (.bool true) st' ∧ Inv st')
    (hb : ∀ n st, Inv st → (∃ k, evalSs cfg L n pos body st = .fuel k) ∨
      ∃ st', (evalSs cfg L n pos body st = .done none st' ∨ evalSs cfg L n pos body st = .leave .continua st') ∧ Inv st') :
    ∀ n st, Inv st → ∃ k, evalWhile cfg L n pos cond body st = .fuel k
  | 0, _, _ => ⟨0, rfl⟩
  | n + 1, st, hi => by
      simp only [evalWhile]
      change ∃ k, Out.next (evalE cfg L n pos cond st) _ = _
      rcases hc n st hi with ⟨k, e⟩ | ⟨st1, e, hi1⟩ <;> rw [e]
      · exact ⟨k, rfl⟩
      · change ∃ k, (endRound (evalWhile cfg L n pos cond body) (evalSs cfg L n pos body st1)).tick = _
        rcases hb n st1 hi1 with ⟨k, e⟩ | ⟨st2, e | e, hi2⟩ <;> rw [e]
        · exact ⟨k + 1, rfl⟩
        · obtain ⟨k, hk⟩ := while_endless hc hb n st2 hi2
          simp only [endRound, hk]; exact ⟨k + 1, rfl⟩
        · obtain ⟨k, hk⟩ := while_endless hc hb n st2 hi2
          simp only [endRound, hk]; exact ⟨k + 1, rfl⟩

namespace Check

open Pipeline Imports

/-- **C63**, for the programs of `Verif.Frag` with std/embutidos.ama as it is in the repository: what
becomes of the process for a file is what becomes of the source program, which runs to its end, fails or
runs forever.  (Missing: the rest of the language; statements in more than nine bodies, below which the internal
names of variables can be confused; that no function has more
variables than the virtual machine can address, checked by `slotsCheck`.) -/
theorem file_faithful_partial {F : Type} [FloatOps F] [LawfulFloatOps F] [ReadsNumerals F] (env : Env)
    {l : List (Path × List Char)} {n : Nat} {file : Path} {text : List Char} {t : Tree} {P : Prog} {K : Frag}
    {image : Bytes} (hfile : env.files.isFile file = true) (hread : env.files.read file = .ok text)
    (hparse : parse env.py text = .ok t) (hm : pstr stdBuiltin ≠ pstr file)
    (hK : ∀ f ∈ K.fns, f ∉ libraryNames) (hk : okTree K t = true) (ha : builtinAnn t.annotations = false)
    (hs : K.strict = true) (h : checkFile stdCfg samplePy (stdFiles l) n file t = .ok P) (hvm : env.vm.debug = false)
    (hout : nestSs t.stmts ≤ 9) (hsl : slotsCheck P = true)
    (hc : compileProgram P.env P.builtinPath P.main P.imports = .ok image) :
    Faithful F env.vm env.input P fun fuel => runMain F env (checkFile stdCfg samplePy (stdFiles l) n) fuel file :=
  faithful_of_safe F env _ file ⟨hfile, text, t, hread, hparse, h⟩ _ (accepted_std_ok F hm hK hk ha hs h hout)
    (slots_of_check hsl) hc fun k =>
    accepted_std_partial hm hK hk ha h env.vm hvm k env.input

/-! ### Examples -/

/-- A function with variables of the same name in several blocks. -/
def siblingText : List Char := chars! "func f(n : int) : int\n  se n < 1 entao\n    x : int = n * 2\n    retorna x\n  fim\n  enquanto n > 5 faca\n    x : int = n - 1\n    n = x\n  fim\n  se n > 3 entao\n    x : int = n + 5\n    retorna x\n  fim\n  retorna n\nfim\nr : int = f(9)\nr = r + f(0)\nmostra r\n"

/-- A program without end. -/
def loopText : List Char := chars! "enquanto verdadeiro faca\nfim\n"

/-- All that `file_faithful_partial` asks for. -/
def meets (K : Frag) (text : List Char) : Bool :=
  K.strict && okTree K (treeOf text) && !builtinAnn (treeOf text).annotations && (parse samplePy text).toOption.isSome &&
    match (checkFile stdCfg samplePy (stdFiles [(chars! "/m.ama", text)]) 2 (chars! "/m.ama") (treeOf text)).toOption with
    | none => false
    | some P => decide (nestSs (treeOf text).stmts ≤ 9) && slotsCheck P &&
        (compileProgram P.env P.builtinPath P.main P.imports).toOption.isSome

theorem meets_faithful {K : Frag} {text : List Char} (h : meets K text = true) (hK : ∀ f ∈ K.fns, f ∉ libraryNames) :
    ∃ P, checkFile stdCfg samplePy (stdFiles [(chars! "/m.ama", text)]) 2 (chars! "/m.ama") (treeOf text) = .ok P ∧
      Faithful CutFloat plainCfg [] P fun fuel => runMain CutFloat (stdEnv text)
        (checkFile stdCfg samplePy (stdFiles [(chars! "/m.ama", text)]) 2) fuel (chars! "/m.ama") := by
  unfold meets at h
  simp only [Bool.and_eq_true, Bool.not_eq_true'] at h
  obtain ⟨⟨⟨⟨h0, h1⟩, h2⟩, h3⟩, h4⟩ := h
  cases hc : checkFile stdCfg samplePy (stdFiles [(chars! "/m.ama", text)]) 2 (chars! "/m.ama") (treeOf text) with
  | error e => rw [hc] at h4; cases h4
  | ok P =>
      rw [hc] at h4
      simp only [Except.toOption, Bool.and_eq_true] at h4
      obtain ⟨⟨h5, h6⟩, h7⟩ := h4
      cases hi : compileProgram P.env P.builtinPath P.main P.imports with
      | error e => rw [hi] at h7; cases h7
      | ok image =>
          refine ⟨P, rfl, file_faithful_partial (stdEnv text) (text := text) (t := treeOf text) (K := K) rfl rfl ?_ (by decide) hK h1 h2
            h0 hc rfl (of_decide_eq_true h5) h6 hi⟩
          show parse samplePy text = _
          unfold treeOf
          cases hp : parse samplePy text with
          | error e => rw [hp] at h3; cases h3
          | ok t => rfl

set_option maxRecDepth 100000 in
theorem examples_meet : meets ⟨["n", "x", "r"], ["f"], [], false, true⟩ siblingText = true ∧ meets ⟨[], [], [], false, true⟩ loopText = true ∧
    meets meanNames meanText = true ∧ meets readingNames readingText = true := by decide +kernel

/-- The process for `siblingText` is never aborted. -/
example (fuel : Nat) (out : String) : runMain CutFloat (stdEnv siblingText)
    (checkFile stdCfg samplePy (stdFiles [(chars! "/m.ama", siblingText)]) 2) fuel (chars! "/m.ama") ≠ .aborted out := by
  obtain ⟨P, -, hF⟩ := meets_faithful examples_meet.1 (by decide)
  exact hF.aborted fuel out

/-- The main module of `loopText`. -/
def isLoop (P : Prog) : Bool :=
  P.main.builtin == false && match P.main.body with
  | [.enquanto _ (.const _ "verdadeiro" .unknown) (.mk _ [])] => true
  | _ => false

set_option maxRecDepth 100000 in
theorem loop_is : ((checkFile stdCfg samplePy (stdFiles [(chars! "/m.ama", loopText)]) 2 (chars! "/m.ama")
    (treeOf loopText)).toOption.map fun P => isLoop P && P.imports.all (·.builtin) &&
      P.imports.all fun m => (builtinDefs (F := CutFloat) (P.library m.path)).isSome) = some true := by decide +kernel

theorem evalModules_endless {F : Type} [FloatOps F] {cfg : Cfg} {P : Prog} {n : Nat} {last : ModuleIn}
    (hl : ∀ st : St F, ∃ k, P.evalModule cfg n last st = .fuel k) : ∀ (ms : List ModuleIn),
    (∀ m ∈ ms, m.builtin = true ∧ (builtinDefs (F := F) (P.library m.path)).isSome = true) → ∀ st : St F,
    ∃ k, P.evalModules cfg n (ms ++ [last]) st = .fuel k
  | [], _, st => by
      obtain ⟨k, hk⟩ := hl st
      exact ⟨k, by simp only [List.nil_append, Prog.evalModules, hk]⟩
  | m :: ms, h, st => by
      obtain ⟨h1, h2⟩ := h m (by simp)
      obtain ⟨defs, hd⟩ := Option.isSome_iff_exists.1 h2
      have hm : P.evalModule cfg n m st = .done () (st.begin m.path defs) := by
        simp only [Prog.evalModule, h1, if_true, hd]
      simp only [List.cons_append, Prog.evalModules, hm]
      exact evalModules_endless hl ms (fun m h' => h m (List.mem_cons_of_mem _ h')) _

/-- The process for `loopText` runs forever. -/
example (fuel : Nat) : ∃ out, runMain CutFloat (stdEnv loopText)
    (checkFile stdCfg samplePy (stdFiles [(chars! "/m.ama", loopText)]) 2) fuel (chars! "/m.ama") = .running out := by
  obtain ⟨P, hP, hF⟩ := meets_faithful examples_meet.2.1 (by decide)
  refine hF.forever (fun n => ?_) fuel
  have hl := loop_is
  rw [hP] at hl
  simp only [Except.toOption, Option.map_some, Option.some.injEq, Bool.and_eq_true, List.all_eq_true] at hl
  obtain ⟨⟨h1, h2⟩, h3⟩ := hl
  refine evalModules_endless (fun st => ?_) P.imports (fun m hm => ⟨h2 m hm, h3 m hm⟩) _
  unfold isLoop at h1
  simp only [Bool.and_eq_true, beq_iff_eq] at h1
  obtain ⟨h4, h5⟩ := h1
  split at h5
  case h_2 => cases h5
  case h_1 _ line cline scope hbody =>
    have hw : ∀ n (st : St CutFloat) pos, ∃ k, evalWhile plainCfg P.lang n pos (.const cline "verdadeiro" .unknown) [] st = .fuel k :=
      fun n st pos => while_endless (Inv := fun _ => True)
        (fun n st _ => by
          cases n with
          | zero => exact .inl ⟨0, rfl⟩
          | succ n => exact .inr ⟨st, rfl, trivial⟩)
        (fun n st _ => by
          cases n with
          | zero => exact .inl ⟨0, rfl⟩
          | succ n => exact .inr ⟨st, .inl rfl, trivial⟩) n st trivial
    have hs : ∀ n (st : St CutFloat) pos, ∃ k,
        evalSs plainCfg P.lang n pos [.enquanto line (.const cline "verdadeiro" .unknown) (.mk scope [])] st = .fuel k := by
      intro n st pos
      rcases n with _ | _ | n
      · exact ⟨0, rfl⟩
      · exact ⟨0, rfl⟩
      · obtain ⟨k, hk⟩ := hw n (st.entered P.lang scope) { pos with scope := some scope }
        refine ⟨k, ?_⟩
        simp only [evalSs]
        change Out.next (evalS plainCfg P.lang (n + 1) pos _ st) _ = _
        simp only [evalS]
        change Out.next (evalWhile plainCfg P.lang n { pos with scope := some scope } _ [] (st.entered P.lang scope)) _ = _
        rw [hk]
        rfl
    obtain ⟨k, hk⟩ := hs n (st.begin P.main.path []) ⟨P.main.path, some P.main.scope, 1⟩
    exact ⟨k, by simp only [Prog.evalModule, h4, Bool.false_eq_true, if_false, hbody, hk]⟩

end Check

end Amanda

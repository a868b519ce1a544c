import Verif.Props.Written

/-!
# C69: builds with and without debug assertions

`cargo build` and `cargo build --release` give different machines: overflow checks and `debug_assert!` are in the
first one only.
-/

namespace Amanda

variable {F : Type} [FloatOps F]

/-- The machine built with debug assertions. -/
def Cfg.checked (cfg : Cfg) : Cfg := { cfg with debug := true }

/-- The machine built without. -/
def Cfg.release (cfg : Cfg) : Cfg := { cfg with debug := false }

/-- `x` was reached by reading from the input `k` lines long. -/
def Read (k : Nat) (w : World F) : Prop := w.inp.length < k

/-- The result `r` of the checked machine is a panic, or was reached by reading, or is the result `r'` of the other. -/
def Alike {α : Type} (k : Nat) (g : α → World F) (r r' : Except (Stop F) α) : Prop :=
  (∃ vm, r = .error (.panic vm)) ∨ (match r with
    | .ok a => Read k (g a)
    | .error s => Read k s.vm.world) ∨ r' = r

section
variable {α β : Type} {k : Nat} {cfg : Cfg} {prog : Program F} {vm : VM F}

omit [FloatOps F] in
theorem Alike.rfl' {g : α → World F} {r : Except (Stop F) α} : Alike k g r r := .inr (.inr rfl)

omit [FloatOps F] in
/-- The same first step on both machines. -/
theorem Alike.same {g : β → World F} {r : Except (Stop F) α} {f f' : α → Except (Stop F) β}
    (h : ∀ a, r = .ok a → Alike k g (f a) (f' a)) : Alike k g (r >>= f) (r >>= f') := by
  cases r with
  | ok a => exact h a rfl
  | error e => exact .rfl'

omit [FloatOps F] in
/-- A first step that the checked machine panics on more often. -/
theorem Alike.less {g : β → World F} {o o' : Option α} {f : α → Except (Stop F) β} (h : ∀ a, o = some a → o' = some a) :
    Alike k g (orPanic o vm >>= f) (orPanic o' vm >>= f) := by
  cases o with
  | none => exact .inl ⟨vm, rfl⟩
  | some a => rw [h a rfl]; exact .rfl'

omit [FloatOps F] in
theorem After.shorter {w v : World F} (h : After w v) : v.inp.length ≤ w.inp.length := by
  obtain ⟨n, hn⟩ := h.inp
  rw [hn, List.length_drop]; omega

omit [FloatOps F] in
/-- Whatever follows after something was read. -/
theorem Alike.read {g : α → World F} {w : World F} {r r' : Except (Stop F) α} (h : Onto w g r) (hl : w.inp.length < k) :
    Alike k g r r' := by
  refine .inr (.inl ?_)
  cases r with
  | ok a => exact Nat.lt_of_le_of_lt (After.shorter h) hl
  | error s => exact Nat.lt_of_le_of_lt (After.shorter h) hl

theorem unary_less {op : Op} {v r : Val F} (h : unary cfg.checked op v = some r) : unary cfg.release op v = some r := by
  unfold unary at h ⊢
  split at h
  · split at h
    · rename_i hi; rw [if_pos hi]; exact h
    · simp [Cfg.checked] at h
  · exact h
  · exact h
  · cases h

omit [FloatOps F] in
theorem localIndex_less {bp idx : Int} {i : Nat} (h : localIndex cfg.checked bp idx = some i) :
    localIndex cfg.release bp idx = some i := by
  unfold localIndex at h ⊢
  split at h
  · cases h
  · rw [if_neg (by simp [Cfg.release])]; exact h

omit [FloatOps F] in
theorem bindArgs_less {bp : Int} : ∀ {l : List (Int × Val F)} {vs r : List (Val F)}, bindArgs cfg.checked bp l vs = some r →
    bindArgs cfg.release bp l vs = some r
  | [], _, _, h => h
  | (idx, v) :: rest, vs, r, h => by
      simp only [bindArgs, Option.bind_eq_bind, Option.bind_eq_some_iff] at h ⊢
      obtain ⟨i, hi, h⟩ := h
      refine ⟨i, localIndex_less hi, ?_⟩
      split at h
      · rename_i hi; rw [if_pos hi]; exact bindArgs_less h
      · cases h

/-- Reading a line on the checked machine: a panic, or one line is gone, or the line was not reached. -/
theorem leia_alike (args : List (Val F)) (w : World F) :
    (∃ v, nLeia cfg.checked args w = .error (.panic, v)) ∨
    (∃ p, nLeia cfg.checked args w = .ok p ∧ p.2.inp.length < w.inp.length) ∨
    nLeia cfg.release args w = nLeia cfg.checked args w ∧ ∃ e, nLeia cfg.checked args w = .error e := by
  unfold nLeia
  cases he : nEscreva args w with
  | error e => exact .inr (.inr ⟨rfl, e, rfl⟩)
  | ok p =>
      have hp : p.2.inp = w.inp := by
        unfold nEscreva at he
        obtain ⟨a, -, he⟩ := except_bind_eq_ok.1 he
        obtain ⟨b, -, he⟩ := except_bind_eq_ok.1 he
        cases he; rfl
      simp only [except_bind_ok, Cfg.checked, if_true, readLine]
      cases hi : p.2.inp with
      | nil => exact .inl ⟨_, rfl⟩
      | cons l ls =>
          simp only
          split
          · exact .inr (.inl ⟨_, rfl, by rw [← hp, hi]; simp⟩)
          · exact .inl ⟨_, rfl⟩

/-- Library functions. -/
theorem native_alike (module name : String) (args : List (Val F)) (w : World F) :
    (∃ v, callNative cfg.checked module name args w = .error (.panic, v)) ∨
    (match callNative cfg.checked module name args w with
      | .ok p => p.2.inp.length < w.inp.length
      | .error e => e.2.inp.length < w.inp.length) ∨
    callNative cfg.release module name args w = callNative cfg.checked module name args w := by
  by_cases hl : module = "embutidos" ∧ (name = "leia" ∨ name = "leia_int" ∨ name = "leia_real")
  · obtain ⟨rfl, h | h | h⟩ := hl <;> subst h
    · simp only [callNative, if_true]
      rcases leia_alike (cfg := cfg) args w with h | ⟨p, h, hp⟩ | ⟨h, -⟩
      · exact .inl h
      · rw [h]; exact .inr (.inl hp)
      · exact .inr (.inr h)
    · simp only [callNative, if_true, nLeiaInt]
      rcases leia_alike (cfg := cfg) args w with ⟨v, h⟩ | ⟨p, h, hp⟩ | ⟨h, e, he⟩
      · exact .inl ⟨v, by rw [h]; rfl⟩
      · refine .inr (.inl ?_)
        rw [h]
        simp only [except_bind_ok]
        cases p.1.takeStr with
        | error e => exact hp
        | ok s =>
            simp only [Res.at, except_bind_ok]
            cases parseI64 s <;> exact hp
      · exact .inr (.inr (by rw [h]))
    · simp only [callNative, if_true, nLeiaReal]
      rcases leia_alike (cfg := cfg) args w with ⟨v, h⟩ | ⟨p, h, hp⟩ | ⟨h, e, he⟩
      · exact .inl ⟨v, by rw [h]; rfl⟩
      · refine .inr (.inl ?_)
        rw [h]
        simp only [except_bind_ok]
        cases p.1.takeStr with
        | error e => exact hp
        | ok s =>
            simp only [Res.at, except_bind_ok]
            cases (FloatOps.parse s : Option F) <;> exact hp
      · exact .inr (.inr (by rw [h]))
  · refine .inr (.inr ?_)
    unfold callNative
    split
    · rename_i hm
      split <;> first | rfl | (exfalso; apply hl; exact ⟨hm, by simp⟩)
    · rfl

theorem callNativeFn_alike (module name : String) (n : Nat) :
    Alike vm.world.inp.length VM.world (callNativeFn cfg.checked prog vm module name n) (callNativeFn cfg.release prog vm module name n) := by
  unfold callNativeFn
  refine .same fun p hp => ?_
  have hw : p.2.world = vm.world := by
    unfold nativeArgs at hp
    split at hp
    · obtain ⟨a, -, hp⟩ := except_bind_eq_ok.1 hp
      cases hp; rfl
    · cases hp; rfl
  have hn := native_alike (cfg := cfg) module name p.1 p.2.world
  simp only
  cases hc : callNative cfg.checked module name p.1 p.2.world with
  | error e =>
      obtain ⟨e, w'⟩ := e
      cases e with
      | panic => exact .inl ⟨_, rfl⟩
      | err m =>
          rw [hc] at hn
          rcases hn with ⟨v, h⟩ | h | h
          · cases h
          · refine .inr (.inl ?_)
            show Read _ (throwErr prog _ m).vm.world
            rw [throwErr_vm]
            exact hw ▸ h
          · rw [h]; exact .rfl'
  | ok q =>
      obtain ⟨qv, qw⟩ := q
      rw [hc] at hn
      rcases hn with ⟨v, h⟩ | h | h
      · cases h
      · refine .read (w := qw) ?_ (hw ▸ h)
        exact .bind (.push (After.refl _)) fun _ h => .bind (.dropAbove h) fun _ h => .advance h
      · rw [h]; exact .rfl'

omit [FloatOps F] in
theorem pop_world {p : Val F × VM F} (h : vm.pop = .ok p) : p.2.world = vm.world := by
  unfold VM.pop at h
  simp only at h
  split at h
  · obtain ⟨a, -, h⟩ := except_bind_eq_ok.1 h
    cases h; rfl
  · split at h
    · split at h
      · cases h
      · obtain ⟨a, -, h⟩ := except_bind_eq_ok.1 h
        cases h; rfl
    · cases h

theorem exec_alike (m : Module F) (op : Op) (args : List Nat) :
    Alike vm.world.inp.length VM.world (exec cfg.checked prog m vm op args) (exec cfg.release prog m vm op args) := by
  cases op <;> simp only [exec]
  case opInvert | opNot =>
    unfold execUnary
    exact .same fun _ _ => .less fun _ => unary_less
  case getLocal =>
    exact .same fun _ _ => .same fun _ _ => .less fun _ => localIndex_less
  case setLocal =>
    exact .same fun _ _ => .same fun _ _ => .less fun _ => localIndex_less
  case callFunction =>
    refine .same fun n _ => ?_
    unfold execCall
    refine .same fun p hp => ?_
    simp only
    split
    · exact .rfl'
    · rw [← pop_world hp]
      exact callNativeFn_alike _ _ n
    · exact .rfl'
  case buildVariant =>
    refine .same fun n _ => ?_
    unfold execBuildVariant
    refine .same fun p _ => .same fun t _ => ?_
    simp only
    split
    · exact .rfl'
    · refine .same fun items _ => ?_
      split
      · exact .inl ⟨_, rfl⟩
      · rw [if_neg (by simp [Cfg.release])]
        exact .rfl'
  case halt =>
    unfold execHalt
    split
    · exact .inl ⟨_, rfl⟩
    · rw [if_neg (by simp [Cfg.release])]
      exact .rfl'
  case bindMatchArgs =>
    refine .same fun n _ => ?_
    unfold execBindMatchArgs
    split
    · exact .inl ⟨_, rfl⟩
    · rw [if_neg (by simp [Cfg.release])]
      refine .same fun items _ => .same fun idxs _ => ?_
      split
      · exact .inl ⟨_, rfl⟩
      · rw [if_neg (by simp [Cfg.release])]
        refine .same fun p _ => ?_
        simp only
        split
        · split
          · refine .same fun f _ => ?_
            split
            · exact .less fun _ => bindArgs_less
            · exact .rfl'
          · exact .rfl'
        · exact .rfl'
  all_goals exact .rfl'

theorem step_alike : Alike vm.world.inp.length VM.world (step cfg.checked prog vm) (step cfg.release prog vm) := by
  unfold step
  split
  · split
    · exact exec_alike (vm := { vm with frames := _ }) _ _ _
    · exact .rfl'
  · exact .rfl'

/-- A run that does not panic and has not read. -/
def Outcome.Quietly (k : Nat) (o : Outcome F) : Prop := (∀ vm, o ≠ .panic vm) ∧ o.vm.world.inp.length = k

theorem runLoop_alike : ∀ (n : Nat) (vm : VM F), (runLoop cfg.checked prog n vm).Quietly vm.world.inp.length →
    runLoop cfg.release prog n vm = runLoop cfg.checked prog n vm
  | 0, _, _ => rfl
  | n + 1, vm, h => by
      simp only [runLoop] at h ⊢
      rcases step_alike (cfg := cfg) (prog := prog) (vm := vm) with ⟨v, hs⟩ | hs | hs
      · rw [hs] at h
        exact absurd rfl (h.1 v)
      · exfalso
        cases hc : step cfg.checked prog vm with
        | ok vm' =>
            rw [hc] at hs h
            have h1 := (runLoop_after cfg.checked prog n vm').shorter
            have h2 := h.2
            simp only [Read] at hs h2
            omega
        | error s =>
            rw [hc] at hs h
            have h2 := h.2
            simp only [Read] at hs
            cases s <;> simp only [Outcome.vm, Stop.vm] at hs h2 <;> omega
      · rw [hs]
        cases hc : step cfg.checked prog vm with
        | ok vm' =>
            rw [hc] at h
            have h1 := (runLoop_after cfg.checked prog n vm').shorter
            have h3 := step_after cfg.checked prog vm
            rw [hc] at h3
            have h3 := After.shorter h3
            have h2 := h.2
            simp only at h2
            exact runLoop_alike n vm' ⟨h.1, by omega⟩
        | error s => cases s <;> rfl

theorem initModule_world {ref : ModRef} {m : Module F} {vm1 : VM F} (h : initModule ref m vm = some vm1) :
    (enter ref m vm1).world = vm.world := by
  unfold initModule at h
  split at h
  · simp only [Option.bind_eq_bind, Option.bind_eq_some_iff] at h
    obtain ⟨_, -, h⟩ := h
    cases h; rfl
  · cases h; rfl

theorem runModule_alike {n : Nat} {ref : ModRef} {m : Module F} (h : (runModule cfg.checked prog n ref m vm).Quietly vm.world.inp.length) :
    runModule cfg.release prog n ref m vm = runModule cfg.checked prog n ref m vm := by
  unfold runModule at h ⊢
  cases hi : initModule ref m vm with
  | none => rfl
  | some vm1 =>
      rw [hi] at h
      rw [← initModule_world hi] at h
      exact runLoop_alike n _ h

theorem runImports_alike {n : Nat} : ∀ (ms : List (Module F)) (i : Nat) (vm : VM F),
    (runImports cfg.checked prog n i ms vm).Quietly vm.world.inp.length →
    runImports cfg.release prog n i ms vm = runImports cfg.checked prog n i ms vm
  | [], _, _, _ => rfl
  | m :: ms, i, vm, h => by
      have hle := (runModule_after cfg.checked prog n (.imp i) m vm).shorter
      have hm := runModule_alike (cfg := cfg) (prog := prog) (n := n) (ref := .imp i) (m := m) (vm := vm)
      unfold runImports at h ⊢
      cases hr : runModule cfg.checked prog n (.imp i) m vm with
      | done vm' =>
          rw [hr] at h hle hm
          simp only [Outcome.vm] at hle
          have h1 := (runImports_after cfg.checked prog n ms (i + 1) vm').shorter
          have h2 := h.2
          simp only at h2
          rw [hm ⟨fun _ e => (by cases e), by simp only [Outcome.vm]; omega⟩]
          exact runImports_alike ms (i + 1) vm' ⟨h.1, by omega⟩
      | err s vm' => rw [hr] at h hm; rw [hm h]
      | panic vm' => rw [hr] at h; exact absurd rfl (h.1 vm')
      | outOfFuel vm' => rw [hr] at h hm; rw [hm h]

/-- **C69 (partial).** A program that does not panic on the machine with debug assertions, and reads nothing, does the
same on the machine without, after every number of instructions.  Missing: programs that read, for which it is false:
`builds_agree_violated`. -/
theorem builds_agree_partial (cfg : Cfg) (prog : Program F) (n : Nat) (inp : List String)
    (hp : ∀ vm, runProgram cfg.checked prog n inp ≠ .panic vm) (hr : (runProgram cfg.checked prog n inp).vm.world.inp = inp) :
    runProgram cfg.release prog n inp = runProgram cfg.checked prog n inp := by
  have h0 : (VM.new inp : VM F).world.inp = inp := rfl
  have hle := (runImports_after cfg.checked prog n prog.imports 0 (VM.new inp)).shorter
  have hi := runImports_alike (cfg := cfg) (prog := prog) (n := n) prog.imports 0 (VM.new inp)
  have hr' := congrArg List.length hr
  unfold runProgram at hp hr' ⊢
  cases hc : runImports cfg.checked prog n 0 prog.imports (VM.new inp) with
  | done vm' =>
      rw [hc] at hp hr' hle hi
      simp only [Outcome.vm, h0] at hle
      simp only at hr' hp
      have h1 := (runModule_after cfg.checked prog n .main prog.main vm').shorter
      rw [hi ⟨fun _ e => (by cases e), by simp only [Outcome.vm, h0]; omega⟩]
      exact runModule_alike ⟨hp, by omega⟩
  | err s vm' => rw [hc] at hp hr' hi; rw [hi ⟨hp, by rw [h0]; exact hr'⟩]
  | panic vm' => rw [hc] at hp; exact absurd rfl (hp vm')
  | outOfFuel vm' => rw [hc] at hp hr' hi; rw [hi ⟨hp, by rw [h0]; exact hr'⟩]

end

/-- `mostra leia("")`. -/
def echoProgram : Program WholeFloat :=
  { main :=
      { name := "p", builtin := false, constants := [.str ""], names := ["leia"],
        code := [1, 0, 0, 38, 0, 0, 0, 0, 0, 0, 0, 0, 0, 0, 0, 0, 0, 0, 0, 0, 27, 1, 0, 255],
        main := { name := "_inicio_", startIp := 0, ip := 0, lastI := 0, bp := -1, locals := 0, module := .main },
        functions := [], registos := [], srcMap := [] },
    imports := [
      { name := "embutidos", builtin := true, constants := [], names := [], code := [255],
        main := { name := "_inicio_", startIp := 0, ip := 0, lastI := 0, bp := -1, locals := 0, module := .imported 0 },
        functions := [], registos := [], srcMap := [] }] }

/-- **C69, violated.** A program that ends on both machines shows the line it reads with the line feed on one of them. -/
theorem builds_agree_violated : ∃ (cfg : Cfg) (prog : Program WholeFloat) (n : Nat) (inp : List String) (a b : VM WholeFloat),
    runProgram cfg.checked prog n inp = .done a ∧ runProgram cfg.release prog n inp = .done b ∧
    a.world.out = "oi\n" ∧ b.world.out = "oi\n\n" := by
  have hc : ∀ o : Outcome WholeFloat, (match o with | .done _ => true | _ => false) = true → o = .done o.vm := by
    intro o h; cases o <;> first | rfl | cases h
  exact ⟨⟨false, fun _ => []⟩, echoProgram, 10, ["oi\n"], _, _, hc _ (by decide +kernel), hc _ (by decide +kernel),
    by decide +kernel, by decide +kernel⟩

/-- `-n` for the `n` given. -/
def negatingProgram (n : Int) : Program WholeFloat :=
  { main :=
      { name := "p", builtin := false, constants := [.int n], names := [], code := [1, 0, 0, 9, 0, 255],
        main := { name := "_inicio_", startIp := 0, ip := 0, lastI := 0, bp := -1, locals := 0, module := .main },
        functions := [], registos := [], srcMap := [] },
    imports := [] }

/-- Without debug assertions the program shows what it shows with them, also when there are lines to be read. -/
example : (runProgram (Cfg.release ⟨true, fun _ => []⟩) (negatingProgram 7) 10 ["linha\n"]).vm.world =
    ⟨[], "-7\n", ["linha\n"]⟩ := by
  rw [builds_agree_partial]
  · decide +kernel
  · have h : (match runProgram (Cfg.checked ⟨true, fun _ => []⟩) (negatingProgram 7) 10 ["linha\n"] with
        | .panic _ => false | _ => true) = true := by decide +kernel
    intro vm e
    rw [e] at h
    cases h
  · decide +kernel

/-- The smallest `int` cannot be negated: a panic on one machine, the same number on the other. -/
example : (match runProgram (Cfg.checked ⟨true, fun _ => []⟩) (negatingProgram (-2 ^ 63)) 10 [] with
      | .panic _ => true | _ => false) = true ∧
    (runProgram (Cfg.release ⟨true, fun _ => []⟩) (negatingProgram (-2 ^ 63)) 10 []).vm.world.out = "-9223372036854775808\n" := by
  decide +kernel

end Amanda

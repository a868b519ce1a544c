import Verif.GenLines
import Verif.VmFrames
import Verif.LinkImage
import Verif.Props.Correctness

/-!
# Lines in runtime errors (C25)
-/

namespace Amanda

namespace Lines

open Codegen Source Bson

/-! ## Specification -/

/-- The instruction at offset `o` of the code of `m` was appended while generating a node of line `l`. -/
def Written (ctx : GenCtx) (m : ModuleIn) (l : Int) (o : Nat) : Prop :=
  ∃ fin, genModule { ctx with modPath := m.path } m {} = .ok ((), fin) ∧ (l, o) ∈ fin.emitted

/-- A message of the machine that names line `n` for the instruction that failed. -/
def Tells (msg : String) (n : Nat) : Prop :=
  (∃ e, msg = "Erro na linha " ++ toString n ++ ": " ++ e) ∨
  (∃ rest, msg = "Fluxo de execução: \n" ++ ("    Linha " ++ toString n ++ ", na função " ++ rest))

/-- The nodes of the module are generated in the order of their lines. -/
def InOrder (m : ModuleIn) : Prop := ∃ q, walkSs m.body (-1) = some q

/-- The module the machine has loaded was compiled from `m`. -/
def LoadedFrom {F : Type} [FloatOps F] (ctx : GenCtx) (m : ModuleIn) (mod : Module F) : Prop :=
  m.builtin = false ∧ ∃ out, compileModule ctx m = .ok out ∧ Loaded out mod

/-! ## The machine -/

section
variable {F : Type} [FloatOps F]

set_option linter.unusedSectionVars false

/-- Errors are reported with the given frames. -/
def Says {α : Type} (prog : Program F) (f : AmaFunc) (fs : List AmaFunc) (c : ModRef) (r : Except (Stop F) α) : Prop :=
  ∀ msg vm', r = .error (.err msg vm') → ∃ vm e, AtFrame f fs c vm ∧ Stop.err msg vm' = throwErr prog vm e

variable {prog : Program F} {f : AmaFunc} {fs : List AmaFunc} {c : ModRef}

theorem Says.ok {α : Type} (a : α) : Says prog f fs c (.ok a : Except (Stop F) α) := fun _ _ h => nomatch h

theorem Says.panic {α : Type} (vm : VM F) : Says prog f fs c (.error (.panic vm) : Except (Stop F) α) := by
  intro _ _ h
  cases h

theorem Says.halt {α : Type} (vm : VM F) : Says prog f fs c (.error (.halt vm) : Except (Stop F) α) := by
  intro _ _ h
  cases h

theorem Says.throw {α : Type} {vm : VM F} (h : AtFrame f fs c vm) (e : String) :
    Says prog f fs c (.error (throwErr prog vm e) : Except (Stop F) α) :=
  fun _ _ h' => ⟨vm, e, h, (Except.error.inj h').symm⟩

theorem Says.bind {α β : Type} {x : Except (Stop F) α} {g : α → Except (Stop F) β} {P : α → Prop} (h : Says prog f fs c x)
    (hp : Post x P) (k : ∀ a, P a → Says prog f fs c (g a)) : Says prog f fs c (x >>= g) := by
  cases x with
  | error e => exact fun msg vm' h' => h msg vm' (by simpa [Bind.bind, Except.bind] using h')
  | ok a => exact fun msg vm' h' => k a (hp a rfl) msg vm' h'

theorem Says.bind' {α β : Type} {x : Except (Stop F) α} {g : α → Except (Stop F) β} (h : Says prog f fs c x)
    (k : ∀ a, Says prog f fs c (g a)) : Says prog f fs c (x >>= g) :=
  Says.bind (P := fun _ => True) h (fun _ _ => trivial) fun a _ => k a

theorem Says.lift {α : Type} {vm : VM F} (h : AtFrame f fs c vm) (r : Res α) : Says prog f fs c (r.lift prog vm) := by
  unfold Res.lift
  split
  · exact Says.ok _
  · exact Says.throw h _
  · exact Says.panic _

theorem Says.orPanic {α : Type} (o : Option α) (vm : VM F) : Says prog f fs c (orPanic o vm) := by
  unfold Amanda.orPanic
  split
  · exact Says.ok _
  · exact Says.panic _

theorem Says.push (vm : VM F) (v : Val F) : Says prog f fs c (vm.push v) := by
  unfold VM.push
  dsimp only
  split
  · exact Says.ok _
  · split
    · split
      · exact Says.panic _
      · exact Says.ok _
    · exact Says.ok _

theorem Says.pop (vm : VM F) : Says prog f fs c vm.pop := by
  unfold VM.pop
  dsimp only
  split
  · exact Says.bind' (Says.orPanic _ _) fun _ => Says.ok _
  · split
    · split
      · exact Says.panic _
      · exact Says.bind' (Says.orPanic _ _) fun _ => Says.ok _
    · exact Says.panic _

theorem Says.advance (vm : VM F) : Says prog f fs c vm.advance := by
  unfold VM.advance
  split
  · exact Says.panic _
  · exact Says.ok _

theorem Says.dropAbove (vm : VM F) : Says prog f fs c vm.dropAbove := by
  unfold VM.dropAbove
  split
  · exact Says.ok _
  · exact Says.panic _

theorem Says.nativeArgs (vm : VM F) (n : Nat) : Says prog f fs c (nativeArgs vm n) := by
  unfold Amanda.nativeArgs
  split
  · exact Says.bind' (Says.orPanic _ _) fun _ => Says.ok _
  · exact Says.ok _

theorem Says.prepareCall (vm : VM F) (g : AmaFunc) (n : Nat) : Says prog f fs c (prepareCall vm g n) := by
  unfold Amanda.prepareCall
  split
  · split
    · exact Says.panic _
    · exact Says.ok _
  · split <;> exact Says.ok _

theorem nativeArgs_frames {vm : VM F} (h : AtFrame f fs c vm) (n : Nat) :
    Post (nativeArgs vm n) fun p => AtFrame f fs c p.2 := by
  unfold nativeArgs
  refine Post.ite (fun _ => Post.bind' fun _ _ => Post.ok (h.of_eq rfl rfl)) fun _ => Post.ok h

/-- Proof step for goals `Says …`. -/
macro "says_steps" : tactic => `(tactic| repeat' first
  | exact Says.ok _
  | exact Says.panic _
  | exact Says.halt _
  | exact Says.throw (by assumption) _
  | exact Says.throw (AtFrame.of_eq (by assumption) rfl rfl) _
  | exact Says.push _ _
  | exact Says.advance _
  | (refine Says.bind (Says.push _ _) (AtFrame.push (by assumption) _) ?_; intro _ _; try dsimp only)
  | (refine Says.bind (Says.push _ _) (AtFrame.push (AtFrame.of_eq (by assumption) rfl rfl) _) ?_; intro _ _; try dsimp only)
  | (refine Says.bind (Says.pop _) (AtFrame.pop (by assumption)) ?_; rintro ⟨_, _⟩ _; try dsimp only at *)
  | (refine Says.bind (Says.pop _) (AtFrame.pop (AtFrame.of_eq (by assumption) rfl rfl)) ?_; rintro ⟨_, _⟩ _; try dsimp only at *)
  | (refine Says.bind (Says.dropAbove _) (AtFrame.dropAbove (by assumption)) ?_; intro _ _; try dsimp only)
  | (refine Says.bind (Says.dropAbove _) (AtFrame.dropAbove (AtFrame.of_eq (by assumption) rfl rfl)) ?_; intro _ _; try dsimp only)
  | (refine Says.bind' (Says.orPanic _ _) ?_; intro _; try dsimp only)
  | (refine Says.bind' (Says.lift (by assumption) _) ?_; intro _; try dsimp only)
  | split)

theorem says_exec (cfg : Cfg) (m : Module F) {vm : VM F} (h : AtFrame f fs c vm) {op : Op} (args : List Nat)
    (hop : op.isCallOrRet = false) : Says prog f fs c (exec cfg prog m vm op args) := by
  cases op <;> simp only [Op.isCallOrRet, Bool.true_eq_false] at hop <;>
    simp only [exec, execBin, execUnary, execIndexGet, execIndexSet, execBuildStr, execBuildVec,
      execBuildObj, execBuildVariant, execBindMatchArgs, execGetProp, execSetProp, execUnwrap,
      execCast, execHalt, operand, VM.top]
  all_goals says_steps

theorem says_native (cfg : Cfg) {vm : VM F} (h : AtFrame f fs c vm) (module name : String) (n : Nat) :
    Says prog f fs c (callNativeFn cfg prog vm module name n) := by
  unfold callNativeFn
  refine Says.bind (Says.nativeArgs _ _) (nativeArgs_frames h n) ?_
  rintro ⟨as, vm⟩ h
  dsimp only at h ⊢
  split
  next msg w _ => exact Says.throw (vm := { vm with world := w }) (h.of_eq rfl rfl) msg
  · exact Says.panic _
  · says_steps

theorem says_return {vm : VM F} : Says prog f fs c (execReturn vm) := by
  unfold execReturn
  refine Says.bind' (Says.pop _) ?_
  rintro ⟨v, vm⟩
  dsimp only
  split
  · exact Says.panic _
  · refine Says.bind' (Says.push _ _) fun vm => ?_
    split
    · exact Says.panic _
    · exact Says.ok _

theorem prepareCall_frames {vm : VM F} (h : AtFrame f fs c vm) (g : AmaFunc) (n : Nat) :
    Post (prepareCall vm g n) fun p => AtFrame f fs c p.2 := by
  unfold prepareCall
  refine Post.ite (fun _ => Post.ite (fun _ => Post.error) fun _ => Post.ok (h.of_eq rfl rfl)) fun _ =>
    Post.ite (fun _ => Post.ok (h.of_eq rfl rfl)) fun _ => Post.ok h

/-- A call fails at the limit only. -/
theorem says_call {vm : VM F} (h : AtFrame f fs c vm) (g : AmaFunc) (n : Nat) (hd : fs.length + 1 ≠ recursionLimit) :
    Says prog f fs c (callAma prog vm g n) := by
  unfold callAma
  refine Says.bind (Says.prepareCall _ _ _) (prepareCall_frames h g n) ?_
  rintro ⟨g, vm⟩ h
  dsimp only at h ⊢
  refine Says.bind (Says.advance _) (AtFrame.advance h) ?_
  intro vm h
  have hl : (switchModule g vm).frames.length = fs.length + 1 := by
    obtain ⟨ip, h1, -⟩ := h
    unfold switchModule
    split <;> simp [h1]
  rw [hl, if_neg hd]
  exact Says.ok _

theorem throwErr_tells {vm vm' : VM F} {msg e : String} (h : AtFrame f fs c vm)
    (ht : Stop.err msg vm' = throwErr prog vm e) :
    ∃ m n, prog.get c = some m ∧ offsetToLine f.lastI m.srcMap = some n ∧ Tells msg n := by
  obtain ⟨ip, h1, h2⟩ := h
  unfold throwErr at ht
  rw [h2, h1] at ht
  split at ht
  · cases ht
  next m hm =>
    split at ht
    · cases ht
    next s hs =>
      obtain ⟨rfl, -⟩ := Stop.err.inj ht
      cases fs with
      | nil =>
          simp only [traceLines, Option.bind_eq_bind, Option.bind_eq_some_iff, Option.some.injEq] at hs
          obtain ⟨n, hn, rfl⟩ := hs
          exact ⟨m, n, hm, hn, .inl ⟨e ++ ".", by simp [String.append_assoc]⟩⟩
      | cons g gs =>
          simp only [traceLines, Option.bind_eq_bind, Option.bind_eq_some_iff, Option.some.injEq] at hs
          obtain ⟨n, hn, r, hr, rfl⟩ := hs
          exact ⟨m, n, hm, hn, .inr ⟨f.name ++ "\n" ++ r, by simp [String.append_assoc]⟩⟩

/-- The machine is at a call with all its frames in use. -/
def AtLimit (prog : Program F) (vm : VM F) : Prop :=
  vm.frames.length = 1000 ∧ ∃ m f fs args ipEnd, prog.get vm.ctx = some m ∧ vm.frames = f :: fs ∧
    fetch m.code f.ip = some (.callFunction, args, ipEnd)

/-- **C25, the machine.**  The line an error names is the one the source map of the current module has for
the instruction that failed; only a call with all frames in use may use the map of another module. -/
theorem failing_line (cfg : Cfg) (prog : Program F) {vm vm' : VM F} {msg : String}
    (h : step cfg prog vm = .error (.err msg vm')) :
    AtLimit prog vm ∨ ∃ m f fs n, prog.get vm.ctx = some m ∧ vm.frames = f :: fs ∧
      offsetToLine f.ip m.srcMap = some n ∧ Tells msg n := by
  unfold step at h
  split at h
  next m f fs hm hf =>
    split at h
    next op args ipEnd hi =>
      have hat : AtFrame { f with lastI := f.ip } fs vm.ctx
          { vm with frames := { f with lastI := f.ip, ip := ipEnd } :: fs } := ⟨ipEnd, rfl, rfl⟩
      have fin : Says prog { f with lastI := f.ip } fs vm.ctx
          (exec cfg prog m { vm with frames := { f with lastI := f.ip, ip := ipEnd } :: fs } op args) →
          ∃ m f fs n, prog.get vm.ctx = some m ∧ vm.frames = f :: fs ∧ offsetToLine f.ip m.srcMap = some n ∧ Tells msg n := by
        intro hs
        obtain ⟨vm1, e, h1, h2⟩ := hs msg vm' h
        obtain ⟨m', n, h3, h4, h5⟩ := throwErr_tells h1 h2
        exact ⟨m', f, fs, n, h3, hf, h4, h5⟩
      by_cases hop : op.isCallOrRet = false
      · exact .inr (fin (says_exec cfg m hat args hop))
      · cases op <;> simp [Op.isCallOrRet] at hop
        · by_cases hd : fs.length + 1 = recursionLimit
          · exact .inl ⟨by rw [hf]; exact hd, m, f, fs, args, ipEnd, hm, hf, hi⟩
          · refine .inr (fin ?_)
            simp only [exec, operand, execCall]
            refine Says.bind' (Says.orPanic _ _) fun n => ?_
            refine Says.bind (Says.pop _) (AtFrame.pop hat) ?_
            rintro ⟨g, vm⟩ hvm
            dsimp only at hvm ⊢
            split
            · exact says_call hvm _ _ hd
            · exact says_native cfg hvm _ _ _
            · exact Says.panic _
        · exact .inr (fin (by simp only [exec]; exact says_return))
    · cases h
  · cases h

/-! ## The map -/

theorem compiled_history {ctx : GenCtx} {m : ModuleIn} {mod : Module F} (h : LoadedFrom ctx m mod) :
    ∃ fin src, genModule { ctx with modPath := m.path } m {} = .ok ((), fin) ∧ Rising fin.emitted ∧ flattenSrc (notes fin.emitted []) = .ok src ∧
      (∀ n ∈ src, InI64 n) ∧ mod.srcMap = src.map asUsize ∧ writeAll fin.labels fin.ops = .ok mod.code ∧
      fin.emitted.map Prod.snd = starts 0 fin.ops := by
  obtain ⟨hb, out, hc, hl⟩ := h
  unfold compileModule at hc
  rw [hb] at hc
  simp only [Bool.false_eq_true, ↓reduceIte] at hc
  cases hg : genModule { ctx with modPath := m.path } m {} with
  | error e => rw [hg] at hc; cases hc
  | ok p =>
      obtain ⟨⟨⟩, fin⟩ := p
      rw [hg] at hc
      simp only [finish, except_bind_eq_ok] at hc
      obtain ⟨code, h1, src, h2, h3⟩ := hc
      cases Except.ok.inj h3
      obtain ⟨hh, -⟩ := module_history hg
      refine ⟨fin, src, rfl, hh.rising, by rw [← hh.map]; exact h2, hl.srcInts, hl.src, ?_, hh.at_⟩
      rw [hl.code]
      cases hw : writeAll fin.labels fin.ops with
      | error e => rw [hw] at h1; cases h1
      | ok c => rw [hw] at h1; cases h1; rfl

theorem mem_starts {ip o : Nat} {is : List Ins} : o ∈ starts ip is ↔ ∃ k, k < is.length ∧ o = ip + codeSize (is.take k) := by
  induction is generalizing ip with
  | nil => simp [starts]
  | cons i is ih =>
      simp only [starts, List.mem_cons, ih]
      constructor
      · rintro (rfl | ⟨k, h1, rfl⟩)
        · exact ⟨0, by simp, by simp⟩
        · exact ⟨k + 1, by simp; omega, by simp; omega⟩
      · rintro ⟨k, h1, rfl⟩
        cases k with
        | zero => exact .inl (by simp)
        | succ k => exact .inr ⟨k, by simpa using h1, by simp; omega⟩

/-- Every instruction of the code, and nothing else, is written for some line. -/
theorem written_everywhere {ctx : GenCtx} {m : ModuleIn} {mod : Module F} (hm : LoadedFrom ctx m mod) :
    ∃ labels ops, writeAll labels ops = .ok mod.code ∧
      ∀ o, (∃ l, Written ctx m l o) ↔ ∃ k, k < ops.length ∧ o = codeSize (ops.take k) := by
  obtain ⟨fin, src, hg, -, -, -, -, hw, hs⟩ := compiled_history hm
  refine ⟨fin.labels, fin.ops, hw, fun o => ?_⟩
  have := mem_starts (ip := 0) (o := o) (is := fin.ops)
  rw [← hs] at this
  simp only [Nat.zero_add] at this
  rw [← this]
  constructor
  · rintro ⟨l, fin', hg', hx⟩
    rw [hg] at hg'
    cases hg'
    exact List.mem_map_of_mem (f := Prod.snd) hx
  · intro h
    obtain ⟨⟨l, x⟩, hx, rfl⟩ := List.mem_map.1 h
    exact ⟨l, fin, hg, hx⟩

/-- **C25, the map.**  At every instruction written for a line other than 0 the machine finds, among the lines
with instructions before and after it (or there), the line whose first instruction comes first. -/
theorem found_line {ctx : GenCtx} {m : ModuleIn} {mod : Module F} (hm : LoadedFrom ctx m mod) {l : Int} {o : Nat}
    (hw : Written ctx m l o) (hl : l ≠ 0) :
    ∃ k a b, k ≠ 0 ∧ Written ctx m k a ∧ Written ctx m k b ∧ a ≤ o ∧ o ≤ b ∧
      offsetToLine o mod.srcMap = some (asUsize k) ∧
      ∀ k' a' b', k' ≠ 0 → Written ctx m k' a' → Written ctx m k' b' → a' ≤ o → o ≤ b' →
        ∃ x, Written ctx m k x ∧ ∀ y, Written ctx m k' y → x ≤ y := by
  obtain ⟨fin, src, hg, hr, hf, hi, hs, -, -⟩ := compiled_history hm
  have hW : ∀ k x, Written ctx m k x ↔ (k, x) ∈ fin.emitted := by
    intro k x
    constructor
    · rintro ⟨fin', hg', hx⟩
      rw [hg] at hg'
      cases hg'
      exact hx
    · exact fun hx => ⟨fin, hg, hx⟩
  simp only [hW] at hw ⊢
  rw [hs]
  rcases line_found hr hf hi o with ⟨k, hk, ⟨a, b, h1, h2, h3, h4⟩, hfirst, hres⟩ | ⟨hno, -⟩
  · exact ⟨k, a, b, hk, h1, h2, h3, h4, hres, fun k' a' b' hk' g1 g2 g3 g4 => hfirst k' hk' ⟨a', b', g1, g2, g3, g4⟩⟩
  · exact absurd ⟨o, o, hw, hw, Nat.le_refl _, Nat.le_refl _⟩ (hno l hl)

/-- Every instruction is written for one line. -/
theorem written_once {ctx : GenCtx} {m : ModuleIn} {mod : Module F} (hm : LoadedFrom ctx m mod) {k l : Int} {o : Nat}
    (h1 : Written ctx m k o) (h2 : Written ctx m l o) : k = l := by
  obtain ⟨fin, src, hg, hr, -⟩ := compiled_history hm
  obtain ⟨f1, g1, h1⟩ := h1
  obtain ⟨f2, g2, h2⟩ := h2
  rw [hg] at g1 g2
  cases g1
  cases g2
  unfold Rising at hr
  by_contra hne
  rcases List.getElem_of_mem h1 with ⟨i, hi, e1⟩
  rcases List.getElem_of_mem h2 with ⟨j, hj, e2⟩
  rw [List.pairwise_iff_getElem] at hr
  rcases Nat.lt_trichotomy i j with h | h | h
  · have := hr i j hi hj h; rw [e1, e2] at this; simp at this
  · subst h; rw [e1] at e2; cases e2; exact hne rfl
  · have := hr j i hj hi h; rw [e1, e2] at this; simp at this

/-- In a module generated in the order of its lines, the instructions of a line are found at that line. -/
theorem found_in_order {ctx : GenCtx} {m : ModuleIn} {mod : Module F} (hm : LoadedFrom ctx m mod) (ho : InOrder m)
    {L o : Nat} (hw : Written ctx m L o) (hL : 1 ≤ L) : offsetToLine o mod.srcMap = some L := by
  obtain ⟨fin, src, hg, hr, hf, hi, hs, -, -⟩ := compiled_history hm
  obtain ⟨k, a, b, hk, h1, h2, h3, h4, h5, -⟩ := found_line hm hw (by omega)
  have hin : ∀ k x, Written ctx m k x → (k, x) ∈ fin.emitted := by
    rintro k x ⟨fin', hg', hx⟩
    rw [hg] at hg'
    cases hg'
    exact hx
  have hkl : k = (L : Int) := by
    obtain ⟨-, log, o', hlog, hsorted⟩ := module_history hg
    obtain ⟨q, hq⟩ := ho
    have hsorted := hsorted q hq
    have mem : ∀ l x, l ≠ 0 → Written ctx m l x → (l, x) ∈ log := by
      intro l x hl hx
      have := hin l x hx
      rw [hlog, List.mem_append, List.mem_singleton] at this
      rcases this with h | h
      · exact h
      · exact absurd (Prod.mk.inj h).1 hl
    have hr' : log.Pairwise fun p q => p.2 < q.2 := by
      unfold Rising at hr
      rw [hlog, List.pairwise_append] at hr
      exact hr.1
    have cmp : ∀ p ∈ log, ∀ q ∈ log, p.2 ≤ q.2 → p.1 ≤ q.1 := by
      intro p hp q hq hle
      obtain ⟨i, hi, rfl⟩ := List.getElem_of_mem hp
      obtain ⟨j, hj, rfl⟩ := List.getElem_of_mem hq
      rw [List.pairwise_iff_getElem] at hr' hsorted
      rcases Nat.lt_trichotomy i j with h | h | h
      · exact hsorted i j hi hj h
      · subst h; exact Int.le_refl _
      · have := hr' j i hj hi h; omega
    have c1 := cmp _ (mem k a hk h1) _ (mem L o (by omega) hw) h3
    have c2 := cmp _ (mem L o (by omega) hw) _ (mem k b hk h2) h4
    simp only at c1 c2
    omega
  subst hkl
  rw [h5]
  have := hi L (line_mem hr hf (hin L o hw) (by omega))
  unfold InI64 at this
  unfold asUsize
  congr 1
  omega

/-- **C25.**  In a module whose nodes are generated in the order of their lines, an error names the line of the
instruction that failed.  The full claim would not need `InOrder` and would cover calls with all frames in use;
it is false, see `revisited_line_wrong` and `runtime_line_violated`. -/
theorem runtime_line_partial (cfg : Cfg) (prog : Program F) {vm vm' : VM F} {msg : String} {ctx : GenCtx} {m : ModuleIn}
    {mod : Module F} {f : AmaFunc} {fs : List AmaFunc} {L : Nat}
    (h : step cfg prog vm = .error (.err msg vm')) (hd : vm.frames.length < 1000)
    (hget : prog.get vm.ctx = some mod) (hm : LoadedFrom ctx m mod) (ho : InOrder m)
    (hf : vm.frames = f :: fs) (hw : Written ctx m L f.ip) (hL : 1 ≤ L) : Tells msg L := by
  rcases failing_line cfg prog h with ⟨hlim, -⟩ | ⟨m', f', fs', n, g1, g2, g3, g4⟩
  · omega
  · rw [hget] at g1
    cases g1
    rw [hf] at g2
    cases g2
    rw [found_in_order hm ho hw hL] at g3
    cases g3
    exact g4

/-- **C25, where it fails.**  If code of another line `M` comes between two pieces of code of line `L`, and `M` had
no code before the first of them, then no error in that code of `M` is looked up as one in line `M`. -/
theorem revisited_line_wrong {ctx : GenCtx} {m : ModuleIn} {mod : Module F} (hm : LoadedFrom ctx m mod) {L M a b c : Nat}
    (hL : Written ctx m L a) (hM : Written ctx m M b) (hL' : Written ctx m L c) (hab : a ≤ b) (hbc : b ≤ c)
    (h1 : 1 ≤ L) (h2 : 1 ≤ M) (hnew : ∀ x, Written ctx m M x → a < x) : offsetToLine b mod.srcMap ≠ some M := by
  obtain ⟨fin, src, hg, hr, hf, hi, hs, -, -⟩ := compiled_history hm
  obtain ⟨k, x, y, hk, g1, g2, g3, g4, g5, g6⟩ := found_line hm hM (by omega)
  rw [g5]
  intro he
  have hin : ∀ k x, Written ctx m k x → (k, x) ∈ fin.emitted := by
    rintro k x ⟨fin', hg', hx⟩
    rw [hg] at hg'
    cases hg'
    exact hx
  have i1 := hi k (line_mem hr hf (hin k x g1) hk)
  have i2 := hi M (line_mem hr hf (hin M b hM) (by omega))
  have he := Option.some.inj he
  have hkM : k = (M : Int) := by
    unfold InI64 at i1 i2
    unfold asUsize at he
    omega
  subst hkM
  obtain ⟨z, hz, hle⟩ := g6 L a c (by omega) hL hL' hab hbc
  have := hnew z hz
  have := hle a hL
  omega

end

/-! ## Programs -/

/-- An integer literal on a line. -/
def num (line : Nat) (s : String) : TExpr := .const line s .unknown

/-- A division by zero on a line. -/
def divZero (line : Nat) : TExpr := .bin line .slash (num line "1") (num line "0") .int .int .unknown

/-- `para i de 0..3 faca` on line 1, perhaps with `inc`, and `mostra 1 / 0` on line 2. -/
def loopProg (inc : Option TExpr) : Prog where
  env := { syms := [loc "/m.ama" "i" "_r12_"], scopes := [⟨[], none⟩, ⟨[("i", 0)], some 0⟩] }
  builtinPath := "/embutidos.ama"
  library := fun _ => ""
  imports := []
  main := { path := "/m.ama", builtin := false, scope := 0
            body := [.para 1 "i" (num 1 "0") (num 1 "3") inc (.mk 1 [.mostra 2 (divZero 2)])] }

/-- `mostra 1` on line 1, `mostra 1 / 0` on line 2 and `mostra f"{1}"` on line 3: the literal inside the text
is on line 1, since the parser starts anew on the text in braces (`parse_fstr_expr`, parse.py:1151-1193). -/
def fmtProg (inner : Nat) : Prog where
  env := { syms := [], scopes := [⟨[], none⟩] }
  builtinPath := "/embutidos.ama"
  library := fun _ => ""
  imports := []
  main := { path := "/m.ama", builtin := false, scope := 0
            body := [.mostra 1 (num 1 "1"), .mostra 2 (divZero 2), .mostra 3 (.fmtStr 3 [num inner "1"])] }

/-- A module with a function on lines 4 to 6 that fails on line 6, and a main program calling it on line 2. -/
def callProg : Prog where
  env := { syms := [glob "/u.ama" "f" .func], scopes := [⟨[("f", 0)], none⟩, ⟨[], some 0⟩, ⟨[], none⟩] }
  builtinPath := "/embutidos.ama"
  library := fun _ => ""
  imports := [{ path := "/u.ama", builtin := false, scope := 0
                body := [.func 4 0 (.mk 1 [.mostra 5 (num 5 "1"), .mostra 6 (divZero 6)])] }]
  main := { path := "/m.ama", builtin := false, scope := 2
            body := [.expr (.call 2 (.var 2 "f" (some 0) .unknown) [] 0 .unknown)] }

/-- The settings for the main module of a program. -/
def ctxOf (P : Prog) : GenCtx :=
  { env := P.env, modPath := P.main.path, builtinPath := P.builtinPath, modules := P.imports.map ModuleIn.path }

/-- The history of a module. -/
def historyOf (ctx : GenCtx) (m : ModuleIn) : List (Int × Nat) :=
  match genModule { ctx with modPath := m.path } m {} with
  | .ok (_, s) => s.emitted
  | .error _ => []

theorem written_iff {ctx : GenCtx} {m : ModuleIn} {l : Int} {o : Nat} : Written ctx m l o ↔ (l, o) ∈ historyOf ctx m := by
  unfold Written historyOf
  constructor
  · rintro ⟨fin, h1, h2⟩
    rw [h1]
    exact h2
  · intro h
    cases hg : genModule { ctx with modPath := m.path } m {} with
    | error e => rw [hg] at h; cases h
    | ok p =>
        obtain ⟨⟨⟩, fin⟩ := p
        rw [hg] at h
        exact ⟨fin, rfl, h⟩

/-- Where a program fails: the state before the failing instruction and the message. -/
def failure (cfg : Cfg) (prog : Program WholeFloat) : Nat → VM WholeFloat → Option (VM WholeFloat × String)
  | 0, _ => none
  | fuel + 1, vm =>
      match step cfg prog vm with
      | .ok vm' => failure cfg prog fuel vm'
      | .error (.err msg _) => some (vm, msg)
      | .error _ => none

/-- The image of a program without imports, and where it fails: the offset of the failing instruction in the main
module, and the message. -/
def failureOf (P : Prog) (fuel : Nat) : Option (List Nat × String) :=
  match compileProgram P.env P.builtinPath P.main P.imports with
  | .error _ => none
  | .ok image =>
      match Bson.loadImage image with
      | .error _ => none
      | .ok d =>
          match (loadProgram d : Option (Program WholeFloat)) with
          | none => none
          | some prog => (failure plainCfg prog fuel (enter .main prog.main (VM.new []))).map
              fun r => (r.1.frames.map AmaFunc.ip, r.2)

/-- **C25 is false.**  With an explicit `inc`, an error in the body of a `para` loop is reported on the line of the
loop: the instruction that fails was written for line 2 only. -/
theorem runtime_line_violated :
    failureOf (loopProg (some (num 1 "1"))) 100 = some ([28], "Erro na linha 1: não pode dividir um número por zero.") ∧
    (∀ l, Written (ctxOf (loopProg (some (num 1 "1")))) (loopProg (some (num 1 "1"))).main l 28 ↔ l = 2) := by
  refine ⟨by decide +kernel, fun l => ?_⟩
  rw [written_iff, show historyOf (ctxOf (loopProg (some (num 1 "1")))) (loopProg (some (num 1 "1"))).main =
    [(1, 0), (1, 3), (1, 6), (1, 9), (1, 12), (1, 13), (2, 22), (2, 25), (2, 28), (2, 29), (1, 30), (1, 33), (1, 36),
     (1, 37), (1, 40), (0, 49)] from by decide +kernel]
  simp

/-- **C25 is false.**  After a statement on line 1, a text with a value in braces further down moves every error
between the two to line 1. -/
theorem text_line_violated :
    failureOf (fmtProg 1) 100 = some ([10], "Erro na linha 1: não pode dividir um número por zero.") ∧
    (∀ l, Written (ctxOf (fmtProg 1)) (fmtProg 1).main l 10 ↔ l = 2) := by
  refine ⟨by decide +kernel, fun l => ?_⟩
  rw [written_iff, show historyOf (ctxOf (fmtProg 1)) (fmtProg 1).main =
    [(1, 0), (1, 3), (2, 4), (2, 7), (2, 10), (2, 11), (1, 12), (1, 15), (1, 17), (0, 18)] from by decide +kernel]
  simp

/-- **C25 is false** for the calls an error went through: they are looked up in the map of the module of the innermost
call.  Here the main program has nothing but line 2 (and the `HALT`), and is said to have failed on line 6. -/
theorem caller_line_violated :
    machineEnd callProg 100 = some (.exited 1 "1\n"
      "Fluxo de execução: \n    Linha 6, na função f\nErro na linha 6: não pode dividir um número por zero.") ∧
    ∀ l o, Written (ctxOf callProg) callProg.main l o → l = 2 ∨ l = 0 := by
  refine ⟨by decide +kernel, fun l o h => ?_⟩
  rw [written_iff, show historyOf (ctxOf callProg) callProg.main = [(2, 0), (2, 17), (0, 19)] from by decide +kernel] at h
  simp only [List.mem_cons, Prod.mk.injEq, List.not_mem_nil, or_false] at h
  omega

/-! ### Instances -/

/-- The module a program without imports is loaded as. -/
theorem loaded_main {P : Prog} {image : Bytes} (h : compileProgram P.env P.builtinPath P.main P.imports = .ok image)
    (hb : P.main.builtin = false)
    (hl : ∀ m ∈ P.imports ++ [P.main], ∀ out, compileModule (ctxOf P) m = .ok out → ∀ c ∈ out.consts, Loads c) :
    ∃ d, ∃ prog : Program WholeFloat, loadImage image = .ok d ∧ loadProgram d = some prog ∧
      LoadedFrom (ctxOf P) P.main prog.main := by
  obtain ⟨d, prog, h1, h2, h3⟩ := load_ok (F := WholeFloat) h hl
  exact ⟨d, prog, h1, h2, hb, h3.main⟩

/-- A loop without `inc` is generated in the order of its lines, … -/
example : InOrder (loopProg none).main := ⟨2, by decide +kernel⟩

/-- … and its error is reported on the line of the division: the instance of `runtime_line_partial`. -/
example : failureOf (loopProg none) 100 = some ([28], "Erro na linha 2: não pode dividir um número por zero.") ∧
    Written (ctxOf (loopProg none)) (loopProg none).main 2 28 :=
  ⟨by decide +kernel, written_iff.2 (by decide +kernel)⟩

/-- With `inc` it is not, … -/
example : ¬ InOrder (loopProg (some (num 1 "1"))).main := by
  rintro ⟨q, hq⟩
  rw [show walkSs (loopProg (some (num 1 "1"))).main.body (-1) = none from by decide +kernel] at hq
  cases hq

/-- … and meets the hypotheses of `revisited_line_wrong`: line 1 at 0 and 30, line 2 at 28. -/
example : let P := loopProg (some (num 1 "1"))
    Written (ctxOf P) P.main (1 : Nat) 0 ∧ Written (ctxOf P) P.main (2 : Nat) 28 ∧ Written (ctxOf P) P.main (1 : Nat) 30 ∧
    ∀ x, Written (ctxOf P) P.main (2 : Nat) x → 0 < x := by
  refine ⟨written_iff.2 (by decide +kernel), written_iff.2 (by decide +kernel), written_iff.2 (by decide +kernel), ?_⟩
  intro x hx
  rw [written_iff, show historyOf (ctxOf (loopProg (some (num 1 "1")))) (loopProg (some (num 1 "1"))).main =
    [(1, 0), (1, 3), (1, 6), (1, 9), (1, 12), (1, 13), (2, 22), (2, 25), (2, 28), (2, 29), (1, 30), (1, 33), (1, 36),
     (1, 37), (1, 40), (0, 49)] from by decide +kernel] at hx
  simp only [List.mem_cons, Prod.mk.injEq, List.not_mem_nil, or_false] at hx
  omega

/-- A text in braces on its own line keeps the order. -/
example : failureOf (fmtProg 3) 100 = some ([10], "Erro na linha 2: não pode dividir um número por zero.") ∧
    InOrder (fmtProg 3).main ∧ ¬ InOrder (fmtProg 1).main := by
  refine ⟨by decide +kernel, ⟨3, by decide +kernel⟩, ?_⟩
  rintro ⟨q, hq⟩
  rw [show walkSs (fmtProg 1).main.body (-1) = none from by decide +kernel] at hq
  cases hq


end Lines

end Amanda

import Verif.VmCalls
import Verif.FloatModel

/-!
# C16-C18: value stack, calls, recursion limit
-/

namespace Amanda

variable {F : Type}

/-! ## C16 -/

/-- Operations on a stack. -/
inductive StackOp (F : Type) where
  | push (v : Val F)
  | pop

/-- A stack, top first: the values popped in order and the final stack; `none` when an
empty stack is popped. -/
def listStack : List (StackOp F) → List (Val F) → Option (List (Val F) × List (Val F))
  | [], s => some ([], s)
  | .push v :: ops, s => listStack ops (v :: s)
  | .pop :: _, [] => none
  | .pop :: ops, v :: s => (listStack ops s).map fun (out, s') => (v :: out, s')

/-- The same operations on the machine (`op_push`, `op_pop`, vm.rs:109-131). -/
def vmStack : List (StackOp F) → VM F → Except (Stop F) (List (Val F) × VM F)
  | [], vm => .ok ([], vm)
  | .push v :: ops, vm => do
      let vm ← vm.push v
      vmStack ops vm
  | .pop :: ops, vm => do
      let (v, vm) ← vm.pop
      let (out, vm) ← vmStack ops vm
      .ok (v :: out, vm)

/-- C16. Whatever lies above the stack pointer, any sequence of pushes and pops on the
machine's value stack pops what the same sequence pops from a list, ends with the list's
contents, touches nothing but the stack, and panics only where the list is empty. -/
theorem value_stack_is_lifo (ops : List (StackOp F)) (vm : VM F) (s : List (Val F))
    (h : Live vm s.reverse) :
    match listStack ops s with
    | some (out, s') => ∃ vm', vmStack ops vm = .ok (out, vm') ∧ Live vm' s'.reverse ∧
        vm'.frames = vm.frames ∧ vm'.globals = vm.globals ∧ vm'.world = vm.world ∧
        vm'.ctx = vm.ctx
    | none => ∃ vm', vmStack ops vm = .error (.panic vm') := by
  induction ops generalizing vm s with
  | nil => simpa [listStack, vmStack] using h
  | cons op ops ih =>
      cases op with
      | push v =>
          obtain ⟨values, e, h'⟩ := h.push v
          have h2 := ih _ (v :: s) (by simpa using h')
          simp only [listStack, vmStack, e, except_bind_ok]
          exact h2
      | pop =>
          cases s with
          | nil =>
              simp only [listStack, vmStack]
              exact ⟨vm, by simp [Live.pop_empty (by simpa using h)]⟩
          | cons v s =>
              obtain ⟨values, e, h'⟩ := Live.pop (l := s.reverse) (v := v) (by simpa using h)
              have h2 := ih _ s h'
              simp only [listStack, vmStack, e, except_bind_ok]
              rcases hs : listStack ops s with _ | ⟨out, s'⟩
              · rw [hs] at h2
                obtain ⟨vm', e'⟩ := h2
                exact ⟨vm', by simp [e']⟩
              · rw [hs] at h2
                obtain ⟨vm', e', h3⟩ := h2
                exact ⟨vm', by simp [e'], h3⟩

/-- A stack with garbage above it, as a returned call leaves it. -/
def exampleStack : VM WholeFloat :=
  { frames := [], values := [.int 1, .int 2, .int 77, .int 78], sp := 1, ctx := .main,
    globals := [], world := ⟨[], "", []⟩ }

example : Live exampleStack [Val.int 1, .int 2] := ⟨rfl, [.int 77, .int 78], rfl⟩

example : listStack [.pop, .push (.int 5), .push (.int 6), .pop, .pop, .pop]
    [(Val.int 2 : Val WholeFloat), .int 1] = some ([.int 2, .int 6, .int 5, .int 1], []) := rfl

/-! ## C18 -/

section
variable [FloatOps F]

/-- Executions: finitely many instructions. -/
inductive Steps (cfg : Cfg) (prog : Program F) : VM F → VM F → Prop
  | refl (vm : VM F) : Steps cfg prog vm vm
  | step {vm vm' vm'' : VM F} : step cfg prog vm = .ok vm' → Steps cfg prog vm' vm'' →
      Steps cfg prog vm vm''

theorem step_frames_le {cfg : Cfg} {prog : Program F} {vm vm' : VM F}
    (h : step cfg prog vm = .ok vm') (hl : vm.frames.length ≤ 1000) :
    vm'.frames.length ≤ 1000 := by
  obtain ⟨f, fs, m, op, args, ipEnd, hn⟩ := step_ok_next h
  rw [step_eq hn] at h
  have hf := hn.frames
  have ha : AtFrame { f with lastI := f.ip } fs vm.ctx (vm.reading f fs ipEnd) :=
    ⟨ipEnd, rfl, rfl⟩
  rw [hf] at hl
  simp at hl
  by_cases hc : op = .callFunction
  · subst hc
    rcases exec_call_frames cfg prog m ha args vm' h with ⟨ip, h1, _⟩ | ⟨g, ip, h1, h2⟩
    · simp [h1]; omega
    · simp only [recursionLimit] at h2
      simp [h1]; omega
  · by_cases hr : op = .ret
    · subst hr
      obtain ⟨h1, _⟩ := exec_ret_frames cfg prog m ha args vm' h
      rw [h1]; omega
    · obtain ⟨ip, h1, _⟩ := exec_frames cfg prog m ha
        (by cases op <;> simp_all [Op.isCallOrRet]) args vm' h
      simp [h1]; omega

/-- C18, bound. However long a program runs, it never has more than 1000 active frames.
`enter` is where every module starts (vm.rs:103-107, 174-176). -/
theorem frames_bounded (cfg : Cfg) (prog : Program F) (ref : ModRef) (m : Module F)
    (vm0 vm : VM F) (h : Steps cfg prog (enter ref m vm0) vm) : vm.frames.length ≤ 1000 := by
  have key : ∀ {a b : VM F}, Steps cfg prog a b → a.frames.length ≤ 1000 →
      b.frames.length ≤ 1000 := by
    intro a b hs
    induction hs with
    | refl => exact id
    | step h1 _ ih => exact fun ha => ih (step_frames_le h1 ha)
  exact key h (by simp [enter])

omit [FloatOps F] in
theorem offsetToLine_isSome : ∀ (n off : Nat) (l : List Nat), l.length = 3 * n →
    ∃ x, offsetToLine off l = some x
  | 0, off, l, h => by
      have : l = [] := List.length_eq_zero_iff.1 (by omega)
      subst this
      exact ⟨0, rfl⟩
  | n + 1, off, l, h => by
      match l, h with
      | s :: e :: li :: rest, h =>
          simp only [offsetToLine]
          split
          · exact ⟨li, rfl⟩
          · exact offsetToLine_isSome n off rest (by simp at h; omega)
      | [], h => simp at h
      | [_], h => simp at h; omega
      | [_, _], h => simp at h; omega

omit [FloatOps F] in
theorem traceLines_ends (srcMap : List Nat) (error : String) (n : Nat) (h : srcMap.length = 3 * n) :
    ∀ (fs : List AmaFunc), fs ≠ [] → ∃ pre, traceLines srcMap error fs = some (pre ++ error ++ ".")
  | [], hne => absurd rfl hne
  | [f], _ => by
      obtain ⟨x, hx⟩ := offsetToLine_isSome n f.lastI srcMap h
      exact ⟨"Erro na linha " ++ toString x ++ ": ", by simp [traceLines, hx]⟩
  | f :: g :: fs, _ => by
      obtain ⟨x, hx⟩ := offsetToLine_isSome n f.lastI srcMap h
      obtain ⟨pre, hp⟩ := traceLines_ends srcMap error n h (g :: fs) (by simp)
      exact ⟨"    Linha " ++ toString x ++ ", na função " ++ f.name ++ "\n" ++ pre, by
        simp [traceLines, hx, hp, String.append_assoc]⟩

omit [FloatOps F] in
/-- Every raised error is reported with its message at the end, in every module whose line
table has whole entries (as the generator writes it, codegen.py:291-296). -/
theorem throwErr_reports (prog : Program F) (vm : VM F) (m : Module F) (error : String)
    (hm : prog.get vm.ctx = some m) (n : Nat) (hs : m.srcMap.length = 3 * n)
    (hf : vm.frames ≠ []) : ∃ pre, throwErr prog vm error = .err (pre ++ error ++ ".") vm := by
  obtain ⟨pre, hp⟩ := traceLines_ends m.srcMap error n hs vm.frames hf
  exact ⟨(if vm.frames.length > 1 then "Fluxo de execução: \n" else "") ++ pre, by
    simp [throwErr, hm, hp, String.append_assoc]⟩

/-- C18, report. A call of a program function from the thousandth frame stops the program
with the recursion-limit error and no effect on output, storage or globals; from any
shallower depth the call succeeds. `m'` is the module of the called function. -/
theorem call_at_limit_reported (cfg : Cfg) (prog : Program F) {vm : VM F} {f g : AmaFunc}
    {fs : List AmaFunc} {m m' : Module F} {base a : List (Val F)} {ipEnd n : Nat}
    (hn : NextIns prog vm f fs m .callFunction [a.length] ipEnd)
    (hl : Live vm (base ++ a ++ [.func g])) (ha : a.length ≤ g.locals)
    (hm : prog.get (calleeCtx g vm.ctx) = some m') (hs : m'.srcMap.length = 3 * n) :
    (vm.frames.length = 1000 → ∃ pre vm', step cfg prog vm =
        .error (.err (pre ++ "Limite máximo de recursão atingido" ++ ".") vm') ∧
        vm'.world = vm.world ∧ vm'.globals = vm.globals) ∧
    (vm.frames.length < 1000 → ∃ vm', step cfg prog vm = .ok vm' ∧
        vm'.frames.length = vm.frames.length + 1) := by
  rw [step_eq hn, hn.frames]
  obtain ⟨vm', locals, h1, h2, h3, h4, h5, h6, _, h7⟩ := exec_call_func cfg prog m (g := g)
    (vm := vm.reading f fs ipEnd) (f := { f with lastI := f.ip, ip := ipEnd }) (fs := fs) rfl
    (hl.of_eq rfl rfl) ha
  rw [h7]
  constructor
  · intro hd
    have h2' : vm'.ctx = calleeCtx g vm.ctx := h2
    obtain ⟨pre, hp⟩ := throwErr_reports prog vm' m' msgRecursion (by rw [h2']; exact hm) n hs
      (by rw [h1]; simp)
    have hd' : fs.length + 1 = recursionLimit := by simpa [recursionLimit] using hd
    rw [if_pos hd', hp]
    exact ⟨pre, vm', rfl, h4, h3⟩
  · intro hd
    have hd' : ¬ fs.length + 1 = recursionLimit := by
      simp only [recursionLimit]
      simp at hd
      omega
    rw [if_neg hd']
    exact ⟨_, rfl, by simp [h1]⟩

/-! ## C17 -/

/-- An execution that stays inside calls made from frame depth `depth`: more than `depth`
frames all along, and every instruction takes its operands from above `base`, the part of
the stack that belongs to the caller. -/
inductive Inside (cfg : Cfg) (prog : Program F) (depth : Nat) (base : List (Val F)) :
    VM F → VM F → Prop
  | refl (vm : VM F) : Inside cfg prog depth base vm vm
  | step {vm vm' vm'' : VM F} {f : AmaFunc} {fs : List AmaFunc} {m : Module F} {op : Op}
      {args : List Nat} {ipEnd : Nat} :
      NextIns prog vm f fs m op args ipEnd → Fits base (vm.reading f fs ipEnd) op args →
      step cfg prog vm = .ok vm' → depth < vm'.frames.length →
      Inside cfg prog depth base vm' vm'' → Inside cfg prog depth base vm vm''

/-- The frames above `outer` belong to running calls, the lowest of them is `callee`
(possibly at another instruction), and all calls that have locals keep them above `b`. -/
def InCall (callee : AmaFunc) (outer : List AmaFunc) (b : Nat) (vm : VM F) : Prop :=
  ∃ inner ip lastI, vm.frames = inner ++ { callee with ip := ip, lastI := lastI } :: outer ∧
    ∀ f ∈ inner, f.bp = -1 ∨ (b : Int) ≤ f.bp

theorem InCall.step {cfg : Cfg} {prog : Program F} {callee : AmaFunc} {outer : List AmaFunc}
    {base : List (Val F)} {vm vm' : VM F} {f : AmaFunc} {fs : List AmaFunc} {m : Module F}
    {op : Op} {args : List Nat} {ipEnd : Nat} (hn : NextIns prog vm f fs m op args ipEnd)
    (hfit : Fits base (vm.reading f fs ipEnd) op args) (hs : step cfg prog vm = .ok vm')
    (hd : outer.length < vm'.frames.length)
    (hc : InCall callee outer base.length vm) :
    InCall callee outer base.length vm' ∧ Has base 0 vm' := by
  rw [step_eq hn] at hs
  obtain ⟨inner, ip, lastI, hfr, hin⟩ := hc
  rw [hn.frames] at hfr
  have ha : AtFrame { f with lastI := f.ip } fs vm.ctx (vm.reading f fs ipEnd) :=
    ⟨ipEnd, rfl, rfl⟩
  -- the frame list after replacing the top frame by one with the same base
  have keep : ∀ f' : AmaFunc, (∃ ip lastI, f' = { f with ip := ip, lastI := lastI }) →
      ∃ inner' ip' lastI', f' :: fs = inner' ++ { callee with ip := ip', lastI := lastI' } :: outer ∧
        ∀ g ∈ inner', g.bp = -1 ∨ (base.length : Int) ≤ g.bp := by
    rintro f' ⟨i, l, rfl⟩
    cases inner with
    | nil =>
        simp at hfr
        obtain ⟨rfl, rfl⟩ := hfr
        exact ⟨[], i, l, rfl, by simp⟩
    | cons g gs =>
        simp at hfr
        obtain ⟨rfl, rfl⟩ := hfr
        refine ⟨{ f with ip := i, lastI := l } :: gs, ip, lastI, rfl, ?_⟩
        intro g hg
        rcases List.mem_cons.1 hg with rfl | hg
        · exact hin f (by simp)
        · exact hin g (by simp [hg])
  by_cases hcall : op = .callFunction
  · subst hcall
    rcases args with _ | ⟨n, rest⟩
    · simp [exec, operand_nil] at hs
    · have hb' : Has base (n + 1) (vm.reading f fs ipEnd) := by
        obtain ⟨⟨mid, h1, h2, _⟩, _⟩ := hfit
        exact ⟨mid, h1, h2⟩
      obtain ⟨h1, h2⟩ := exec_call_below cfg prog m ha hb' vm' hs
      refine ⟨?_, h1⟩
      rcases h2 with ⟨ip', h2, _⟩ | ⟨g, ip', h2, h3⟩
      · obtain ⟨inner', ip'', lastI', h3, h4⟩ := keep _ ⟨ip', f.ip, rfl⟩
        exact ⟨inner', ip'', lastI', h2.trans h3, h4⟩
      · obtain ⟨inner', ip'', lastI', h4, h5⟩ := keep _ ⟨ip', f.ip, rfl⟩
        refine ⟨g :: inner', ip'', lastI', by rw [h2, List.cons_append, ← h4], ?_⟩
        intro g' hg'
        rcases List.mem_cons.1 hg' with rfl | hg'
        · rcases h3 with h3 | ⟨l, g0, h6, h7⟩
          · exact Or.inr h3
          · exact Or.inl (h7.trans (hfit.2.2.1 rfl l g0 h6))
        · exact h5 g' hg'
  · by_cases hret : op = .ret
    · subst hret
      obtain ⟨h1, h2⟩ := exec_ret_frames cfg prog m ha args vm' hs
      have hb' : Has base 1 (vm.reading f fs ipEnd) := by
        obtain ⟨⟨mid, h1, h2, _⟩, _⟩ := hfit
        exact ⟨mid, h1, h2⟩
      cases inner with
      | nil =>
          simp at hfr
          rw [h1, hfr.2] at hd
          omega
      | cons g gs =>
          simp at hfr
          obtain ⟨rfl, rfl⟩ := hfr
          refine ⟨⟨gs, ip, lastI, h1, fun g hg => hin g (by simp [hg])⟩, ?_⟩
          exact exec_ret_below cfg prog m (f := { f with lastI := f.ip, ip := ipEnd }) rfl args hb' (hin f (by simp))
            (hfit.2.2.2 rfl _ _ rfl) vm' hs
    · have hnc : op.isCallOrRet = false := by cases op <;> simp_all [Op.isCallOrRet]
      obtain ⟨ip', h1, _⟩ := exec_frames cfg prog m ha hnc args vm' hs
      refine ⟨?_, exec_below cfg prog m hfit hnc vm' hs⟩
      obtain ⟨inner', ip'', lastI', h2, h3⟩ := keep _ ⟨ip', f.ip, rfl⟩
      exact ⟨inner', ip'', lastI', h1.trans h2, h3⟩

theorem Inside.inCall {cfg : Cfg} {prog : Program F} {callee : AmaFunc} {outer : List AmaFunc}
    {base : List (Val F)} {vm vm' : VM F} (h : Inside cfg prog outer.length base vm vm') :
    Has base 0 vm → InCall callee outer base.length vm →
    InCall callee outer base.length vm' ∧ Has base 0 vm' := by
  induction h with
  | refl => exact fun h1 h2 => ⟨h2, h1⟩
  | step hn hfit hs hd _ ih =>
      intro h1 h2
      obtain ⟨h3, h4⟩ := h2.step hn hfit hs hd
      exact ih h4 h3

/-- C17, for functions that have at least one parameter or local.  The caller's part of the
stack is `base`; the arguments `a` and the function `g` are on top of it.  Whatever the
callee does, as long as it takes its operands from above `base`: when it returns `v`, the
caller's stack is `base` plus `v`, and the caller and all frames below are as before,
at the instruction after the call. -/
theorem call_restores_caller_partial (cfg : Cfg) (prog : Program F) {vm vm1 vm2 : VM F}
    {f g : AmaFunc} {fs : List AmaFunc} {m : Module F} {base a mid : List (Val F)} {v : Val F}
    {ipEnd : Nat} (hn : NextIns prog vm f fs m .callFunction [a.length] ipEnd)
    (hl : Live vm (base ++ a ++ [.func g])) (ha : a.length ≤ g.locals) (hg : 0 < g.locals)
    (hcall : step cfg prog vm = .ok vm1)
    (hrun : Inside cfg prog vm.frames.length base vm1 vm2)
    (hret : vm2.frames.length = vm.frames.length + 1)
    {f2 : AmaFunc} {fs2 : List AmaFunc} {m2 : Module F} {ipEnd2 : Nat}
    (hn2 : NextIns prog vm2 f2 fs2 m2 .ret [] ipEnd2)
    (hl2 : Live vm2 (base ++ mid ++ [v])) :
    ∃ vm3, step cfg prog vm2 = .ok vm3 ∧ Live vm3 (base ++ [v]) ∧
      vm3.frames = { f with lastI := f.ip, ip := ipEnd + 1 } :: fs ∧
      vm3.ctx = f.module.ref ∧ vm3.globals = vm2.globals ∧ vm3.world = vm2.world := by
  obtain ⟨vm', locals, h1, h2, h3, h4, h5, h6, _, h7⟩ := exec_call_func cfg prog m (g := g)
    (vm := vm.reading f fs ipEnd) (f := { f with lastI := f.ip, ip := ipEnd }) (fs := fs) rfl
    (hl.of_eq rfl rfl) ha
  rw [step_eq hn, h7] at hcall
  split at hcall
  · cases hcall
  · cases hcall
    have hfl : vm.frames.length = ({ f with lastI := f.ip, ip := ipEnd + 1 } :: fs).length := by
      rw [hn.frames]; simp
    rw [hfl] at hrun
    have hin : InCall (calleeFrame g base.length)
        ({ f with lastI := f.ip, ip := ipEnd + 1 } :: fs) base.length
        { vm' with frames := calleeFrame g base.length :: vm'.frames } :=
      ⟨[], g.ip, g.lastI, by simp [h1, calleeFrame], by simp⟩
    have hhas : Has base 0 { vm' with frames := calleeFrame g base.length :: vm'.frames } :=
      ⟨a ++ locals, by omega, by rw [← List.append_assoc]; exact h5.of_eq rfl rfl⟩
    obtain ⟨⟨inner, ip, lastI, h8, _⟩, _⟩ := hrun.inCall hhas hin
    have hinner : inner = [] := by
      rw [h8, hfl] at hret
      simpa using hret
    subst hinner
    rw [List.nil_append, hn2.frames] at h8
    simp only [List.cons.injEq] at h8
    obtain ⟨h8, h9⟩ := h8
    have hbp : f2.bp = base.length := by simp [h8, calleeFrame, hg]
    obtain ⟨vm3, e, h10, h11, h12, h13, h14⟩ := exec_ret cfg prog m2
      (vm := vm2.reading f2 fs2 ipEnd2) (f := { f2 with lastI := f2.ip, ip := ipEnd2 })
      (g := { f with lastI := f.ip, ip := ipEnd + 1 }) (fs := fs)
      (by simp [VM.reading, h9]) (hl2.of_eq rfl rfl) (Or.inl hbp)
    exact ⟨vm3, by rw [step_eq hn2]; exact e, h10, h11, h12, h13, h14⟩

/-- `func id(x: int): int retorna x fim` at address 0, and a call of it at 4. -/
def idModule : Module WholeFloat :=
  { name := "p", builtin := false, constants := [], names := [], code := [25, 0, 0, 28, 27, 1, 255],
    main := { name := "_inicio_", startIp := 0, ip := 0, lastI := 0, bp := -1, locals := 0,
              module := .main },
    functions := [], registos := [], srcMap := [] }

def idFunc : AmaFunc :=
  { name := "id", startIp := 0, ip := 0, lastI := 0, bp := -1, locals := 1, module := .main }

def idCaller : AmaFunc := { idModule.main with ip := 4, bp := 0 }

/-- About to call `id(5)` with the caller's operand 1 pending. -/
def idCall : VM WholeFloat :=
  { frames := [idCaller], values := [.int 1, .int 5, .func idFunc], sp := 2, ctx := .main,
    globals := [], world := ⟨[], "", []⟩ }

/-- The hypotheses of `call_restores_caller_partial` hold for this call. -/
example : ∃ vm1 vm2 f2 fs2 ipEnd2,
    NextIns ⟨idModule, []⟩ idCall idCaller [] idModule .callFunction [1] 5 ∧
    Live idCall ([.int 1] ++ [.int 5] ++ [.func idFunc]) ∧
    step ⟨false, fun _ => []⟩ ⟨idModule, []⟩ idCall = .ok vm1 ∧
    Inside ⟨false, fun _ => []⟩ ⟨idModule, []⟩ 1 [.int 1] vm1 vm2 ∧
    vm2.frames.length = 2 ∧ NextIns ⟨idModule, []⟩ vm2 f2 fs2 idModule .ret [] ipEnd2 ∧
    Live vm2 ([.int 1] ++ [.int 5] ++ [.int 5]) := by
  let vm1 : VM WholeFloat :=
    { idCall with frames := [{ idFunc with bp := 1 }, { idCaller with lastI := 4, ip := 6 }],
                  values := [.int 1, .int 5], sp := 1 }
  let vm2 : VM WholeFloat :=
    { idCall with frames := [{ idFunc with bp := 1, ip := 3 }, { idCaller with lastI := 4, ip := 6 }],
                  values := [.int 1, .int 5, .int 5], sp := 2 }
  refine ⟨vm1, vm2, { idFunc with bp := 1, ip := 3 }, [{ idCaller with lastI := 4, ip := 6 }], 3,
    ⟨rfl, rfl, by decide⟩, ⟨rfl, [], rfl⟩, rfl, ?_, rfl, ⟨rfl, rfl, by decide⟩,
    ⟨rfl, [], rfl⟩⟩
  refine .step (op := .getLocal) (args := [0]) (ipEnd := 2) ⟨rfl, rfl, by decide⟩
    ⟨⟨[.int 5], by decide, ⟨rfl, [], rfl⟩, by simp⟩, ?_, by simp, by simp⟩
    (show step _ _ _ = .ok vm2 from by decide +kernel) (by decide) (.refl _)
  intro _ f fs hf
  cases hf
  decide

/-- About to call `id(5)` from `n + 1` frames. -/
def deepCall (n : Nat) : VM WholeFloat := { idCall with frames := idCaller :: List.replicate n idCaller }

/-- The hypotheses of `call_at_limit_reported` hold for this call: from 1000 frames it is reported, from 7 it is made. -/
example : (∃ pre vm', step ⟨false, fun _ => []⟩ ⟨idModule, []⟩ (deepCall 999) =
      .error (.err (pre ++ "Limite máximo de recursão atingido" ++ ".") vm') ∧ vm'.world = (deepCall 999).world ∧
      vm'.globals = (deepCall 999).globals) ∧
    (∃ vm', step ⟨false, fun _ => []⟩ ⟨idModule, []⟩ (deepCall 6) = .ok vm' ∧ vm'.frames.length = 8) := by
  have h : ∀ n, NextIns ⟨idModule, []⟩ (deepCall n) idCaller (List.replicate n idCaller) idModule .callFunction [1] 5 :=
    fun n => ⟨rfl, rfl, by decide⟩
  have hl : ∀ n, Live (deepCall n) ([.int 1] ++ [.int 5] ++ [.func idFunc]) := fun n => ⟨rfl, [], rfl⟩
  refine ⟨(call_at_limit_reported _ _ (a := [.int 5]) (n := 0) (h 999) (hl _) (by decide) rfl rfl).1 ?_, ?_⟩
  · show (List.replicate 999 idCaller).length + 1 = 1000
    rw [List.length_replicate]
  · obtain ⟨vm', e, h'⟩ := (call_at_limit_reported _ _ (a := [.int 5]) (n := 0) (h 6) (hl _) (by decide) rfl rfl).2 (by simp [deepCall])
    exact ⟨vm', e, by rw [h']; simp [deepCall]⟩

/-- `func f(): int 7; retorna 2; fim  mostra 1 + f()` as generated code: `f` starts at 9
with `LOAD_CONST 1 (7)`, `LOAD_CONST 2 (2)`, `RETURN`; the main code follows. -/
def leakProgram : Program WholeFloat :=
  { main :=
      { name := "p", builtin := false, constants := [.int 1, .int 7, .int 2], names := ["f"],
        code := [23, 0, 0, 0, 0, 0, 0, 0, 16,
                 1, 0, 1, 1, 0, 2, 28,
                 1, 0, 0, 21, 0, 0, 27, 0, 3, 0, 255],
        main := { name := "_inicio_", startIp := 0, ip := 0, lastI := 0, bp := -1, locals := 0,
                  module := .main },
        functions := [{ name := "f", startIp := 9, ip := 9, lastI := 9, bp := -1, locals := 0,
                        module := .main }],
        registos := [], srcMap := [] },
    imports := [] }

def noGraphemes : Cfg := { debug := false, graphemes := fun s => s.toList.map fun c => String.ofList [c] }

/-- C17 fails for a function without parameters and locals that leaves a value behind (an
expression statement does, there being no instruction to drop one): after `1 + f()` with
`f` returning 2, the program prints 9, the sum of the returned 2 and the leftover 7. -/
theorem call_leaves_callee_values_violated :
    (match runProgram noGraphemes leakProgram 20 [] with
      | .done vm => vm.world.out
      | _ => "") = "9\n" := by
  decide +kernel

end

end Amanda

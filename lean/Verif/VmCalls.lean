import Verif.VmContained

/-!
# Calls and returns, one instruction at a time
-/

namespace Amanda

variable {F : Type} [FloatOps F]

/-- The instruction the machine runs next, in frame `f` on top of `fs`. -/
structure NextIns (prog : Program F) (vm : VM F) (f : AmaFunc) (fs : List AmaFunc) (m : Module F)
    (op : Op) (args : List Nat) (ipEnd : Nat) : Prop where
  module : prog.get vm.ctx = some m
  frames : vm.frames = f :: fs
  fetch : fetch m.code f.ip = some (op, args, ipEnd)

/-- The machine inside an instruction, operands read. -/
def VM.reading (vm : VM F) (f : AmaFunc) (fs : List AmaFunc) (ipEnd : Nat) : VM F :=
  { vm with frames := { f with lastI := f.ip, ip := ipEnd } :: fs }

theorem step_eq {cfg : Cfg} {prog : Program F} {vm : VM F} {f : AmaFunc} {fs : List AmaFunc}
    {m : Module F} {op : Op} {args : List Nat} {ipEnd : Nat}
    (h : NextIns prog vm f fs m op args ipEnd) :
    step cfg prog vm = exec cfg prog m (vm.reading f fs ipEnd) op args := by
  simp [step, h.module, h.frames, h.fetch, VM.reading]

theorem step_ok_next {cfg : Cfg} {prog : Program F} {vm vm' : VM F}
    (h : step cfg prog vm = .ok vm') :
    ∃ f fs m op args ipEnd, NextIns prog vm f fs m op args ipEnd := by
  unfold step at h
  split at h
  · split at h
    · rename_i m f fs hm hf _ op args ipEnd hfe
      exact ⟨f, fs, m, op, args, ipEnd, hm, hf, hfe⟩
    · cases h
  · cases h

/-- The frame a call creates: its base is the first argument if it has locals at all. -/
def calleeFrame (g : AmaFunc) (base : Nat) : AmaFunc :=
  { g with bp := if g.locals > 0 then (base : Int) else g.bp }

/-- The module context after calling `g` (vm.rs:368-370). -/
def calleeCtx (g : AmaFunc) (c : ModRef) : ModRef :=
  match g.module with
  | .imported i => .imp i
  | .main => c

def msgRecursion : String := "Limite máximo de recursão atingido"

omit [FloatOps F] in
theorem callAma_spec (prog : Program F) {vm : VM F} {f : AmaFunc} {fs : List AmaFunc}
    {base a : List (Val F)} {g : AmaFunc} (hf : vm.frames = f :: fs)
    (hl : Live vm (base ++ a)) (ha : a.length ≤ g.locals) :
    ∃ vm' locals, vm'.frames = { f with ip := f.ip + 1 } :: fs ∧ vm'.ctx = calleeCtx g vm.ctx ∧
      vm'.globals = vm.globals ∧ vm'.world = vm.world ∧
      Live vm' (base ++ a ++ locals) ∧ g.locals ≤ a.length + locals.length ∧
      (g.locals = 0 → locals = []) ∧
      callAma prog vm g a.length =
        (if fs.length + 1 = recursionLimit then .error (throwErr prog vm' msgRecursion)
         else .ok { vm' with frames := calleeFrame g base.length :: vm'.frames }) := by
  have hsp := hl.sp
  simp at hsp
  by_cases hpos : a.length > 0
  · obtain ⟨extra, he, hlive⟩ := hl.reserve (g.locals - a.length)
    have hg : g.locals > 0 := by omega
    have hlt : ¬ g.locals < a.length := by omega
    have hbp : vm.sp - ((a.length : Int) - 1) = base.length := by omega
    refine ⟨{ vm.reserve (g.locals - a.length) with
        frames := { f with ip := f.ip + 1 } :: fs, ctx := calleeCtx g vm.ctx }, extra, rfl, rfl,
        rfl, rfl, hlive.of_eq rfl rfl, by omega, by omega, ?_⟩
    simp only [callAma, prepareCall, switchModule, hpos, if_true, hlt, if_false, except_bind_ok, VM.advance, VM.reserve, hf,
      hbp, calleeFrame, calleeCtx, hg]
    cases g.module <;> simp [msgRecursion]
  · have ha0 : a = [] := by
      cases a with
      | nil => rfl
      | cons => simp at hpos
    subst ha0
    by_cases hg : g.locals > 0
    · obtain ⟨extra, he, hlive⟩ := hl.reserve g.locals
      have hbp : vm.sp + 1 = base.length := by simp at hsp; omega
      refine ⟨{ vm.reserve g.locals with
          frames := { f with ip := f.ip + 1 } :: fs, ctx := calleeCtx g vm.ctx }, extra, rfl, rfl,
          rfl, rfl, hlive.of_eq rfl rfl, by simpa using he, by omega, ?_⟩
      simp only [callAma, prepareCall, switchModule, hpos, if_true, if_false, except_bind_ok, VM.advance, VM.reserve, hf,
        hbp, calleeFrame, calleeCtx, hg]
      cases g.module <;> simp [msgRecursion]
    · refine ⟨{ vm with
          frames := { f with ip := f.ip + 1 } :: fs, ctx := calleeCtx g vm.ctx }, [], rfl, rfl,
          rfl, rfl, by simpa using Live.of_eq (vm' := { vm with frames := { f with ip := f.ip + 1 } :: fs, ctx := calleeCtx g vm.ctx }) hl rfl rfl, by simp; omega, fun _ => rfl, ?_⟩
      simp only [callAma, prepareCall, switchModule, hpos, if_false, except_bind_ok, VM.advance, hf,
        calleeFrame, calleeCtx, hg]
      obtain ⟨_, _, _, _, _, _, gm⟩ := g
      cases gm <;> rfl

theorem exec_call_func (cfg : Cfg) (prog : Program F) (m : Module F) {vm : VM F} {f : AmaFunc}
    {fs : List AmaFunc} {base a : List (Val F)} {g : AmaFunc} (hf : vm.frames = f :: fs)
    (hl : Live vm (base ++ a ++ [.func g])) (ha : a.length ≤ g.locals) :
    ∃ vm' locals, vm'.frames = { f with ip := f.ip + 1 } :: fs ∧ vm'.ctx = calleeCtx g vm.ctx ∧
      vm'.globals = vm.globals ∧ vm'.world = vm.world ∧
      Live vm' (base ++ a ++ locals) ∧ g.locals ≤ a.length + locals.length ∧
      (g.locals = 0 → locals = []) ∧
      exec cfg prog m vm .callFunction [a.length] =
        (if fs.length + 1 = recursionLimit then .error (throwErr prog vm' msgRecursion)
         else .ok { vm' with frames := calleeFrame g base.length :: vm'.frames }) := by
  obtain ⟨values, e, hl2⟩ := hl.pop
  obtain ⟨vm', locals, h1, h2, h3, h4, h5, h6, h7, h8⟩ := callAma_spec prog (vm := { vm with sp := vm.sp - 1, values := values }) hf hl2 ha
  refine ⟨vm', locals, h1, h2, h3, h4, h5, h6, h7, ?_⟩
  simp only [exec, operand_cons, except_bind_ok, execCall, e]
  exact h8

/-- Returning from a frame with locals drops everything from its base up. -/
theorem exec_ret (cfg : Cfg) (prog : Program F) (m : Module F) {vm : VM F} {f g : AmaFunc}
    {fs : List AmaFunc} {base mid : List (Val F)} {v : Val F} (hf : vm.frames = f :: g :: fs)
    (hl : Live vm (base ++ mid ++ [v])) (hbp : f.bp = base.length ∨ (f.bp = -1 ∧ mid = [])) :
    ∃ vm', exec cfg prog m vm .ret [] = .ok vm' ∧ Live vm' (base ++ [v]) ∧
      vm'.frames = g :: fs ∧ vm'.ctx = g.module.ref ∧ vm'.globals = vm.globals ∧
      vm'.world = vm.world := by
  obtain ⟨values, e, hl2⟩ := hl.pop
  have hl3 : Live { vm with sp := (base.length : Int) - 1, values := values, frames := g :: fs }
      base := by
    have := hl2.drop
    refine this.of_eq ?_ rfl
    have := hl.sp
    simp at this ⊢
    omega
  obtain ⟨values', e', hl4⟩ := hl3.push v
  refine ⟨⟨g :: fs, values', (base.length : Int) - 1 + 1, g.module.ref, vm.globals, vm.world⟩, ?_,
    hl4.of_eq rfl rfl, rfl, rfl, rfl, rfl⟩
  · have hs : (if f.bp > -1 then f.bp - 1 else vm.sp - 1) = (base.length : Int) - 1 := by
      have := hl.sp
      simp at this
      rcases hbp with hbp | ⟨hbp, rfl⟩
      · rw [if_pos (by omega), hbp]
      · rw [if_neg (by omega)]
        simp at this
        omega
    simp only [exec, execReturn, e, except_bind_ok, hf, hs]
    rw [e']
    rfl

theorem callNativeFn_frames (cfg : Cfg) (prog : Program F) {f : AmaFunc}
    {fs : List AmaFunc} {c : ModRef} {vm : VM F} (h : AtFrame f fs c vm) (module name : String)
    (n : Nat) : Post (callNativeFn cfg prog vm module name n) (AtFrame f fs c) := by
  unfold callNativeFn
  refine Post.bind (P := fun (p : List (Val F) × VM F) => AtFrame f fs c p.2) ?_ ?_
  · unfold nativeArgs
    refine Post.ite (fun _ => ?_) fun _ => Post.ok h
    exact Post.bind' fun a _ => Post.ok (h.of_eq rfl rfl)
  · rintro ⟨a, vm'⟩ h'
    dsimp only at *
    frame_steps

theorem callNativeFn_below (cfg : Cfg) (prog : Program F) {base : List (Val F)} {vm : VM F}
    (module name : String) (n : Nat) (h : Has base n vm) :
    Post (callNativeFn cfg prog vm module name n) (Has base 0) := by
  unfold callNativeFn
  refine Post.bind (P := fun (p : List (Val F) × VM F) => Has base 0 p.2) ?_ ?_
  · unfold nativeArgs
    refine Post.ite (fun _ => ?_) fun _ => Post.ok (h.mono (by omega))
    refine Post.bind' fun a _ => Post.ok ?_
    exact Has.drop (k := 0) n (by simpa using h)
  · rintro ⟨a, vm'⟩ h'
    dsimp only at *
    split
    · exact Post.error
    · exact Post.error
    · rename_i v w _
      refine Post.bind (Has.push (h'.of_eq (vm' := { vm' with world := w }) rfl rfl) v) ?_
      intro _ _
      refine Post.bind (Has.dropAbove (by assumption)) ?_
      intro _ h''
      exact Has.advance (h''.mono (by omega))

/-- What a call does to the frames: a native call none, a program function adds one frame on
top of the unchanged ones. -/
theorem exec_call_frames (cfg : Cfg) (prog : Program F) (m : Module F) {f : AmaFunc}
    {fs : List AmaFunc} {c : ModRef} {vm : VM F} (h : AtFrame f fs c vm) (args : List Nat) :
    Post (exec cfg prog m vm .callFunction args) (fun vm' => AtFrame f fs c vm' ∨
      ∃ g ip, vm'.frames = g :: { f with ip := ip } :: fs ∧ fs.length + 1 ≠ recursionLimit) := by
  simp only [exec, execCall]
  refine Post.bind' fun n _ => ?_
  refine Post.bind h.pop ?_
  rintro ⟨v, vm1⟩ h1
  dsimp only at *
  split
  · rename_i func
    unfold callAma
    refine Post.bind (P := fun (p : AmaFunc × VM F) => AtFrame f fs c p.2) ?_ ?_
    · unfold prepareCall
      refine Post.ite (fun _ => Post.ite (fun _ => Post.error) fun _ => Post.ok ?_) fun _ =>
        Post.ite (fun _ => Post.ok ?_) fun _ => Post.ok h1
      · exact h1.of_eq rfl rfl
      · exact h1.of_eq rfl rfl
    · rintro ⟨g, vm2⟩ h2
      dsimp only at *
      refine Post.bind h2.advance ?_
      intro vm3 h3
      obtain ⟨ip, h3, h3'⟩ := h3
      have h4 : (switchModule g vm3).frames = vm3.frames := by
        unfold switchModule
        split <;> rfl
      refine Post.ite (fun _ => Post.error) fun hn => Post.ok (Or.inr ⟨g, ip, ?_⟩)
      rw [h4, h3] at hn
      simp at hn
      dsimp only
      rw [h4, h3]
      exact ⟨rfl, hn⟩
  · intro vm' hv
    exact Or.inl (callNativeFn_frames cfg prog h1 _ _ _ vm' hv)
  · exact Post.error

omit [FloatOps F] in
theorem Has.sp {base : List (Val F)} {k : Nat} {vm : VM F} (h : Has base k vm) :
    (base.length : Int) + k ≤ vm.sp + 1 := by
  obtain ⟨mid, h1, h2, _⟩ := h
  simp at h2
  omega

/-- A call that finds its arguments above `base` leaves `base` alone and puts the new
frame's locals above it. -/
theorem exec_call_below (cfg : Cfg) (prog : Program F) (m : Module F) {f : AmaFunc}
    {fs : List AmaFunc} {c : ModRef} {vm : VM F} (h : AtFrame f fs c vm) {n : Nat}
    {rest : List Nat} {base : List (Val F)} (hb : Has base (n + 1) vm) :
    Post (exec cfg prog m vm .callFunction (n :: rest)) (fun vm' => Has base 0 vm' ∧
      (AtFrame f fs c vm' ∨ ∃ g ip, vm'.frames = g :: { f with ip := ip } :: fs ∧
        ((base.length : Int) ≤ g.bp ∨ ∃ l g0, Live vm (l ++ [.func g0]) ∧ g.bp = g0.bp))) := by
  simp only [exec, execCall, operand_cons, except_bind_ok]
  obtain ⟨mid, hmid, hl⟩ := hb
  obtain ⟨mid, v, rfl⟩ := (List.eq_nil_or_concat mid).resolve_left (by rintro rfl; simp at hmid)
  rw [List.concat_eq_append, ← List.append_assoc] at hl
  simp at hmid
  obtain ⟨values, e, hl1⟩ := hl.pop
  have h1 := h.pop _ e
  rw [e]
  have hb1 : Has base n { vm with sp := vm.sp - 1, values := values } := ⟨mid, hmid, hl1⟩
  simp only [except_bind_ok]
  generalize { vm with sp := vm.sp - 1, values := values } = vm1 at h1 hl1 hb1
  dsimp only at h1
  split
  · rename_i func
    unfold callAma
    refine Post.bind (P := fun (p : AmaFunc × VM F) => AtFrame f fs c p.2 ∧ Has base 0 p.2 ∧
      ((base.length : Int) ≤ p.1.bp ∨ p.1.bp = func.bp)) ?_ ?_
    · unfold prepareCall
      have hsp := hb1.sp
      refine Post.ite (fun _ => Post.ite (fun _ => Post.error) fun _ => Post.ok ?_) fun _ =>
        Post.ite (fun _ => Post.ok ?_) fun _ => Post.ok ⟨h1, hb1.mono (by omega), Or.inr rfl⟩
      · exact ⟨h1.of_eq rfl rfl, (hb1.mono (by omega)).reserve _, Or.inl (by dsimp only; omega)⟩
      · exact ⟨h1.of_eq rfl rfl, (hb1.mono (by omega)).reserve _, Or.inl (by dsimp only; omega)⟩
    · rintro ⟨g, vm2⟩ ⟨h2, hb2, hbp⟩
      dsimp only at *
      refine Post.bind (Post.and h2.advance hb2.advance) ?_
      rintro vm3 ⟨⟨ip, h3, _⟩, hb3⟩
      have h4 : (switchModule g vm3).frames = vm3.frames := by
        unfold switchModule
        split <;> rfl
      have hb4 : Has base 0 (switchModule g vm3) := by
        unfold switchModule
        split
        · exact hb3.of_eq rfl rfl
        · exact hb3
      refine Post.ite (fun _ => Post.error) fun hn => Post.ok ⟨hb4.of_eq rfl rfl, Or.inr ⟨g, ip, ?_⟩⟩
      dsimp only
      rw [h4, h3]
      exact ⟨rfl, hbp.imp id fun hbp => ⟨_, func, hl, hbp⟩⟩
  · intro vm' hv
    exact ⟨callNativeFn_below cfg prog _ _ _ hb1 vm' hv,
      Or.inl (callNativeFn_frames cfg prog h1 _ _ _ vm' hv)⟩
  · exact Post.error

theorem exec_ret_below (cfg : Cfg) (prog : Program F) (m : Module F) {f : AmaFunc}
    {fs : List AmaFunc} {vm : VM F} (hf : vm.frames = f :: fs) (args : List Nat)
    {base : List (Val F)} (hb : Has base 1 vm) (hlo : f.bp = -1 ∨ (base.length : Int) ≤ f.bp)
    (hhi : f.bp ≤ vm.sp) :
    Post (exec cfg prog m vm .ret args) (Has base 0) := by
  simp only [exec, execReturn]
  obtain ⟨mid, hmid, hl⟩ := hb
  obtain ⟨mid, v, rfl⟩ := (List.eq_nil_or_concat mid).resolve_left (by rintro rfl; simp at hmid)
  rw [List.concat_eq_append, ← List.append_assoc] at hl
  obtain ⟨values, e, hl1⟩ := hl.pop
  rw [e]
  simp only [except_bind_ok, hf]
  have hsp := hl.sp
  simp at hsp
  have hb2 : Has base 0 { vm with sp := if f.bp > -1 then f.bp - 1 else vm.sp - 1, values := values, frames := fs } := by
    split
    · rename_i hgt
      have hge : (base.length : Int) ≤ f.bp := by omega
      have e2 : mid = mid.take (f.bp - base.length).toNat ++ mid.drop (f.bp - base.length).toNat := by
        simp
      rw [e2, ← List.append_assoc] at hl1
      have := hl1.drop
      refine ⟨mid.take (f.bp - base.length).toNat, by omega, this.of_eq ?_ rfl⟩
      simp
      omega
    · exact ⟨mid, by omega, hl1.of_eq rfl rfl⟩
  refine Post.bind (hb2.push v) ?_
  intro vm2 h2
  split
  · exact Post.error
  · exact Post.ok ((h2.mono (by omega)).of_eq rfl rfl)

theorem exec_ret_frames (cfg : Cfg) (prog : Program F) (m : Module F) {f : AmaFunc}
    {fs : List AmaFunc} {c : ModRef} {vm : VM F} (h : AtFrame f fs c vm) (args : List Nat) :
    Post (exec cfg prog m vm .ret args) (fun vm' => vm'.frames = fs ∧ fs ≠ []) := by
  simp only [exec, execReturn]
  refine Post.bind h.pop ?_
  rintro ⟨v, vm1⟩ ⟨ip, h1, _⟩
  dsimp only at *
  rw [h1]
  dsimp only
  have push_fr : ∀ (w : VM F), Post (w.push v) (fun w' => w'.frames = w.frames) := by
    intro w
    unfold VM.push
    dsimp only
    exact Post.ite (fun _ => Post.ok rfl) fun _ => Post.ite (fun _ => Post.ite (fun _ => Post.error)
      fun _ => Post.ok rfl) fun _ => Post.ok rfl
  refine Post.bind (push_fr _) ?_
  intro vm2 h2
  dsimp only at h2
  split
  · exact Post.error
  · rename_i hh
    refine Post.ok ⟨h2, ?_⟩
    rw [← h2, hh]
    simp

end Amanda

import Verif.VmLemmas

/-!
# What single instructions do to the frame stack
-/

namespace Amanda

variable {F : Type}

/-- Every successful result satisfies `Q`. -/
def Post {ε α : Type} (r : Except ε α) (Q : α → Prop) : Prop := ∀ a, r = .ok a → Q a

theorem Post.bind {ε α β : Type} {x : Except ε α} {f : α → Except ε β} {P : α → Prop}
    {Q : β → Prop} (h : Post x P) (k : ∀ a, P a → Post (f a) Q) : Post (x >>= f) Q := by
  intro b hb
  obtain ⟨a, ha, hf⟩ := except_bind_eq_ok.1 hb
  exact k a (h a ha) b hf

theorem Post.bind' {ε α β : Type} {x : Except ε α} {f : α → Except ε β}
    {Q : β → Prop} (k : ∀ a, x = .ok a → Post (f a) Q) : Post (x >>= f) Q :=
  Post.bind (P := fun a => x = .ok a) (fun _ h => h) k

theorem Post.ok {ε α : Type} {a : α} {Q : α → Prop} (h : Q a) : Post (.ok a : Except ε α) Q := by
  intro b hb
  cases hb
  exact h

theorem Post.error {ε α : Type} {e : ε} {Q : α → Prop} : Post (.error e : Except ε α) Q := by
  intro b hb
  cases hb

theorem Post.ite {ε α : Type} {c : Prop} [Decidable c] {x y : Except ε α} {Q : α → Prop}
    (hx : c → Post x Q) (hy : ¬ c → Post y Q) : Post (if c then x else y) Q := by
  split
  · exact hx ‹_›
  · exact hy ‹_›

/-- The frames are the given ones, the top one possibly at another instruction. -/
def AtFrame (f : AmaFunc) (fs : List AmaFunc) (c : ModRef) (vm : VM F) : Prop :=
  ∃ ip, vm.frames = { f with ip := ip } :: fs ∧ vm.ctx = c

theorem AtFrame.push {f : AmaFunc} {fs : List AmaFunc} {c : ModRef} {vm : VM F} (h : AtFrame f fs c vm)
    (v : Val F) : Post (vm.push v) (AtFrame f fs c) := by
  obtain ⟨ip, h1, h2⟩ := h
  unfold VM.push
  dsimp only
  refine Post.ite (fun _ => Post.ok ⟨ip, h1, h2⟩) fun _ => Post.ite (fun _ => Post.ite (fun _ => Post.error) fun _ => Post.ok ⟨ip, h1, h2⟩) fun _ => Post.ok ⟨ip, h1, h2⟩

theorem AtFrame.pop {f : AmaFunc} {fs : List AmaFunc} {c : ModRef} {vm : VM F} (h : AtFrame f fs c vm) :
    Post vm.pop (fun p => AtFrame f fs c p.2) := by
  obtain ⟨ip, h1, h2⟩ := h
  unfold VM.pop
  dsimp only
  refine Post.ite (fun _ => Post.bind' fun v _ => Post.ok ⟨ip, h1, h2⟩) fun _ =>
    Post.ite (fun _ => Post.ite (fun _ => Post.error) fun _ => Post.bind' fun v _ => Post.ok ⟨ip, h1, h2⟩) fun _ => Post.error

theorem AtFrame.advance {f : AmaFunc} {fs : List AmaFunc} {c : ModRef} {vm : VM F} (h : AtFrame f fs c vm) :
    Post vm.advance (AtFrame f fs c) := by
  obtain ⟨ip, h1, h2⟩ := h
  unfold VM.advance
  rw [h1]
  exact Post.ok ⟨ip + 1, rfl, h2⟩

theorem AtFrame.dropAbove {f : AmaFunc} {fs : List AmaFunc} {c : ModRef} {vm : VM F}
    (h : AtFrame f fs c vm) : Post vm.dropAbove (AtFrame f fs c) := by
  obtain ⟨ip, h1, h2⟩ := h
  unfold VM.dropAbove
  exact Post.ite (fun _ => Post.ok ⟨ip, h1, h2⟩) fun _ => Post.error

theorem AtFrame.of_eq {f : AmaFunc} {fs : List AmaFunc} {c : ModRef} {vm vm' : VM F}
    (h : AtFrame f fs c vm) (hf : vm'.frames = vm.frames) (hc : vm'.ctx = vm.ctx) :
    AtFrame f fs c vm' := by
  obtain ⟨ip, h1, h2⟩ := h
  exact ⟨ip, hf.trans h1, hc.trans h2⟩

theorem AtFrame.jump {f g : AmaFunc} {fs gs : List AmaFunc} {c : ModRef} {vm : VM F}
    (h : AtFrame f fs c vm) (hg : vm.frames = g :: gs) (a : Nat) :
    AtFrame f fs c { vm with frames := { g with ip := a } :: gs } := by
  obtain ⟨ip, h1, h2⟩ := h
  rw [hg] at h1
  cases h1
  exact ⟨a, rfl, h2⟩

section
variable [FloatOps F]

/-- Operations that enter or leave a function. -/
def Op.isCallOrRet : Op → Bool
  | .callFunction | .ret => true
  | _ => false

/-- Proof step for goals `Post (instruction) (AtFrame ..)`. -/
macro "frame_steps" : tactic => `(tactic| repeat' first
  | exact Post.error
  | exact Post.ok (by assumption)
  | exact Post.ok (AtFrame.jump (by assumption) (by assumption) _)
  | exact AtFrame.push (by assumption) _
  | exact AtFrame.advance (by assumption)
  | exact AtFrame.advance (AtFrame.of_eq (by assumption) rfl rfl)
  | (refine Post.bind (AtFrame.push (by assumption) _) ?_; intro _ _; try dsimp only)
  | (refine Post.bind (AtFrame.push (AtFrame.of_eq (by assumption) rfl rfl) _) ?_; intro _ _; try dsimp only)
  | (refine Post.bind (AtFrame.pop (by assumption)) ?_; rintro ⟨_, _⟩ _; try dsimp only at *)
  | (refine Post.bind (AtFrame.pop (AtFrame.of_eq (by assumption) rfl rfl)) ?_; rintro ⟨_, _⟩ _; try dsimp only at *)
  | (refine Post.bind (AtFrame.dropAbove (by assumption)) ?_; intro _ _; try dsimp only)
  | (refine Post.bind (AtFrame.dropAbove (AtFrame.of_eq (by assumption) rfl rfl)) ?_; intro _ _; try dsimp only)
  | (refine Post.bind' ?_; intro _ _; try dsimp only)
  | split)

theorem exec_frames (cfg : Cfg) (prog : Program F) (m : Module F) {f : AmaFunc}
    {fs : List AmaFunc} {c : ModRef} {vm : VM F} (h : AtFrame f fs c vm) {op : Op}
    (hop : op.isCallOrRet = false) (args : List Nat) :
    Post (exec cfg prog m vm op args) (AtFrame f fs c) := by
  cases op <;> simp only [Op.isCallOrRet, Bool.true_eq_false] at hop <;>
    simp only [exec, execBin, execUnary, execIndexGet, execIndexSet, execBuildStr, execBuildVec,
      execBuildObj, execBuildVariant, execBindMatchArgs, execGetProp, execSetProp, execUnwrap,
      execCast, execHalt]
  all_goals frame_steps

end

end Amanda

import Verif.VmLemmas

/-!
# Machine states up to what lies above the stack pointer

`At vm fr l c g w`: the frames, the visible stack (bottom first), the current module, the
globals and the outside world.  One lemma per primitive of vm.rs:109-154.
-/

namespace Amanda

variable {F : Type}

structure At (vm : VM F) (fr : List AmaFunc) (l : List (Val F)) (c : ModRef)
    (g : List ((ModRef × String) × Val F)) (w : World F) : Prop where
  frames : vm.frames = fr
  live : Live vm l
  ctx : vm.ctx = c
  globals : vm.globals = g
  world : vm.world = w

variable {vm : VM F} {fr : List AmaFunc} {l : List (Val F)} {c : ModRef}
  {g : List ((ModRef × String) × Val F)} {w : World F}

theorem At.pop {v : Val F} (h : At vm fr (l ++ [v]) c g w) :
    ∃ vm', vm.pop = .ok (v, vm') ∧ At vm' fr l c g w := by
  obtain ⟨vals, e, hl⟩ := h.live.pop
  exact ⟨_, e, h.frames, hl, h.ctx, h.globals, h.world⟩

theorem At.push (h : At vm fr l c g w) (v : Val F) :
    ∃ vm', vm.push v = .ok vm' ∧ At vm' fr (l ++ [v]) c g w := by
  obtain ⟨vals, e, hl⟩ := h.live.push v
  exact ⟨_, e, h.frames, hl, h.ctx, h.globals, h.world⟩

/-- The top frame, one instruction further. -/
def AmaFunc.next (f : AmaFunc) : AmaFunc := { f with ip := f.ip + 1 }

theorem At.advance {f : AmaFunc} {fs : List AmaFunc} (h : At vm (f :: fs) l c g w) :
    ∃ vm', vm.advance = .ok vm' ∧ At vm' (f.next :: fs) l c g w := by
  refine ⟨{ vm with frames := f.next :: fs }, ?_, rfl, h.live.of_eq rfl rfl, h.ctx, h.globals, h.world⟩
  simp [VM.advance, h.frames, AmaFunc.next]

theorem At.setWorld (h : At vm fr l c g w) (w' : World F) :
    At { vm with world := w' } fr l c g w' :=
  ⟨h.frames, h.live.of_eq rfl rfl, h.ctx, h.globals, rfl⟩

theorem At.setGlobals (h : At vm fr l c g w) (g' : List ((ModRef × String) × Val F)) :
    At { vm with globals := g' } fr l c g' w :=
  ⟨h.frames, h.live.of_eq rfl rfl, h.ctx, rfl, h.world⟩

theorem At.setFrames (h : At vm fr l c g w) (fr' : List AmaFunc) :
    At { vm with frames := fr' } fr' l c g w :=
  ⟨rfl, h.live.of_eq rfl rfl, h.ctx, h.globals, h.world⟩

theorem At.setCtx (h : At vm fr l c g w) (c' : ModRef) :
    At { vm with ctx := c' } fr l c' g w :=
  ⟨h.frames, h.live.of_eq rfl rfl, rfl, h.globals, h.world⟩

end Amanda

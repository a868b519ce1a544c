import Verif.Vm
import Verif.ExceptLemmas

/-!
# The `values`/`sp` pair as a list

`VM.live` is the part of the value stack the program can see.  `Live vm l` says that it is
`l`; whatever lies above the stack pointer is not mentioned.
-/

namespace Amanda

variable {F : Type}

/-- The stack the machine shows is `l`: `sp` points at its last element and it is stored at
the bottom of the vector.  Anything may lie above. -/
def Live (vm : VM F) (l : List (Val F)) : Prop :=
  vm.sp + 1 = l.length ∧ ∃ garbage, vm.values = l ++ garbage

theorem Live.unique {vm : VM F} {l l' : List (Val F)} (h : Live vm l) (h' : Live vm l') :
    l = l' := by
  obtain ⟨h1, g, h2⟩ := h
  obtain ⟨h1', g', h2'⟩ := h'
  have hl : l.length = l'.length := by omega
  exact (List.append_inj (h2.symm.trans h2') hl).1

theorem Live.sp {vm : VM F} {l : List (Val F)} (h : Live vm l) : vm.sp = (l.length : Int) - 1 := by
  have := h.1
  omega

theorem Live.le {vm : VM F} {l : List (Val F)} (h : Live vm l) : l.length ≤ vm.values.length := by
  obtain ⟨_, g, h2⟩ := h
  simp [h2]

/-- A push leaves everything but the stack alone. -/
theorem Live.push {vm : VM F} {l : List (Val F)} (h : Live vm l) (v : Val F) :
    ∃ values, vm.push v = .ok { vm with sp := vm.sp + 1, values := values } ∧
      Live { vm with sp := vm.sp + 1, values := values } (l ++ [v]) := by
  obtain ⟨h1, g, h2⟩ := h
  unfold VM.push
  rcases g with _ | ⟨x, g⟩
  · refine ⟨vm.values ++ [v], ?_, ?_, [], ?_⟩
    · have : vm.sp + 1 = vm.values.length := by simp [h2, h1]
      simp [this]
    · simp [h1]
    · simp [h2]
  · refine ⟨vm.values.set (vm.sp + 1).toNat v, ?_, ?_, g, ?_⟩
    · have a : ¬ vm.sp + 1 = vm.values.length := by simp [h2, h1]; omega
      have b : vm.sp + 1 < vm.values.length := by simp [h2, h1]; omega
      have c : ¬ vm.sp + 1 < 0 := by omega
      simp only [a, b, c, if_true, if_false]
    · simp [h1]
    · simp [h1, h2]

/-- A pop returns the last element pushed and leaves everything but the stack alone. -/
theorem Live.pop {vm : VM F} {l : List (Val F)} {v : Val F} (h : Live vm (l ++ [v])) :
    ∃ values, vm.pop = .ok (v, { vm with sp := vm.sp - 1, values := values }) ∧
      Live { vm with sp := vm.sp - 1, values := values } l := by
  obtain ⟨h1, g, h2⟩ := h
  simp at h1
  unfold VM.pop
  rcases g with _ | ⟨x, g⟩
  · refine ⟨vm.values.dropLast, ?_, ?_, [], ?_⟩
    · have : vm.sp = (vm.values.length : Int) - 1 := by simp [h2]; omega
      simp only [this, if_true]
      simp [h2, orPanic]
    · simp; omega
    · simp [h2]
  · refine ⟨vm.values.set vm.sp.toNat .none, ?_, ?_, .none :: x :: g, ?_⟩
    · have a : ¬ vm.sp = (vm.values.length : Int) - 1 := by simp [h2]; omega
      have b : vm.sp < (vm.values.length : Int) - 1 := by simp [h2]; omega
      have c : ¬ vm.sp < 0 := by omega
      have d : vm.sp.toNat = l.length := by omega
      simp only [a, b, c, if_true, if_false]
      simp [h2, d, orPanic]
    · simp; omega
    · have d : vm.sp.toNat = l.length := by omega
      simp [h2, d]

/-- Popping an empty stack is a panic, whatever garbage is above. -/
theorem Live.pop_empty {vm : VM F} (h : Live vm []) : vm.pop = .error (.panic vm) := by
  obtain ⟨h1, g, h2⟩ := h
  simp at h1 h2
  have hs : vm.sp = -1 := by omega
  unfold VM.pop
  rcases g with _ | ⟨x, g⟩
  · simp [hs, h2, orPanic]
  · have a : ¬ (-1 : Int) = (vm.values.length : Int) - 1 := by simp [h2]
    have b : (-1 : Int) < (vm.values.length : Int) - 1 := by simp [h2]; omega
    simp only [hs, a, b, if_true, if_false]
    simp

theorem Live.of_eq {vm vm' : VM F} {l : List (Val F)} (h : Live vm l) (hs : vm'.sp = vm.sp)
    (hv : vm'.values = vm.values) : Live vm' l := by
  unfold Live
  rw [hs, hv]
  exact h

theorem Live.slice {vm : VM F} {l a : List (Val F)} (h : Live vm (l ++ a)) :
    vm.slice (vm.sp - ((a.length : Int) - 1)) = some a := by
  obtain ⟨h1, g, h2⟩ := h
  simp at h1
  have e : vm.sp - ((a.length : Int) - 1) = l.length := by omega
  unfold VM.slice
  rw [e]
  have c : (0 : Int) ≤ (l.length : Int) ∧ (l.length : Int) ≤ vm.sp + 1 ∧
      vm.sp + 1 ≤ (vm.values.length : Int) := by
    simp [h2]
    omega
  have d : (vm.sp + 1).toNat = (l ++ a).length := by simp; omega
  rw [if_pos c, d, h2, List.take_left']
  · simp
  · rfl

theorem Live.drop {vm : VM F} {l a : List (Val F)} (h : Live vm (l ++ a)) :
    Live { vm with sp := vm.sp - (a.length : Int) } l := by
  obtain ⟨h1, g, h2⟩ := h
  simp at h1
  exact ⟨by simp; omega, a ++ g, by simp [h2]⟩

theorem Live.dropAbove {vm : VM F} {l : List (Val F)} (h : Live vm l) :
    vm.dropAbove = .ok { vm with values := l } ∧ Live { vm with values := l } l := by
  obtain ⟨h1, g, h2⟩ := h
  refine ⟨?_, h1, [], by simp⟩
  unfold VM.dropAbove
  have c : 0 ≤ vm.sp + 1 ∧ vm.sp + 1 ≤ (vm.values.length : Int) := by simp [h2]; omega
  rw [if_pos c]
  have d : (vm.sp + 1).toNat = l.length := by omega
  simp [d, h2]

/-- Reserving makes the garbage visible and adds empty slots. -/
theorem Live.reserve {vm : VM F} {l : List (Val F)} (h : Live vm l) (n : Nat) :
    ∃ extra, n ≤ extra.length ∧ Live (vm.reserve n) (l ++ extra) := by
  obtain ⟨h1, g, h2⟩ := h
  refine ⟨g ++ List.replicate n .none, by simp, ?_, [], ?_⟩
  · simp [VM.reserve, h2]
  · simp [VM.reserve, h2]

/-- Reading a visible slot. -/
theorem Live.get {vm : VM F} {l : List (Val F)} (h : Live vm l) {i : Nat} (hi : i < l.length) :
    vm.values[i]? = some l[i] := by
  obtain ⟨h1, g, h2⟩ := h
  rw [h2, List.getElem?_append_left hi]
  simp

/-- Writing a visible slot. -/
theorem Live.set {vm : VM F} {l : List (Val F)} (h : Live vm l) {i : Nat} (hi : i < l.length)
    (v : Val F) : Live { vm with values := vm.values.set i v } (l.set i v) := by
  obtain ⟨h1, g, h2⟩ := h
  refine ⟨by simpa using h1, g, ?_⟩
  simp [h2, hi]

end Amanda

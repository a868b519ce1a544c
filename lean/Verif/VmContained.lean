import Verif.VmFrames

/-!
# Instructions that find their operands above a mark leave the stack below it alone
-/

namespace Amanda

variable {F : Type}

/-- The visible stack has `base` at the bottom and at least `k` more values. -/
def Has (base : List (Val F)) (k : Nat) (vm : VM F) : Prop :=
  ∃ mid, k ≤ mid.length ∧ Live vm (base ++ mid)

theorem Has.mono {base : List (Val F)} {k j : Nat} {vm : VM F} (h : Has base k vm) (hj : j ≤ k) :
    Has base j vm := by
  obtain ⟨mid, h1, h2⟩ := h
  exact ⟨mid, by omega, h2⟩

theorem Has.of_eq {base : List (Val F)} {k : Nat} {vm vm' : VM F} (h : Has base k vm)
    (hs : vm'.sp = vm.sp) (hv : vm'.values = vm.values) : Has base k vm' := by
  obtain ⟨mid, h1, h2⟩ := h
  exact ⟨mid, h1, h2.of_eq hs hv⟩

theorem Has.push {base : List (Val F)} {k : Nat} {vm : VM F} (h : Has base k vm) (v : Val F) :
    Post (vm.push v) (Has base (k + 1)) := by
  obtain ⟨mid, h1, h2⟩ := h
  obtain ⟨values, e, h3⟩ := h2.push v
  rw [e]
  exact Post.ok ⟨mid ++ [v], by simp; omega, by simpa using h3⟩

theorem Has.pop {base : List (Val F)} {k : Nat} {vm : VM F} (h : Has base (k + 1) vm) :
    Post vm.pop (fun p => Has base k p.2) := by
  obtain ⟨mid, h1, h2⟩ := h
  rcases List.eq_nil_or_concat mid with rfl | ⟨mid, v, rfl⟩
  · simp at h1
  · rw [List.concat_eq_append, ← List.append_assoc] at h2
    obtain ⟨values, e, h3⟩ := h2.pop
    rw [e]
    exact Post.ok ⟨mid, by simpa using h1, h3⟩

theorem Has.advance {base : List (Val F)} {k : Nat} {vm : VM F} (h : Has base k vm) :
    Post vm.advance (Has base k) := by
  unfold VM.advance
  split
  · exact Post.error
  · exact Post.ok (h.of_eq rfl rfl)

theorem Has.reserve {base : List (Val F)} {k : Nat} {vm : VM F} (h : Has base k vm) (n : Nat) :
    Has base k (vm.reserve n) := by
  obtain ⟨mid, h1, h2⟩ := h
  obtain ⟨extra, _, h3⟩ := h2.reserve n
  exact ⟨mid ++ extra, by simp; omega, by simpa using h3⟩

theorem Has.drop {base : List (Val F)} {k : Nat} (n : Nat) {vm : VM F} (h : Has base (k + n) vm) :
    Has base k { vm with sp := vm.sp - ((n : Int) - 1) - 1 } := by
  obtain ⟨mid, h1, h2⟩ := h
  have e : mid = mid.take (mid.length - n) ++ mid.drop (mid.length - n) := by simp
  rw [e, ← List.append_assoc] at h2
  have h3 := h2.drop
  refine ⟨mid.take (mid.length - n), by simp; omega, h3.of_eq ?_ rfl⟩
  simp
  omega

theorem Has.drain {base : List (Val F)} {k : Nat} (n : Nat) {vm : VM F} (h : Has base (k + n) vm) :
    Has base k { vm with values := vm.drainRange (vm.sp - ((n : Int) - 1)),
                         sp := vm.sp - ((n : Int) - 1) - 1 } := by
  obtain ⟨mid, h1, h2, g, h3⟩ := h
  simp at h2
  refine ⟨mid.take (mid.length - n), by simp; omega, ?_, g, ?_⟩
  · simp; omega
  · have a : (vm.sp - ((n : Int) - 1)).toNat = base.length + (mid.length - n) := by omega
    have b : (vm.sp + 1).toNat = (base ++ mid).length := by simp; omega
    simp only [VM.drainRange]
    rw [a, b, h3, List.drop_left' rfl]
    congr 1
    rw [List.append_assoc, List.take_append, List.take_of_length_le (by omega : base.length ≤ _)]
    congr 1
    rw [List.take_append_of_le_length (by omega)]
    congr 1
    omega

theorem Has.dropAbove {base : List (Val F)} {k : Nat} {vm : VM F} (h : Has base k vm) :
    Post vm.dropAbove (Has base k) := by
  obtain ⟨mid, h1, h2⟩ := h
  obtain ⟨e, h3⟩ := h2.dropAbove
  rw [e]
  exact Post.ok ⟨mid, h1, h3⟩

theorem Has.set {base : List (Val F)} {k : Nat} {vm : VM F} (h : Has base k vm) {i : Nat}
    (hi : base.length ≤ i) (v : Val F) : Has base k { vm with values := vm.values.set i v } := by
  obtain ⟨mid, h1, h2, g, h3⟩ := h
  by_cases hlt : i < (base ++ mid).length
  · have := (Live.set ⟨h2, g, h3⟩ hlt v)
    rw [List.set_append_right (h := hi)] at this
    exact ⟨mid.set (i - base.length) v, by simpa using h1, this⟩
  · refine ⟨mid, h1, h2, g.set (i - (base ++ mid).length) v, ?_⟩
    simp only [h3]
    rw [List.set_append_right (h := by omega)]

theorem Has.setAll {base : List (Val F)} {k : Nat} {cfg : Cfg} {bp : Int} (hb : base.length ≤ bp) :
    ∀ {l : List (Int × Val F)} {vm : VM F} {values : List (Val F)}, Has base k vm →
      (∀ p ∈ l, 0 ≤ p.1) → bindArgs cfg bp l vm.values = some values →
      Has base k { vm with values := values }
  | [], vm, values, h, _, e => by
      simp [bindArgs] at e
      subst e
      exact h
  | (idx, v) :: rest, vm, values, h, hp, e => by
      simp only [bindArgs, localIndex] at e
      have h0 := hp (idx, v) (by simp)
      simp only at h0
      split at e
      · simp at e
      · split at e
        · omega
        · simp only [Option.bind_eq_bind, Option.bind_some] at e
          split at e
          · have h' := h.set (i := (bp + idx).toNat) (by omega) v
            have := Has.setAll hb (vm := { vm with values := vm.values.set (bp + idx).toNat v })
              (values := values) h' (fun p hp' => hp p (by simp [hp'])) e
            exact this
          · simp at e

theorem Post.and {ε α : Type} {x : Except ε α} {P Q : α → Prop} (h : Post x P) (h' : Post x Q) :
    Post x (fun a => P a ∧ Q a) := fun a ha => ⟨h a ha, h' a ha⟩

theorem pop_frames (vm : VM F) : Post vm.pop (fun p => p.2.frames = vm.frames) := by
  unfold VM.pop
  dsimp only
  refine Post.ite (fun _ => Post.bind' fun v _ => Post.ok rfl) fun _ =>
    Post.ite (fun _ => Post.ite (fun _ => Post.error) fun _ => Post.bind' fun v _ => Post.ok rfl)
      fun _ => Post.error

theorem mapM_ok_mem {ε α β : Type} {f : α → Except ε β} :
    ∀ {l : List α} {r : List β}, l.mapM f = .ok r → ∀ b ∈ r, ∃ a ∈ l, f a = .ok b
  | [], r, h, b, hb => by
      simp [pure, Except.pure] at h
      subst h
      simp at hb
  | a :: l, r, h, b, hb => by
      simp only [List.mapM_cons, except_bind_eq_ok] at h
      obtain ⟨x, hx, y, hy, hr⟩ := h
      simp [pure, Except.pure] at hr
      subst hr
      rcases List.mem_cons.1 hb with rfl | hb
      · exact ⟨a, by simp, hx⟩
      · obtain ⟨a', ha', e⟩ := mapM_ok_mem hy b hb
        exact ⟨a', by simp [ha'], e⟩

/-- How many values each instruction takes from the stack. -/
def consumes : Op → List Nat → Nat
  | .opAdd, _ | .opMinus, _ | .opMul, _ | .opDiv, _ | .opFloordiv, _ | .opModulo, _ | .opAnd, _
  | .opOr, _ | .opEq, _ | .opNoteq, _ | .opGreater, _ | .opGreatereq, _ | .opLess, _
  | .opLesseq, _ | .opIndexGet, _ | .cast, _ | .getProp, _ => 2
  | .mostra, _ | .opInvert, _ | .opNot, _ | .setGlobal, _ | .jumpIfFalse, _ | .setLocal, _
  | .ret, _ | .opIsnull, _ | .matchVariant, _ => 1
  | .opIndexSet, _ | .setProp, _ => 3
  | .callFunction, n :: _ | .buildVariant, n :: _ | .bindMatchArgs, n :: _ => n + 1
  | .buildStr, n :: _ | .buildVec, n :: _ => n
  | .buildObj, n :: _ => 2 * n + 1
  | .opUnwrap, n :: _ => if n = 1 then 2 else 1
  | _, _ => 0

/-- Instructions that address locals. -/
def Op.usesLocals : Op → Bool
  | .getLocal | .setLocal | .bindMatchArgs => true
  | _ => false

theorem Has.fin {base : List (Val F)} {k : Nat} {vm : VM F} (h : Has base k vm) :
    Post vm.advance (fun vm' => ∃ k, Has base k vm') :=
  fun a ha => ⟨k, h.advance a ha⟩

theorem operand_cons {n : Nat} {rest : List Nat} {vm : VM F} :
    operand (n :: rest) 0 vm = .ok n := rfl

theorem operand_nil {i : Nat} {vm : VM F} :
    operand [] i vm = .error (.panic vm) := rfl

section
variable [FloatOps F]

/-- The instruction finds its operands above `base`, and what it addresses relative to the
frame lies above `base` too; a called function is one as loaded from an image (`bp: -1`,
binload.rs:287); a returned value lies above the base of its frame. -/
def Fits (base : List (Val F)) (vm : VM F) (op : Op) (args : List Nat) : Prop :=
  (∃ mid, consumes op args ≤ mid.length ∧ Live vm (base ++ mid) ∧
    (op = .bindMatchArgs → ∀ v ∈ mid, ∀ n, v.takeInt = .ok n → 0 ≤ n)) ∧
  (op.usesLocals = true → ∀ f fs, vm.frames = f :: fs → (base.length : Int) ≤ f.bp) ∧
  (op = .callFunction → ∀ l g, Live vm (l ++ [.func g]) → g.bp = -1) ∧
  (op = .ret → ∀ f fs, vm.frames = f :: fs → f.bp ≤ vm.sp)

macro "has_steps" : tactic => `(tactic| repeat' first
  | exact Post.error
  | exact Has.fin (by assumption)
  | exact Has.fin (Has.of_eq (by assumption) rfl rfl)
  | exact Post.ok ⟨_, Has.of_eq (by assumption) rfl rfl⟩
  | (refine Post.bind (Has.push (by assumption) _) ?_; intro _ _; try dsimp only)
  | (refine Post.bind (Has.push (Has.of_eq (by assumption) rfl rfl) _) ?_; intro _ _; try dsimp only)
  | (refine Post.bind (Has.pop (by assumption)) ?_; rintro ⟨_, _⟩ _; try dsimp only at *)
  | (refine Post.bind (Has.dropAbove (by assumption)) ?_; intro _ _; try dsimp only)
  | (refine Post.bind' ?_; intro _ _; try dsimp only)
  | split)

theorem exec_below (cfg : Cfg) (prog : Program F) (m : Module F) {base : List (Val F)}
    {vm : VM F} {op : Op} {args : List Nat} (h : Fits base vm op args)
    (hop : op.isCallOrRet = false) :
    Post (exec cfg prog m vm op args) (fun vm' => Has base 0 vm') := by
  have hh : Has base (consumes op args) vm := by
    obtain ⟨⟨mid, h1, h2, _⟩, _⟩ := h
    exact ⟨mid, h1, h2⟩
  suffices hs : Post (exec cfg prog m vm op args) (fun vm' => ∃ k, Has base k vm') by
    intro vm' hv
    obtain ⟨k, hk⟩ := hs vm' hv
    exact hk.mono (by omega)
  cases op <;> simp only [Op.isCallOrRet, Bool.true_eq_false] at hop <;>
    simp only [exec, execBin, execUnary, execIndexGet, execIndexSet, execBuildStr, execBuildVec,
      execBuildObj, execBuildVariant, execBindMatchArgs, execGetProp, execSetProp, execUnwrap,
      execCast, execHalt] 
  case buildStr =>
    rcases args with _ | ⟨n, rest⟩
    · exact Post.error
    simp only [operand_cons, except_bind_ok, consumes] at *
    have := Has.drop (k := 0) n (by simpa using hh)
    has_steps
  case buildVec =>
    rcases args with _ | ⟨n, rest⟩
    · exact Post.error
    simp only [operand_cons, except_bind_ok, consumes] at *
    have := Has.drop (k := 0) n (by simpa using hh)
    has_steps
  case buildObj =>
    rcases args with _ | ⟨n, rest⟩
    · exact Post.error
    simp only [operand_cons, except_bind_ok, consumes] at *
    refine Post.bind (Has.pop hh) ?_
    rintro ⟨r, vm⟩ hv
    dsimp only at *
    have h2 := Has.drain (k := 0) (2 * n) (by simpa using hv)
    rw [show ((2 * n : Nat) : Int) = (n : Int) * 2 by omega] at h2
    has_steps
  case buildVariant =>
    rcases args with _ | ⟨n, rest⟩
    · exact Post.error
    simp only [operand_cons, except_bind_ok, consumes] at *
    refine Post.bind (Has.pop hh) ?_
    rintro ⟨r, vm⟩ hv
    dsimp only at *
    have h2 := Has.drain (k := 0) n (by simpa using hv)
    has_steps
  case bindMatchArgs =>
    rcases args with _ | ⟨n, rest⟩
    · exact Post.error
    simp only [operand_cons, except_bind_ok, consumes] at *
    obtain ⟨⟨mid, h1, h2, hpos⟩, hloc, _⟩ := h
    have hpos := hpos rfl
    have hloc := hloc rfl
    simp only [consumes] at h1
    refine Post.ite (fun _ => Post.error) fun _ => ?_
    refine Post.bind' fun items hitems => ?_
    refine Post.bind' fun idxs hidxs => ?_
    refine Post.ite (fun _ => Post.error) fun _ => ?_
    have e : mid = mid.take (mid.length - n) ++ mid.drop (mid.length - n) := by simp
    have hsl : items = mid.drop (mid.length - n) := by
      have h3 := h2
      rw [e, ← List.append_assoc] at h3
      have := h3.slice
      rw [show ((mid.drop (mid.length - n)).length : Int) = n by simp; omega] at this
      rw [this] at hitems
      simpa [orPanic] using hitems.symm
    have hnn : ∀ i ∈ idxs, 0 ≤ i := by
      intro i hi
      cases hm : items.mapM Val.takeInt with
      | error e => rw [hm] at hidxs; cases e <;> simp [Res.lift] at hidxs
      | ok r =>
          rw [hm] at hidxs
          simp [Res.lift] at hidxs
          subst hidxs
          obtain ⟨v, hv, hvi⟩ := mapM_ok_mem hm i hi
          rw [hsl] at hv
          exact hpos v (List.mem_of_mem_drop hv) i hvi
    have hd := Has.drain (k := 1) n (by simpa [Nat.add_comm] using hh)
    refine Post.bind (Post.and (Has.pop hd) (pop_frames _)) ?_
    rintro ⟨o, vm'⟩ ⟨hp, hf⟩
    dsimp only at *
    split
    · split
      · refine Post.bind' fun f hff => ?_
        refine Post.ite (fun _ => ?_) fun _ => Post.error
        refine Post.bind' fun values hvals => ?_
        refine Has.fin (k := 0) ?_
        rename_i args _ _
        have hfb : (base.length : Int) ≤ f.bp := by
          rw [VM.top, hf] at hff
          rcases hfr : vm.frames with _ | ⟨g, gs⟩
          · simp [hfr, orPanic] at hff
          · simp [hfr, orPanic] at hff
            subst hff
            exact hloc g gs hfr
        refine Has.setAll (cfg := cfg) hfb hp (l := idxs.zip args) ?_ ?_
        · rintro ⟨i, v⟩ hp
          exact hnn i (List.of_mem_zip hp).1
        · cases hbb : bindArgs cfg f.bp (idxs.zip args) vm'.values with
          | none => simp [hbb, orPanic] at hvals
          | some x => simp [hbb, orPanic] at hvals; rw [hvals]
      · exact Post.error
    · exact Post.error
  case opUnwrap =>
    rcases args with _ | ⟨n, rest⟩
    · exact Post.error
    simp only [operand_cons, except_bind_ok, consumes] at *
    by_cases hn : n = 1
    · simp only [hn, if_true] at *
      has_steps
    · simp only [hn, if_false] at *
      has_steps
  case setLocal =>
    simp only [consumes] at hh
    have hloc := h.2.1 rfl
    refine Post.bind' fun idx _ => ?_
    refine Post.bind' fun f hf => ?_
    refine Post.bind' fun i hi => ?_
    refine Post.bind (Has.pop hh) ?_
    rintro ⟨v, vm'⟩ hp
    dsimp only at *
    refine Post.ite (fun _ => ?_) fun _ => Post.error
    refine Has.fin (Has.set hp ?_ _)
    have hfb : (base.length : Int) ≤ f.bp := by
      rcases hfr : vm.frames with _ | ⟨g, gs⟩
      · simp [VM.top, hfr, orPanic] at hf
      · simp [VM.top, hfr, orPanic] at hf
        subst hf
        exact hloc g gs hfr
    unfold localIndex at hi
    split at hi
    · simp [orPanic] at hi
    · split at hi
      · simp [orPanic] at hi
      · simp [orPanic] at hi
        omega
  all_goals
    simp only [consumes] at hh
    has_steps

end

end Amanda

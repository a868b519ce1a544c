import Verif.GenFrame

/-!
# Pieces of generated code inside the finished code

`Fits fin L s s'`: the code generated from `s` to `s'` is part of the finished module `fin`, inside a
function whose locals end up in table `L`.  `Fits.split` cuts such a piece at a step of the generator.
-/

namespace Amanda

namespace Codegen

open Source

/-- The piece of code generated from `s` to `s'` is part of the final code `fin`, in a function whose
locals end up in table `L`. -/
structure Fits (fin : Gen) (L : List (String × Nat)) (s s' : Gen) : Prop where
  ops : s'.ops <+: fin.ops
  ip : s.ip = codeSize s.ops
  consts : s'.consts <+: fin.consts
  names : s'.names <+: fin.names
  variants : s'.variants <+: fin.variants
  registos : s'.registos <+: fin.registos
  labels : ∀ l, s.labels.length ≤ l → l < s'.labels.length → fin.labels[l]? = s'.labels[l]?
  dense : Dense L
  locals : s'.funcLocals <+: L

/-- The generator went from `s` to `s'`; the labels of `s` from number `b` on are as they were. -/
structure Step (b : Nat) (s s' : Gen) : Prop where
  ops : s.ops <+: s'.ops
  ip : s'.ip + codeSize s.ops = s.ip + codeSize s'.ops
  consts : s.consts <+: s'.consts
  names : s.names <+: s'.names
  variants : s.variants <+: s'.variants
  registos : s.registos <+: s'.registos
  count : s.labels.length ≤ s'.labels.length
  labels : ∀ l, b ≤ l → l < s.labels.length → s'.labels[l]? = s.labels[l]?
  locals : Dense s'.funcLocals → s.funcLocals <+: s'.funcLocals

theorem Step.refl (b : Nat) (s : Gen) : Step b s s where
  ops := List.prefix_rfl
  ip := rfl
  consts := List.prefix_rfl
  names := List.prefix_rfl
  variants := List.prefix_rfl
  registos := List.prefix_rfl
  count := Nat.le_refl _
  labels := fun _ _ _ => rfl
  locals := fun _ => List.prefix_rfl

theorem Step.trans {b : Nat} {r s t : Gen} (h : Step b r s) (k : Step b s t) : Step b r t where
  ops := h.ops.trans k.ops
  ip := by have := h.ip; have := k.ip; omega
  consts := h.consts.trans k.consts
  names := h.names.trans k.names
  variants := h.variants.trans k.variants
  registos := h.registos.trans k.registos
  count := Nat.le_trans h.count k.count
  labels := fun l hb hl => (k.labels l hb (Nat.lt_of_lt_of_le hl h.count)).trans (h.labels l hb hl)
  locals := fun d => (h.locals (d.prefix (k.locals d))).trans (k.locals d)

theorem Step.mono {b c : Nat} {s t : Gen} (h : Step b s t) (hc : b ≤ c) : Step c s t :=
  { h with labels := fun l hl => h.labels l (Nat.le_trans hc hl) }

/-- Equal in everything that matters. -/
theorem Step.same {b : Nat} {s s' : Gen} (h1 : s'.ops = s.ops) (h2 : s'.ip = s.ip)
    (h3 : s'.consts = s.consts) (h4 : s'.names = s.names) (h5 : s'.variants = s.variants)
    (h6 : s'.registos = s.registos) (h7 : s'.labels = s.labels) (h8 : s'.funcLocals = s.funcLocals) :
    Step b s s' where
  ops := h1 ▸ List.prefix_rfl
  ip := by rw [h1, h2]
  consts := h3 ▸ List.prefix_rfl
  names := h4 ▸ List.prefix_rfl
  variants := h5 ▸ List.prefix_rfl
  registos := h6 ▸ List.prefix_rfl
  count := by rw [h7]; exact Nat.le_refl _
  labels := fun _ _ _ => by rw [h7]
  locals := fun _ => h8 ▸ List.prefix_rfl

theorem Fits.left {fin : Gen} {L : List (String × Nat)} {s t s' : Gen} (F : Fits fin L s s')
    (h2 : Step s.labels.length t s') : Fits fin L s t where
  ops := h2.ops.trans F.ops
  ip := F.ip
  consts := h2.consts.trans F.consts
  names := h2.names.trans F.names
  variants := h2.variants.trans F.variants
  registos := h2.registos.trans F.registos
  labels := fun l hl hr =>
    (F.labels l hl (Nat.lt_of_lt_of_le hr h2.count)).trans (h2.labels l hl hr)
  dense := F.dense
  locals := (h2.locals (F.dense.prefix F.locals)).trans F.locals

theorem Fits.right {fin : Gen} {L : List (String × Nat)} {b : Nat} {s t s' : Gen} (F : Fits fin L s s')
    (h1 : Step b s t) : Fits fin L t s' :=
  { F with
    ip := by have := F.ip; have := h1.ip; omega
    labels := fun l hl hr => F.labels l (Nat.le_trans h1.count hl) hr }

/-- What a step of code generation in scope `sc` does. -/
structure Good1 (b : Nat) (s s' : Gen) : Prop where
  step : Step b s s'
  scope : s'.scope = s.scope
  start : s'.loopStart = s.loopStart
  exit : s'.loopExit = s.loopExit

theorem Good1.refl (b : Nat) (s : Gen) : Good1 b s s := ⟨Step.refl b s, rfl, rfl, rfl⟩

theorem Good1.trans {b : Nat} {r s t : Gen} (h : Good1 b r s) (k : Good1 b s t) : Good1 b r t :=
  ⟨h.step.trans k.step, k.scope.trans h.scope, k.start.trans h.start, k.exit.trans h.exit⟩

theorem Good1.mono {b c : Nat} {s t : Gen} (h : Good1 b s t) (hc : b ≤ c) : Good1 c s t :=
  ⟨h.step.mono hc, h.scope, h.start, h.exit⟩

/-- Every run of `m` in scope `sc`, started with at least `b` labels, leaves the labels from number `b`
on as they were. -/
def Good (b : Nat) (sc : Option ScopeId) (m : G α) : Prop :=
  ∀ s a s', b ≤ s.labels.length → s.scope = sc → m s = .ok (a, s') → Good1 b s s'

theorem good_of {b : Nat} {sc : Option ScopeId} {m : G α} (hk : ∀ n, Keeps n m) (hf : Fr sc m) :
    Good b sc m := by
  intro s a s' _ hs hr
  have e := hk s.labels.length s a s' (Nat.le_refl _) hr
  have f := hf s a s' hr hs
  refine ⟨⟨e.ops, e.ip, e.consts, e.names, e.variants, e.registos, e.count, fun l _ hl => ?_, f.locals⟩,
    f.scope, f.start, f.exit⟩
  have h1 : (s.labels.take s.labels.length)[l]? = (s'.labels.take s.labels.length)[l]? := by rw [e.labels]
  rw [List.getElem?_take_of_lt hl, List.getElem?_take_of_lt hl] at h1
  exact h1.symm

theorem good_bind {b : Nat} {sc : Option ScopeId} {m : G α} {f : α → G β} (h : Good b sc m)
    (k : ∀ a, Good b sc (f a)) : Good b sc (m >>= f) := by
  intro s x s'' hb hs hr
  obtain ⟨a, s', h1, h2⟩ := G.bind_ok.1 hr
  have e := h s a s' hb hs h1
  exact e.trans (k a s' x s'' (Nat.le_trans hb e.step.count) (e.scope.trans hs) h2)

theorem good_patch {b l : Nat} {sc : Option ScopeId} (hl : l < b) : Good b sc (patchLabel l) := by
  intro s a s' hb hs hr
  have e := fr_patch l s a s' hr hs
  unfold patchLabel at hr
  split at hr
  · cases hr
  · obtain ⟨-, rfl⟩ := Prod.mk.inj (Except.ok.inj hr)
    refine ⟨⟨List.prefix_rfl, rfl, List.prefix_rfl, List.prefix_rfl, List.prefix_rfl, List.prefix_rfl,
      by simp, fun k hk _ => ?_, e.locals⟩, rfl, rfl, rfl⟩
    exact List.getElem?_set_ne (by omega)

/-- Cutting a piece of code in two. -/
theorem Fits.split {fin : Gen} {L : List (String × Nat)} {b : Nat} {sc : Option ScopeId} {s s' : Gen}
    {m : G α} {f : α → G β} {r : β} (F : Fits fin L s s') (hb : b ≤ s.labels.length)
    (hs : s.scope = sc) (hm : Good b sc m) (hf : ∀ a, Good b sc (f a)) (h : (m >>= f) s = .ok (r, s')) :
    ∃ a t, m s = .ok (a, t) ∧ f a t = .ok (r, s') ∧ Fits fin L s t ∧ Fits fin L t s' ∧
      Good1 b s t ∧ t.scope = sc ∧ b ≤ t.labels.length := by
  obtain ⟨a, t, h1, h2⟩ := G.bind_ok.1 h
  have g1 := hm s a t hb hs h1
  have hbt := Nat.le_trans hb g1.step.count
  have g2 := hf a t r s' hbt (g1.scope.trans hs) h2
  exact ⟨a, t, h1, h2, F.left (g2.step.mono hb), F.right g1.step, g1, g1.scope.trans hs, hbt⟩

/-- A block. -/
theorem Fits.scoped {fin : Gen} {L : List (String × Nat)} {ctx : GenCtx} {x : ScopeId} {s s' : Gen}
    {m : G Unit} {u : Unit} (F : Fits fin L s s') (h : genScoped ctx x m s = .ok (u, s')) :
    ∃ t t', m t = .ok ((), t') ∧ Fits fin L t t' ∧ t.scope = some x ∧ t.ip = s.ip ∧ t'.ip = s'.ip ∧
      t.labels = s.labels ∧ t'.labels = s'.labels ∧
      t.loopStart = s.loopStart ∧ t.loopExit = s.loopExit ∧ Step 0 s t ∧ Step 0 t' s' := by
  unfold genScoped at h
  gbind h with u1 t h1
  gbind h with u2 t' h2
  have e1 := (modify_ok h1)
  have e2 := (modify_ok h)
  have s1 : Step 0 s t := by subst e1; exact Step.same rfl rfl rfl rfl rfl rfl rfl rfl
  have s2 : Step 0 t' s' := by subst e2; exact Step.same rfl rfl rfl rfl rfl rfl rfl rfl
  refine ⟨t, t', h2, (F.right s1).left (s2.mono (Nat.zero_le _)), ?_, ?_, ?_, ?_, ?_, ?_, ?_, s1, s2⟩
  all_goals (first | rw [e1] | rw [e2])

end Codegen

end Amanda

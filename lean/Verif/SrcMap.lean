import Verif.Compile
import Verif.Loader
import Mathlib.Data.List.Induction

/-!
# The source map

What the virtual machine finds in a source map (`offset_to_line`) against the history of the instructions
that were appended.  An entry `(l, o)` of a history says that an instruction was appended at offset `o` while
`lineno` was `l`.
-/

namespace Amanda

namespace Codegen

/-! ## Specification -/

/-- Line `l` has instructions at offsets on both sides of `o`, or at `o`. -/
def Spans (log : List (Int × Nat)) (l : Int) (o : Nat) : Prop :=
  ∃ a b, (l, a) ∈ log ∧ (l, b) ∈ log ∧ a ≤ o ∧ o ≤ b

/-- No instruction of line `l'` comes before the first one of line `l`. -/
def StartsFirst (log : List (Int × Nat)) (l l' : Int) : Prop :=
  ∃ a, (l, a) ∈ log ∧ ∀ b, (l', b) ∈ log → a ≤ b

/-- Offsets grow. -/
def Rising (log : List (Int × Nat)) : Prop := log.Pairwise fun p q => p.2 < q.2

/-- No line is taken up again after another one. -/
def NoReturn (log : List (Int × Nat)) : Prop :=
  ∀ l m a b c, (l, a) ∈ log → (m, b) ∈ log → (l, c) ∈ log → a ≤ b → b ≤ c → m = l

/-! ## Lemmas -/

/-- `src_map` after a history. -/
def notes (log : List (Int × Nat)) (m : List (Int × List Nat)) : List (Int × List Nat) :=
  log.foldl (fun m p => noteLine p.1 p.2 m) m

theorem notes_snoc (log : List (Int × Nat)) (p : Int × Nat) (m : List (Int × List Nat)) :
    notes (log ++ [p]) m = noteLine p.1 p.2 (notes log m) := by simp [notes, List.foldl_append]

/-- One more offset at the end. -/
def extend (o : Nat) : List Nat → List Nat
  | [] => [o]
  | [a] => [a, o]
  | a :: b :: more => if b < o then a :: o :: more else a :: b :: more

theorem noteLine_cases (l : Int) (o : Nat) (m : List (Int × List Nat)) :
    (∃ m1 offs m2, m = m1 ++ (l, offs) :: m2 ∧ noteLine l o m = m1 ++ (l, extend o offs) :: m2) ∨
    ((∀ e ∈ m, e.1 ≠ l) ∧ noteLine l o m = m ++ [(l, [o])]) := by
  induction m with
  | nil => exact .inr ⟨by simp, rfl⟩
  | cons e m ih =>
      obtain ⟨k, offs⟩ := e
      by_cases h : k = l
      · subst h
        refine .inl ⟨[], offs, m, rfl, ?_⟩
        simp only [noteLine, ↓reduceIte, List.nil_append, List.cons.injEq, and_true, Prod.mk.injEq, true_and]
        match offs with
        | [] => rfl
        | [_] => rfl
        | _ :: _ :: _ => rfl
      · rcases ih with ⟨m1, offs', m2, rfl, h2⟩ | ⟨h1, h2⟩
        · exact .inl ⟨(k, offs) :: m1, offs', m2, rfl, by simp [noteLine, h, h2]⟩
        · exact .inr ⟨fun e he => (List.mem_cons.1 he).elim (fun x => x ▸ h) (h1 e), by simp [noteLine, h, h2]⟩

/-- What an entry of the map says about the history. -/
structure EntryOk (log : List (Int × Nat)) (e : Int × List Nat) (a b : Nat) : Prop where
  shape : (e.2 = [a] ∧ b = a) ∨ e.2 = [a, b]
  first : (e.1, a) ∈ log
  last : (e.1, b) ∈ log
  all : ∀ x, (e.1, x) ∈ log → a ≤ x ∧ x ≤ b

/-- The map of a history. -/
structure MapOk (log : List (Int × Nat)) (m : List (Int × List Nat)) : Prop where
  entries : ∀ e ∈ m, ∃ a b, EntryOk log e a b
  keys : ∀ l o, (l, o) ∈ log → ∃ e ∈ m, e.1 = l
  order : m.Pairwise fun e e' => ∀ x, (e'.1, x) ∈ log → ∃ a, (e.1, a) ∈ log ∧ a < x
  distinct : m.Pairwise fun e e' => e.1 ≠ e'.1

theorem mapOk_step {log : List (Int × Nat)} {m : List (Int × List Nat)} {l : Int} {o : Nat} (h : MapOk log m)
    (ho : ∀ p ∈ log, p.2 < o) : MapOk (log ++ [(l, o)]) (noteLine l o m) := by
  have other : ∀ e a b, EntryOk log e a b → e.1 ≠ l → EntryOk (log ++ [(l, o)]) e a b := by
    intro e a b he hl
    refine ⟨he.shape, by simp [he.first], by simp [he.last], fun x hx => ?_⟩
    simp only [List.mem_append, List.mem_singleton, Prod.mk.injEq] at hx
    rcases hx with hx | ⟨hx, -⟩
    · exact he.all x hx
    · exact absurd hx hl
  rcases noteLine_cases l o m with ⟨m1, offs, m2, rfl, h2⟩ | ⟨h1, h2⟩
  · rw [h2]
    obtain ⟨a, b, he⟩ := h.entries (l, offs) (by simp)
    have hd := h.distinct
    rw [List.pairwise_append] at hd
    obtain ⟨hd1, hd2, hd3⟩ := hd
    rw [List.pairwise_cons] at hd2
    have hab : a ≤ b := (he.all b he.last).1
    have hbo : b < o := ho _ he.last
    have hnew : EntryOk (log ++ [(l, o)]) (l, extend o offs) a o := by
      refine ⟨?_, by simp [he.first], by simp, fun x hx => ?_⟩
      · rcases he.shape with ⟨h3, h4⟩ | h3
        · simp only at h3
          exact .inr (by simp [h3, extend])
        · simp only at h3
          exact .inr (by simp [h3, extend, hbo])
      · simp only [List.mem_append, List.mem_singleton, Prod.mk.injEq, true_and] at hx
        rcases hx with hx | rfl
        · exact ⟨(he.all x hx).1, by have := (he.all x hx).2; omega⟩
        · exact ⟨by omega, Nat.le_refl _⟩
    have key : ∀ e e' : Int × List Nat, (∃ a, (e.1, a) ∈ log) →
        (∀ x, (e'.1, x) ∈ log → ∃ a, (e.1, a) ∈ log ∧ a < x) →
        ∀ x, (e'.1, x) ∈ log ++ [(l, o)] → ∃ a, (e.1, a) ∈ log ++ [(l, o)] ∧ a < x := by
      intro e e' ⟨a0, ha0⟩ hk x hx
      simp only [List.mem_append, List.mem_singleton, Prod.mk.injEq] at hx
      rcases hx with hx | ⟨-, rfl⟩
      · obtain ⟨a, h3, h4⟩ := hk x hx
        exact ⟨a, by simp [h3], h4⟩
      · exact ⟨a0, by simp [ha0], ho _ ha0⟩
    have has : ∀ e ∈ m1 ++ (l, offs) :: m2, ∃ a, (e.1, a) ∈ log := fun e hm => by
      obtain ⟨a, b, h3⟩ := h.entries e hm
      exact ⟨a, h3.first⟩
    refine ⟨?_, ?_, ?_, ?_⟩
    · intro e hm
      simp only [List.mem_append, List.mem_cons] at hm
      rcases hm with hm | rfl | hm
      · obtain ⟨a', b', h3⟩ := h.entries e (by simp [hm])
        exact ⟨a', b', other e a' b' h3 (hd3 e hm (l, offs) (by simp))⟩
      · exact ⟨a, o, hnew⟩
      · obtain ⟨a', b', h3⟩ := h.entries e (by simp [hm])
        exact ⟨a', b', other e a' b' h3 (Ne.symm (hd2.1 e hm))⟩
    · intro k x hx
      simp only [List.mem_append, List.mem_singleton, Prod.mk.injEq] at hx
      rcases hx with hx | ⟨rfl, -⟩
      · obtain ⟨e, hm, rfl⟩ := h.keys k x hx
        simp only [List.mem_append, List.mem_cons] at hm
        rcases hm with hm | rfl | hm
        · exact ⟨e, by simp [hm], rfl⟩
        · exact ⟨(l, extend o offs), by simp, rfl⟩
        · exact ⟨e, by simp [hm], rfl⟩
      · exact ⟨(k, extend o offs), by simp, rfl⟩
    · have ho' := h.order
      rw [List.pairwise_append, List.pairwise_cons] at ho' ⊢
      obtain ⟨o1, ⟨o2, o3⟩, o4⟩ := ho'
      refine ⟨?_, ⟨?_, ?_⟩, ?_⟩
      · exact o1.imp_of_mem fun {e e'} h3 _ hr => key e e' (has e (by simp [h3])) hr
      · intro e hm
        exact key (l, extend o offs) e ⟨a, he.first⟩ (o2 e hm)
      · exact o3.imp_of_mem fun {e e'} h3 _ hr => key e e' (has e (by simp [h3])) hr
      · intro e hm e' hm'
        simp only [List.mem_cons] at hm'
        rcases hm' with rfl | hm'
        · exact key e (l, extend o offs) (has e (by simp [hm])) (o4 e hm (l, offs) (by simp))
        · exact key e e' (has e (by simp [hm])) (o4 e hm e' (by simp [hm']))
    · rw [List.pairwise_append, List.pairwise_cons]
      refine ⟨hd1, ⟨fun e hm => hd2.1 e hm, hd2.2⟩, ?_⟩
      intro e hm e' hm'
      simp only [List.mem_cons] at hm'
      rcases hm' with rfl | hm'
      · exact hd3 e hm (l, offs) (by simp)
      · exact hd3 e hm e' (by simp [hm'])
  · rw [h2]
    have hno : ∀ x, (l, x) ∉ log := by
      intro x hx
      obtain ⟨e, hm, he⟩ := h.keys l x hx
      exact h1 e hm he
    refine ⟨?_, ?_, ?_, ?_⟩
    · intro e hm
      simp only [List.mem_append, List.mem_singleton] at hm
      rcases hm with hm | rfl
      · obtain ⟨a, b, h3⟩ := h.entries e hm
        exact ⟨a, b, other e a b h3 (h1 e hm)⟩
      · refine ⟨o, o, .inl ⟨rfl, rfl⟩, by simp, by simp, fun x hx => ?_⟩
        simp only [List.mem_append, List.mem_singleton, Prod.mk.injEq, true_and] at hx
        rcases hx with hx | rfl
        · exact absurd hx (hno x)
        · exact ⟨Nat.le_refl _, Nat.le_refl _⟩
    · intro k x hx
      simp only [List.mem_append, List.mem_singleton, Prod.mk.injEq] at hx
      rcases hx with hx | ⟨rfl, -⟩
      · obtain ⟨e, hm, he⟩ := h.keys k x hx
        exact ⟨e, by simp [hm], he⟩
      · exact ⟨(k, [o]), by simp, rfl⟩
    · rw [List.pairwise_append]
      refine ⟨?_, by simp, ?_⟩
      · refine h.order.imp_of_mem fun {e e'} h3 h4 hr x hx => ?_
        simp only [List.mem_append, List.mem_singleton, Prod.mk.injEq] at hx
        rcases hx with hx | ⟨hx, -⟩
        · obtain ⟨a, h5, h6⟩ := hr x hx
          exact ⟨a, by simp [h5], h6⟩
        · exact absurd hx (h1 e' h4)
      · intro e hm e' hm' x hx
        simp only [List.mem_singleton] at hm'
        subst hm'
        simp only [List.mem_append, List.mem_singleton, Prod.mk.injEq, true_and] at hx
        rcases hx with hx | rfl
        · exact absurd hx (hno x)
        · obtain ⟨a, b, h3⟩ := h.entries e hm
          exact ⟨a, by simp [h3.first], ho _ h3.first⟩
    · rw [List.pairwise_append]
      refine ⟨h.distinct, by simp, ?_⟩
      intro e hm e' hm'
      simp only [List.mem_singleton] at hm'
      subst hm'
      exact h1 e hm

theorem mapOk_notes {log : List (Int × Nat)} (h : Rising log) : MapOk log (notes log []) := by
  induction log using List.reverseRecOn with
  | nil => exact ⟨by simp [notes], by simp, by simp [notes], by simp [notes]⟩
  | append_singleton log p ih =>
      unfold Rising at h
      rw [List.pairwise_append] at h
      obtain ⟨h1, -, h3⟩ := h
      rw [notes_snoc]
      exact mapOk_step (ih h1) fun q hq => h3 q hq p (by simp)

/-- Looking up an offset in the flattened map. -/
theorem lookup_flat {log : List (Int × Nat)} {m : List (Int × List Nat)} {src : List Int}
    (he : ∀ e ∈ m, ∃ a b, EntryOk log e a b) (hord : m.Pairwise fun e e' => ∀ x, (e'.1, x) ∈ log → ∃ a, (e.1, a) ∈ log ∧ a < x)
    (hf : flattenSrc m = .ok src) (hsmall : ∀ n ∈ src, InI64 n) (o : Nat) :
    (∃ l, (∃ e ∈ m, e.1 = l) ∧ l ≠ 0 ∧ Spans log l o ∧ offsetToLine o (src.map asUsize) = some (asUsize l) ∧
      ∀ e ∈ m, e.1 ≠ 0 → Spans log e.1 o → e.1 = l ∨ ∀ x, (e.1, x) ∈ log → ∃ a, (l, a) ∈ log ∧ a < x) ∨
    ((∀ e ∈ m, e.1 ≠ 0 → ¬ Spans log e.1 o) ∧ offsetToLine o (src.map asUsize) = some 0) := by
  induction m generalizing src with
  | nil =>
      simp only [flattenSrc, Except.ok.injEq] at hf
      subst hf
      exact .inr ⟨by simp, rfl⟩
  | cons e m ih =>
      obtain ⟨l, offs⟩ := e
      rw [List.pairwise_cons] at hord
      have he' : ∀ e ∈ m, ∃ a b, EntryOk log e a b := fun e hm => he e (by simp [hm])
      unfold flattenSrc at hf
      by_cases h0 : l = 0
      · rw [if_pos h0] at hf
        rcases ih he' hord.2 hf hsmall with ⟨k, ⟨e, hm, hk⟩, h1, h2, h3, h4⟩ | ⟨h1, h2⟩
        · refine .inl ⟨k, ⟨e, by simp [hm], hk⟩, h1, h2, h3, ?_⟩
          intro e hm hz
          simp only [List.mem_cons] at hm
          rcases hm with rfl | hm
          · exact absurd h0 hz
          · exact h4 e hm hz
        · refine .inr ⟨?_, h2⟩
          intro e hm hz
          simp only [List.mem_cons] at hm
          rcases hm with rfl | hm
          · exact absurd h0 hz
          · exact h1 e hm hz
      · rw [if_neg h0] at hf
        obtain ⟨a, b, hE⟩ := he (l, offs) (by simp)
        have hent : srcEntry l offs = .ok [(a : Int), b, l] := by
          rcases hE.shape with ⟨h1, rfl⟩ | h1
          · simp only at h1; simp [h1, srcEntry]
          · simp only at h1; simp [h1, srcEntry]
        rw [hent] at hf
        cases hr : flattenSrc m with
        | error x => rw [hr] at hf; simp [bind, Except.bind] at hf
        | ok src' =>
            rw [hr] at hf
            simp only [bind, Except.bind, Except.ok.injEq] at hf
            subst hf
            have hus : ∀ x : Nat, x < 2 ^ 64 → asUsize (x : Int) = x := by
              intro x hx
              unfold asUsize
              omega
            have hmap : (([(a : Int), (b : Int), l] ++ src').map asUsize) = a :: b :: asUsize l :: src'.map asUsize := by
              have ha := (hsmall (a : Int) (by simp)).2
              have hb := (hsmall (b : Int) (by simp)).2
              simp [hus a (by omega), hus b (by omega)]
            rw [hmap]
            replace hsmall : ∀ n ∈ src', InI64 n := fun n hn => hsmall n (by simp [hn])
            have hspan : Spans log l o ↔ a ≤ o ∧ o ≤ b := by
              constructor
              · rintro ⟨x, y, hx, hy, h1, h2⟩
                exact ⟨Nat.le_trans (hE.all x hx).1 h1, Nat.le_trans h2 (hE.all y hy).2⟩
              · exact fun ⟨h1, h2⟩ => ⟨a, b, hE.first, hE.last, h1, h2⟩
            by_cases hin : a ≤ o ∧ o ≤ b
            · refine .inl ⟨l, ⟨(l, offs), by simp, rfl⟩, h0, hspan.2 hin, by simp [offsetToLine, hin], ?_⟩
              intro e hm hz hs
              simp only [List.mem_cons] at hm
              rcases hm with rfl | hm
              · exact .inl rfl
              · exact .inr (hord.1 e hm)
            · have hoff : offsetToLine o (a :: b :: asUsize l :: src'.map asUsize) = offsetToLine o (src'.map asUsize) := by
                simp only [offsetToLine, if_neg hin]
              rw [hoff]
              rcases ih he' hord.2 hr hsmall with ⟨k, ⟨e, hm, hk⟩, h1, h2, h3, h4⟩ | ⟨h1, h2⟩
              · refine .inl ⟨k, ⟨e, by simp [hm], hk⟩, h1, h2, h3, ?_⟩
                intro e hm hz hs
                simp only [List.mem_cons] at hm
                rcases hm with rfl | hm
                · exact absurd (hspan.1 hs) hin
                · exact h4 e hm hz hs
              · refine .inr ⟨?_, h2⟩
                intro e hm hz hs
                simp only [List.mem_cons] at hm
                rcases hm with rfl | hm
                · exact absurd (hspan.1 hs) hin
                · exact h1 e hm hz hs

/-- The lines of the history are in the flattened map. -/
theorem line_mem {log : List (Int × Nat)} {src : List Int} (hr : Rising log) (hf : flattenSrc (notes log []) = .ok src)
    {l : Int} {o : Nat} (h : (l, o) ∈ log) (hz : l ≠ 0) : l ∈ src := by
  have hm := mapOk_notes hr
  obtain ⟨e, he, rfl⟩ := hm.keys l o h
  have hent := hm.entries
  generalize notes log [] = m at he hent hf
  clear hm
  induction m generalizing src with
  | nil => cases he
  | cons e' m ih =>
      obtain ⟨l, offs⟩ := e'
      unfold flattenSrc at hf
      by_cases h0 : l = 0
      · rw [if_pos h0] at hf
        rcases List.mem_cons.1 he with rfl | he
        · exact absurd h0 hz
        · exact ih he (fun e hm => hent e (by simp [hm])) hf
      · rw [if_neg h0] at hf
        obtain ⟨a, b, hE⟩ := hent (l, offs) (by simp)
        have hs : srcEntry l offs = .ok [(a : Int), b, l] := by
          rcases hE.shape with ⟨h1, rfl⟩ | h1
          · simp only at h1; simp [h1, srcEntry]
          · simp only at h1; simp [h1, srcEntry]
        rw [hs] at hf
        cases hr : flattenSrc m with
        | error x => rw [hr] at hf; simp [bind, Except.bind] at hf
        | ok src' =>
            rw [hr] at hf
            simp only [bind, Except.bind, Except.ok.injEq] at hf
            subst hf
            rcases List.mem_cons.1 he with rfl | he
            · simp
            · have := ih he (fun e hm => hent e (by simp [hm])) hr
              simp [this]

/-- The line found at an offset: of the lines with instructions on both sides of it, the one that started
first; 0 when there is none. -/
theorem line_found {log : List (Int × Nat)} {src : List Int} (hr : Rising log)
    (hf : flattenSrc (notes log []) = .ok src) (hsmall : ∀ n ∈ src, InI64 n) (o : Nat) :
    (∃ l, l ≠ 0 ∧ Spans log l o ∧ (∀ l', l' ≠ 0 → Spans log l' o → StartsFirst log l l') ∧
      offsetToLine o (src.map asUsize) = some (asUsize l)) ∨
    ((∀ l, l ≠ 0 → ¬ Spans log l o) ∧ offsetToLine o (src.map asUsize) = some 0) := by
  have hm := mapOk_notes hr
  rcases lookup_flat hm.entries hm.order hf hsmall o with ⟨l, ⟨e, he, rfl⟩, h1, h2, h3, h4⟩ | ⟨h1, h2⟩
  · refine .inl ⟨e.1, h1, h2, ?_, h3⟩
    intro l' hz hs
    obtain ⟨a', b', ha', -⟩ := id hs
    obtain ⟨e', hm', rfl⟩ := hm.keys l' a' ha'
    rcases h4 e' hm' hz hs with h | h
    · obtain ⟨a, b, hE⟩ := hm.entries e he
      exact ⟨a, hE.first, fun x hx => (hE.all x (h ▸ hx)).1⟩
    · obtain ⟨a, b, hE⟩ := hm.entries e he
      refine ⟨a, hE.first, fun x hx => ?_⟩
      obtain ⟨y, hy, hlt⟩ := h x hx
      have := (hE.all y hy).1
      omega
  · refine .inr ⟨?_, h2⟩
    intro l hz hs
    obtain ⟨a, b, ha, -⟩ := id hs
    obtain ⟨e, he, rfl⟩ := hm.keys l a ha
    exact h1 e he hz hs

end Codegen

end Amanda

import Verif.IgualaFail

/-!
# Grouping rows by the literal they test

The bookkeeping of `compile_infinite_cases` on its own: which rows end up in which case.
-/

namespace Amanda.Iguala

/-- Whether a value is built with a constructor. -/
def fits (k : Cons) (x : V) : Bool := (parts k x).isSome

/-- Numbers and texts. -/
def Cons.isLit : Cons → Bool
  | .int _ | .str _ => true
  | _ => false

/-- Literals that denote the same value. -/
def litEq : Cons → Cons → Bool
  | .int a, .int b => decide (a = b)
  | .str a, .str b => decide (textOf a = textOf b)
  | _, _ => false

theorem fits_litEq {k k' : Cons} {x : V} (hk : k.isLit = true) (h : fits k x = true) :
    fits k' x = litEq k k' := by
  cases k with
  | int a =>
    cases x with
    | int m =>
      simp only [fits, parts] at h
      have hm : m = a := by
        by_cases e : m = a
        · exact e
        · simp [e] at h
      subst hm
      cases k' with
      | int b =>
        by_cases e : m = b <;> simp [fits, parts, litEq, e]
      | _ => simp [fits, parts, litEq]
    | _ => simp [fits, parts] at h
  | str a =>
    cases x with
    | str m =>
      simp only [fits, parts] at h
      have hm : m = textOf a := by
        by_cases e : m = textOf a
        · exact e
        · simp [e] at h
      subst hm
      cases k' with
      | str b =>
        by_cases e : textOf a = textOf b <;> simp [fits, parts, litEq, e]
      | _ => simp [fits, parts, litEq]
    | _ => simp [fits, parts] at h
  | _ => simp [Cons.isLit] at hk

theorem parts_lit {k : Cons} {x : V} (hk : k.isLit = true) (h : fits k x = true) :
    parts k x = some [] := by
  cases k <;> cases x <;> simp_all [Cons.isLit, fits, parts]

/-- The raw cases made from rows with their literals. -/
def groups : List (Nat × Cons) → List (Cons × Nat) → List RawCase → List RawCase
  | [], _, raw => raw
  | (r, k) :: xs, tested, raw =>
    match testedGet k tested with
    | some (i + 1) => groups xs tested (raw.modify (i + 1) (pushRow r))
    | _ => groups xs ((k, raw.length) :: tested) (raw ++ [(k, [], [r])])

/-- The rows whose literal denotes `x`. -/
def rowsOf (x : V) (xs : List (Nat × Cons)) : List Nat := (xs.filter fun a => fits a.2 x).map (·.1)

theorem testedGet_cons {k k' : Cons} {i : Nat} {l : List (Cons × Nat)} :
    testedGet k ((k', i) :: l) = if k' = k then some i else testedGet k l := rfl

/-- What is known of the raw cases after some rows, as to the value `x`. -/
structure GInv (x : V) (k0 : Cons) (pre : List (Nat × Cons)) (tested : List (Cons × Nat))
    (raw : List RawCase) : Prop where
  idx : ∀ k i, testedGet k tested = some i → ∃ c, raw[i]? = some c ∧ c.1 = k
  seen : ∀ k, testedGet k tested = none → ∀ a ∈ pre, a.2 ≠ k
  zero : ∀ c, raw[0]? = some c → c.1 = k0
  absent : rowsOf x pre = [] → ∀ c ∈ raw, fits c.1 x = false
  found : rowsOf x pre ≠ [] → ∃ (j : Nat) (k : Cons) (ids : List Nat), raw[j]? = some (k, [], ids) ∧ fits k x = true ∧
    (∀ i < j, ∀ c : RawCase, raw[i]? = some c → fits c.1 x = false) ∧ ids.head? = (rowsOf x pre).head? ∧
    ((∀ a ∈ pre, fits a.2 x = true → a.2 = k) → (k ≠ k0 ∨ (rowsOf x pre).length = 1) →
      ids = rowsOf x pre ∧ testedGet k tested = some j)

theorem rowsOf_snoc (x : V) (pre : List (Nat × Cons)) (r : Nat) (k : Cons) :
    rowsOf x (pre ++ [(r, k)]) = if fits k x then rowsOf x pre ++ [r] else rowsOf x pre := by
  unfold rowsOf
  by_cases h : fits k x <;> simp [List.filter_append, h]

theorem head_snoc {l : List Nat} {r : Nat} (h : l ≠ []) : (l ++ [r]).head? = l.head? := by
  cases l with
  | nil => exact absurd rfl h
  | cons a l => rfl

theorem GInv.step {x k0 pre tested raw} (h : GInv x k0 pre tested raw) (r : Nat) (k' : Cons)
    (hk0 : pre = [] → k' = k0) (hne : pre ≠ [] → raw ≠ []) (he : pre = [] → raw = []) :
    match testedGet k' tested with
    | some (i + 1) => GInv x k0 (pre ++ [(r, k')]) tested (raw.modify (i + 1) (pushRow r))
    | _ => GInv x k0 (pre ++ [(r, k')]) ((k', raw.length) :: tested) (raw ++ [(k', [], [r])]) := by
  have fresh : (∀ i, testedGet k' tested ≠ some (i + 1)) →
      GInv x k0 (pre ++ [(r, k')]) ((k', raw.length) :: tested) (raw ++ [(k', [], [r])]) := by
    intro hnot
    refine ⟨?_, ?_, ?_, ?_, ?_⟩
    · intro k i hi
      rw [testedGet_cons] at hi
      by_cases e : k' = k
      · rw [if_pos e] at hi
        cases hi
        exact ⟨(k', [], [r]), by simp, e⟩
      · rw [if_neg e] at hi
        obtain ⟨c, hc, hk⟩ := h.idx k i hi
        refine ⟨c, ?_, hk⟩
        rw [List.getElem?_append_left (List.getElem?_eq_some_iff.1 hc).1]
        exact hc
    · intro k hk a ha
      rw [testedGet_cons] at hk
      by_cases e : k' = k
      · rw [if_pos e] at hk; cases hk
      · rw [if_neg e] at hk
        rcases List.mem_append.1 ha with ha | ha
        · exact h.seen k hk a ha
        · rw [List.mem_singleton.1 ha]; exact e
    · intro c hc
      cases hraw : raw with
      | nil =>
        rw [hraw] at hc
        have : pre = [] := by
          cases pre with
          | nil => rfl
          | cons a l => exact absurd hraw (hne (by simp))
        cases hc
        exact hk0 this
      | cons d l =>
        apply h.zero c
        rw [hraw] at hc ⊢
        exact hc
    · intro hn c hc
      rw [rowsOf_snoc] at hn
      by_cases hf : fits k' x = true
      · rw [if_pos hf] at hn; simp at hn
      · rw [if_neg hf] at hn
        rcases List.mem_append.1 hc with hc | hc
        · exact h.absent hn c hc
        · rw [List.mem_singleton.1 hc]; simpa using hf
    · intro hn
      rw [rowsOf_snoc] at hn ⊢
      by_cases hf : fits k' x = true
      · rw [if_pos hf] at hn ⊢
        by_cases hw : rowsOf x pre = []
        · refine ⟨raw.length, k', [r], by simp, hf, ?_, by simp [hw], ?_⟩
          · intro i hi c hc
            rw [List.getElem?_append_left hi] at hc
            exact h.absent hw c (List.mem_of_getElem? hc)
          · intro _ _
            exact ⟨by simp [hw], by simp [testedGet_cons]⟩
        · obtain ⟨j, k, ids, hj, hkx, hlt, hhd, hex⟩ := h.found hw
          have hjl := (List.getElem?_eq_some_iff.1 hj).1
          refine ⟨j, k, ids, by rw [List.getElem?_append_left hjl]; exact hj, hkx, ?_, ?_, ?_⟩
          · intro i hi c hc
            rw [List.getElem?_append_left (Nat.lt_trans hi hjl)] at hc
            exact hlt i hi c hc
          · rw [hhd, head_snoc hw]
          · intro hall hor
            exfalso
            have hk' : k' = k := hall (r, k') (by simp) hf
            subst hk'
            have hlen : (rowsOf x pre ++ [r]).length ≠ 1 := by
              cases hq : rowsOf x pre with
              | nil => exact absurd hq hw
              | cons a l => simp
            rcases hor with hor | hor
            · obtain ⟨_, ht⟩ := hex (fun a ha hfa => hall a (List.mem_append.2 (.inl ha)) hfa)
                (.inl hor)
              cases j with
              | zero => exact hor (h.zero _ hj)
              | succ j => exact hnot j ht
            · exact hlen hor
      · rw [if_neg hf] at hn ⊢
        obtain ⟨j, k, ids, hj, hkx, hlt, hhd, hex⟩ := h.found hn
        have hjl := (List.getElem?_eq_some_iff.1 hj).1
        refine ⟨j, k, ids, by rw [List.getElem?_append_left hjl]; exact hj, hkx, ?_, hhd, ?_⟩
        · intro i hi c hc
          rw [List.getElem?_append_left (Nat.lt_trans hi hjl)] at hc
          exact hlt i hi c hc
        · intro hall hor
          obtain ⟨e1, e2⟩ := hex (fun a ha hfa => hall a (List.mem_append.2 (.inl ha)) hfa) hor
          refine ⟨e1, ?_⟩
          rw [testedGet_cons, if_neg]
          · exact e2
          · intro e; subst e; exact hf hkx
  cases ht : testedGet k' tested with
  | none => exact fresh (by simp [ht])
  | some i =>
    cases i with
    | zero => exact fresh (by simp [ht])
    | succ i =>
      show GInv x k0 (pre ++ [(r, k')]) tested (raw.modify (i + 1) (pushRow r))
      obtain ⟨c', hc', hk'⟩ := h.idx k' (i + 1) ht
      have hkey : ∀ j c, (raw.modify (i + 1) (pushRow r))[j]? = some c →
          ∃ d, raw[j]? = some d ∧ d.1 = c.1 ∧ (j ≠ i + 1 → d = c) := by
        intro j c hc
        rw [List.getElem?_modify] at hc
        cases hd : raw[j]? with
        | none => rw [hd] at hc; simp at hc
        | some d =>
          rw [hd] at hc
          by_cases e : i + 1 = j
          · simp [e] at hc
            exact ⟨d, rfl, by rw [← hc]; rfl, fun h => absurd e.symm h⟩
          · simp [e] at hc
            exact ⟨d, rfl, by rw [hc], fun _ => hc⟩
      refine ⟨?_, ?_, ?_, ?_, ?_⟩
      · intro k j hj
        obtain ⟨c, hc, hk⟩ := h.idx k j hj
        refine ⟨if i + 1 = j then pushRow r c else c, ?_, ?_⟩
        · rw [List.getElem?_modify, hc]
          by_cases e : i + 1 = j <;> simp [e]
        · by_cases e : i + 1 = j <;> simp [e, hk, pushRow]
      · intro k hk a ha
        rcases List.mem_append.1 ha with ha | ha
        · exact h.seen k hk a ha
        · rw [List.mem_singleton.1 ha]
          intro e
          have e' : k' = k := e
          rw [← e', ht] at hk
          cases hk
      · intro c hc
        obtain ⟨d, hd, e, _⟩ := hkey 0 c hc
        rw [← e]; exact h.zero d hd
      · intro hn c hc
        rw [rowsOf_snoc] at hn
        obtain ⟨j, hj⟩ := List.mem_iff_getElem?.1 hc
        obtain ⟨d, hd, e, _⟩ := hkey j c hj
        by_cases hf : fits k' x = true
        · rw [if_pos hf] at hn; simp at hn
        · rw [if_neg hf] at hn
          rw [← e]; exact h.absent hn d (List.mem_of_getElem? hd)
      · intro hn
        rw [rowsOf_snoc] at hn ⊢
        by_cases hf : fits k' x = true
        · rw [if_pos hf] at hn ⊢
          have hw : rowsOf x pre ≠ [] := by
            intro hw
            have := h.absent hw c' (List.mem_of_getElem? hc')
            rw [hk', hf] at this; cases this
          obtain ⟨j, k, ids, hj, hkx, hlt, hhd, hex⟩ := h.found hw
          by_cases e : i + 1 = j
          · refine ⟨j, k, ids ++ [r], ?_, hkx, ?_, ?_, ?_⟩
            · rw [List.getElem?_modify, hj]; simp [e, pushRow]
            · intro q hq c hc
              obtain ⟨d, hd, e, _⟩ := hkey q c hc
              rw [← e]; exact hlt q hq d hd
            · have hids : ids ≠ [] := by
                intro e
                rw [e] at hhd
                cases hq : rowsOf x pre with
                | nil => exact hw hq
                | cons a l => rw [hq] at hhd; cases hhd
              rw [head_snoc hids, head_snoc hw, hhd]
            · intro hall hor
              have hlen : (rowsOf x pre ++ [r]).length ≠ 1 := by
                cases hq : rowsOf x pre with
                | nil => exact absurd hq hw
                | cons a l => simp
              rcases hor with hor | hor
              · obtain ⟨e1, e2⟩ := hex
                  (fun a ha hfa => hall a (List.mem_append.2 (.inl ha)) hfa) (.inl hor)
                exact ⟨by rw [e1], e2⟩
              · exact absurd hor hlen
          · refine ⟨j, k, ids, ?_, hkx, ?_, ?_, ?_⟩
            · rw [List.getElem?_modify, hj]; simp [e]
            · intro q hq c hc
              obtain ⟨d, hd, e, _⟩ := hkey q c hc
              rw [← e]; exact hlt q hq d hd
            · rw [head_snoc hw, hhd]
            · intro hall hor
              exfalso
              have hkk : k' = k := hall (r, k') (by simp) hf
              subst hkk
              have hlen : (rowsOf x pre ++ [r]).length ≠ 1 := by
                cases hq : rowsOf x pre with
                | nil => exact absurd hq hw
                | cons a l => simp
              rcases hor with hor | hor
              · obtain ⟨_, e2⟩ := hex
                  (fun a ha hfa => hall a (List.mem_append.2 (.inl ha)) hfa) (.inl hor)
                rw [ht] at e2
                exact e (by simpa using e2)
              · exact hlen hor
        · rw [if_neg hf] at hn ⊢
          obtain ⟨j, k, ids, hj, hkx, hlt, hhd, hex⟩ := h.found hn
          have e : i + 1 ≠ j := by
            intro e
            rw [e, hj] at hc'
            cases hc'
            have hk'' : k = k' := hk'
            rw [← hk''] at hf
            exact hf hkx
          refine ⟨j, k, ids, ?_, hkx, ?_, hhd, ?_⟩
          · rw [List.getElem?_modify, hj]; simp [e]
          · intro q hq c hc
            obtain ⟨d, hd, e, _⟩ := hkey q c hc
            rw [← e]; exact hlt q hq d hd
          · intro hall hor
            exact hex (fun a ha hfa => hall a (List.mem_append.2 (.inl ha)) hfa) hor

theorem groups_inv {x : V} {k0 : Cons} : ∀ (xs pre : List (Nat × Cons)) {tested raw},
    GInv x k0 pre tested raw → (pre ≠ [] → raw ≠ []) → (pre = [] → raw = []) →
    (pre = [] → ∀ a ∈ xs.head?, a.2 = k0) →
    ∃ tested', GInv x k0 (pre ++ xs) tested' (groups xs tested raw)
  | [], pre, tested, raw, h, _, _, _ => ⟨tested, by simpa [groups] using h⟩
  | (r, k) :: xs, pre, tested, raw, h, h1, h2, h3 => by
    have hs := h.step r k (fun e => h3 e (r, k) (by simp)) h1 h2
    have hassoc : pre ++ (r, k) :: xs = (pre ++ [(r, k)]) ++ xs := by simp
    rw [hassoc]
    unfold groups
    cases ht : testedGet k tested with
    | none =>
      rw [ht] at hs
      exact groups_inv xs _ hs (by simp) (by simp) (by simp)
    | some i =>
      rw [ht] at hs
      cases i with
      | zero => exact groups_inv xs _ hs (by simp) (by simp) (by simp)
      | succ i =>
        refine groups_inv xs _ hs ?_ (by simp) (by simp)
        intro _ e
        have hl : (raw.modify (i + 1) (pushRow r)).length = 0 := by rw [e]; rfl
        rw [List.length_modify] at hl
        obtain ⟨c, hc, _⟩ := h.idx k (i + 1) ht
        have := (List.getElem?_eq_some_iff.1 hc).1
        omega

/-- The cases of the rows `xs`, as to a value `x`: none fits it if no literal denotes it; otherwise
the first that fits starts with the first row whose literal denotes it, and has exactly the rows
whose literal denotes it if these all have one lexeme, unless that is the lexeme of the first row
and repeats. -/
theorem groups_spec (x : V) (r0 : Nat) (k0 : Cons) (xs : List (Nat × Cons)) :
    let raw := groups ((r0, k0) :: xs) [] []
    (rowsOf x ((r0, k0) :: xs) = [] → ∀ c ∈ raw, fits c.1 x = false) ∧
    (rowsOf x ((r0, k0) :: xs) ≠ [] → ∃ (j : Nat) (k : Cons) (ids : List Nat), raw[j]? = some (k, [], ids) ∧ fits k x = true ∧
      (∀ i < j, ∀ c : RawCase, raw[i]? = some c → fits c.1 x = false) ∧
      ids.head? = (rowsOf x ((r0, k0) :: xs)).head? ∧
      ((∀ a ∈ (r0, k0) :: xs, fits a.2 x = true → a.2 = k) →
        (k ≠ k0 ∨ (rowsOf x ((r0, k0) :: xs)).length = 1) → ids = rowsOf x ((r0, k0) :: xs))) := by
  have h0 : GInv x k0 [] [] [] :=
    ⟨by simp [testedGet], by simp, by simp, by simp, by simp [rowsOf]⟩
  obtain ⟨_, h⟩ := groups_inv ((r0, k0) :: xs) [] h0 (by simp) (by simp) (by simp)
  simp only [List.nil_append] at h
  refine ⟨h.absent, fun hn => ?_⟩
  obtain ⟨j, k, ids, a, b, c, d, e⟩ := h.found hn
  exact ⟨j, k, ids, a, b, c, d, fun p q => (e p q).1⟩

/-- Every row of a case has the literal of the case, and cases have rows. -/
theorem groups_mem : ∀ (xs pre : List (Nat × Cons)) {tested : List (Cons × Nat)}
    {raw : List RawCase},
    (∀ k i, testedGet k tested = some i → ∃ c, raw[i]? = some c ∧ c.1 = k) →
    (∀ c ∈ raw, c.2.1 = [] ∧ c.2.2 ≠ [] ∧ ∀ r ∈ c.2.2, (r, c.1) ∈ pre) →
    ∀ c ∈ groups xs tested raw, c.2.1 = [] ∧ c.2.2 ≠ [] ∧ ∀ r ∈ c.2.2, (r, c.1) ∈ pre ++ xs
  | [], pre, _, raw, _, h, c, hc => by simpa using h c hc
  | (r, k) :: xs, pre, tested, raw, hi, h, c, hc => by
    have hassoc : pre ++ (r, k) :: xs = (pre ++ [(r, k)]) ++ xs := by simp
    rw [hassoc]
    have fresh : c ∈ groups xs ((k, raw.length) :: tested) (raw ++ [(k, [], [r])]) →
        c.2.1 = [] ∧ c.2.2 ≠ [] ∧ ∀ q ∈ c.2.2, (q, c.1) ∈ (pre ++ [(r, k)]) ++ xs := by
      intro hc
      refine groups_mem xs (pre ++ [(r, k)]) ?_ ?_ c hc
      · intro k1 i h1
        rw [testedGet_cons] at h1
        by_cases e : k = k1
        · rw [if_pos e] at h1
          cases h1
          exact ⟨(k, [], [r]), by simp, e⟩
        · rw [if_neg e] at h1
          obtain ⟨c, hc, hk⟩ := hi k1 i h1
          refine ⟨c, ?_, hk⟩
          rw [List.getElem?_append_left (List.getElem?_eq_some_iff.1 hc).1]
          exact hc
      · intro d hd
        rcases List.mem_append.1 hd with hd | hd
        · obtain ⟨a, b, e⟩ := h d hd
          exact ⟨a, b, fun q hq => List.mem_append.2 (.inl (e q hq))⟩
        · rw [List.mem_singleton.1 hd]
          exact ⟨rfl, by simp, fun q hq => by rw [List.mem_singleton.1 hq]; simp⟩
    unfold groups at hc
    cases ht : testedGet k tested with
    | none => rw [ht] at hc; exact fresh hc
    | some i =>
      rw [ht] at hc
      cases i with
      | zero => exact fresh hc
      | succ i =>
        obtain ⟨c', hc', hk'⟩ := hi k (i + 1) ht
        refine groups_mem xs (pre ++ [(r, k)]) ?_ ?_ c hc
        · intro k1 j hj
          obtain ⟨c, hc, hk⟩ := hi k1 j hj
          refine ⟨if i + 1 = j then pushRow r c else c, ?_, ?_⟩
          · rw [List.getElem?_modify, hc]
            by_cases e : i + 1 = j <;> simp [e]
          · by_cases e : i + 1 = j <;> simp [e, hk, pushRow]
        · intro d hd
          obtain ⟨j, hj⟩ := List.mem_iff_getElem?.1 hd
          rw [List.getElem?_modify] at hj
          cases hd' : raw[j]? with
          | none => rw [hd'] at hj; simp at hj
          | some d' =>
            rw [hd'] at hj
            obtain ⟨a, b, e⟩ := h d' (List.mem_of_getElem? hd')
            by_cases ej : i + 1 = j
            · simp [ej] at hj
              rw [← hj]
              refine ⟨a, by simp [pushRow], fun q hq => ?_⟩
              rcases List.mem_append.1 hq with hq | hq
              · exact List.mem_append.2 (.inl (e q hq))
              · rw [List.mem_singleton.1 hq]
                have : d'.1 = k := by
                  rw [← ej, hc'] at hd'
                  cases hd'; exact hk'
                show (r, d'.1) ∈ _
                rw [this]; simp
            · simp [ej] at hj
              rw [← hj]
              exact ⟨a, b, fun q hq => List.mem_append.2 (.inl (e q hq))⟩

/-- Different cases have different rows. -/
theorem groups_disjoint : ∀ (xs : List (Nat × Cons)) {tested : List (Cons × Nat)}
    {raw : List RawCase}, (xs.map (·.1)).Nodup →
    (∀ c ∈ raw, ∀ r ∈ c.2.2, r ∉ xs.map (·.1)) →
    raw.Pairwise (fun c d => ∀ r ∈ d.2.2, r ∉ c.2.2) →
    (groups xs tested raw).Pairwise (fun c d => ∀ r ∈ d.2.2, r ∉ c.2.2)
  | [], _, raw, _, _, h => h
  | (r, k) :: xs, tested, raw, hn, hm, h => by
    rw [List.map_cons, List.nodup_cons] at hn
    have fresh : (groups xs ((k, raw.length) :: tested) (raw ++ [(k, [], [r])])).Pairwise
        (fun c d => ∀ r ∈ d.2.2, r ∉ c.2.2) := by
      refine groups_disjoint xs hn.2 ?_ ?_
      · intro c hc q hq
        rcases List.mem_append.1 hc with hc | hc
        · intro hx
          exact hm c hc q hq (List.mem_cons_of_mem _ hx)
        · rw [List.mem_singleton.1 hc] at hq
          rw [List.mem_singleton.1 hq]; exact hn.1
      · rw [List.pairwise_append]
        refine ⟨h, List.pairwise_singleton _ _, fun c hc d hd q hq hqc => ?_⟩
        rw [List.mem_singleton.1 hd] at hq
        rw [List.mem_singleton.1 hq] at hqc
        exact hm c hc r hqc (by simp)
    unfold groups
    cases ht : testedGet k tested with
    | none => exact fresh
    | some i =>
      cases i with
      | zero => exact fresh
      | succ i =>
        have hmod : ∀ (l : List RawCase) (n : Nat),
            (∀ c ∈ l, ∀ q ∈ c.2.2, q ∉ ((r, k) :: xs).map (·.1)) →
            l.Pairwise (fun c d => ∀ r ∈ d.2.2, r ∉ c.2.2) →
            (l.modify n (pushRow r)).Pairwise (fun c d => ∀ r ∈ d.2.2, r ∉ c.2.2) := by
          intro l
          induction l with
          | nil => intro n _ _; simp
          | cons c l ih =>
            intro n hm' hp
            have hp' := List.pairwise_cons.1 hp
            cases n with
            | zero =>
              rw [List.modify_zero_cons]
              refine List.pairwise_cons.2 ⟨fun d hd q hq hqc => ?_, hp'.2⟩
              rcases List.mem_append.1 hqc with hqc | hqc
              · exact hp'.1 d hd q hq hqc
              · rw [List.mem_singleton.1 hqc] at hq
                exact hm' d (List.mem_cons_of_mem _ hd) r hq (by simp)
            | succ n =>
              rw [List.modify_succ_cons]
              refine List.pairwise_cons.2 ⟨fun d hd q hq hqc => ?_,
                ih n (fun d hd => hm' d (List.mem_cons_of_mem _ hd)) hp'.2⟩
              rcases mem_modify hd with ⟨e, he, rfl⟩ | hd
              · rcases List.mem_append.1 hq with hq | hq
                · exact hp'.1 e he q hq hqc
                · rw [List.mem_singleton.1 hq] at hqc
                  exact hm' c (List.mem_cons_self ..) r hqc (by simp)
              · exact hp'.1 d hd q hq hqc
        refine groups_disjoint xs hn.2 ?_ (hmod raw (i + 1) hm h)
        intro c hc q hq
        rcases mem_modify hc with ⟨d, hd, rfl⟩ | hd
        · rcases List.mem_append.1 hq with hq | hq
          · intro hx
            exact hm d hd q hq (List.mem_cons_of_mem _ hx)
          · rw [List.mem_singleton.1 hq]; exact hn.1
        · intro hx
          exact hm c hd q hq (List.mem_cons_of_mem _ hx)

/-- No case has a row twice. -/
theorem groups_nodup : ∀ (xs : List (Nat × Cons)) {tested : List (Cons × Nat)}
    {raw : List RawCase}, (xs.map (·.1)).Nodup →
    (∀ c ∈ raw, c.2.2.Nodup ∧ ∀ r ∈ c.2.2, r ∉ xs.map (·.1)) →
    ∀ c ∈ groups xs tested raw, c.2.2.Nodup
  | [], _, raw, _, h, c, hc => (h c hc).1
  | (r, k) :: xs, tested, raw, hn, hm, c, hc => by
    rw [List.map_cons, List.nodup_cons] at hn
    have fresh : ∀ c ∈ groups xs ((k, raw.length) :: tested) (raw ++ [(k, [], [r])]),
        c.2.2.Nodup := by
      refine groups_nodup xs hn.2 ?_
      intro c hc
      rcases List.mem_append.1 hc with hc | hc
      · exact ⟨(hm c hc).1, fun q hq hx => (hm c hc).2 q hq (List.mem_cons_of_mem _ hx)⟩
      · rw [List.mem_singleton.1 hc]
        refine ⟨by simp, fun q hq => ?_⟩
        rw [List.mem_singleton.1 hq]; exact hn.1
    unfold groups at hc
    cases ht : testedGet k tested with
    | none => rw [ht] at hc; exact fresh c hc
    | some i =>
      rw [ht] at hc
      cases i with
      | zero => exact fresh c hc
      | succ i =>
        refine groups_nodup xs hn.2 ?_ c hc
        intro c hc
        rcases mem_modify hc with ⟨d, hd, rfl⟩ | hd
        · obtain ⟨h1, h2⟩ := hm d hd
          refine ⟨?_, fun q hq => ?_⟩
          · show (d.2.2 ++ [r]).Nodup
            rw [List.nodup_append]
            refine ⟨h1, by simp, fun a ha b hb e => ?_⟩
            rw [List.mem_singleton.1 hb] at e
            subst e
            exact h2 a ha (by simp)
          · rcases List.mem_append.1 hq with hq | hq
            · intro hx
              exact h2 q hq (List.mem_cons_of_mem _ hx)
            · rw [List.mem_singleton.1 hq]; exact hn.1
        · exact ⟨(hm c hd).1, fun q hq hx => (hm c hd).2 q hq (List.mem_cons_of_mem _ hx)⟩

end Amanda.Iguala

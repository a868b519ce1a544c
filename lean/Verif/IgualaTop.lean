import Verif.IgualaVars

/-!
# The cases of a union
-/

namespace Amanda.Iguala

/-- What the arm of a row asks of a union: nothing, or a variant with patterns for its parts. -/
abbrev Ask := Nat → Option (Nat × List MPat)

/-- The columns of a row of a union before they are spread. -/
def askCols (v : MVar) : Option (Nat × List MPat) → List Col
  | none => []
  | some (tag, args) => [⟨v, .adt (some tag) args⟩]

/-- Whether a row goes to the case of variant `j`. -/
def goes (ask : Ask) (j r : Nat) : Bool :=
  match ask r with
  | none => true
  | some (tag, _) => tag == j

/-- The rows of the case of variant `j`, when new rows are numbered from `n` on. -/
def newIds (ask : Ask) (j : Nat) : List Nat → Nat → List Nat
  | [], _ => []
  | r :: rs, n =>
    match ask r with
    | none => r :: newIds ask j rs n
    | some (tag, _) => if tag = j then n :: newIds ask j rs (n + 1) else newIds ask j rs (n + 1)

/-- The columns that a row has in a case with variables `vs`. -/
def caseCols (vs : List MVar) : Option (Nat × List MPat) → List Col
  | none => []
  | some (_, args) => argCols vs args

theorem newIds_mem {ask : Ask} {j : Nat} : ∀ {rs : List Nat} {n q : Nat}, q ∈ newIds ask j rs n →
    (q ∈ rs ∧ ask q = none) ∨ n ≤ q
  | r :: rs, n, q, h => by
    unfold newIds at h
    cases ha : ask r with
    | none =>
      rw [ha] at h
      rcases List.mem_cons.1 h with e | e
      · subst e; exact .inl ⟨List.mem_cons_self .., ha⟩
      · rcases newIds_mem e with ⟨a, b⟩ | a
        · exact .inl ⟨List.mem_cons_of_mem _ a, b⟩
        · exact .inr a
    | some p =>
      obtain ⟨tag, args⟩ := p
      rw [ha] at h
      simp only at h
      have later : q ∈ newIds ask j rs (n + 1) → (q ∈ r :: rs ∧ ask q = none) ∨ n ≤ q := by
        intro e
        rcases newIds_mem e with ⟨a, b⟩ | a
        · exact .inl ⟨List.mem_cons_of_mem _ a, b⟩
        · exact .inr (by omega)
      by_cases e : tag = j
      · rw [if_pos e] at h
        rcases List.mem_cons.1 h with e | e
        · exact .inr (by omega)
        · exact later e
      · rw [if_neg e] at h; exact later h

theorem newIds_nodup {ask : Ask} {j : Nat} : ∀ {rs : List Nat} {n : Nat}, rs.Nodup →
    (∀ r ∈ rs, r < n) → (newIds ask j rs n).Nodup
  | [], _, _, _ => by simp [newIds]
  | r :: rs, n, hn, hlt => by
    rw [List.nodup_cons] at hn
    unfold newIds
    cases ha : ask r with
    | none =>
      refine List.nodup_cons.2 ⟨fun h => ?_, newIds_nodup hn.2 fun q hq => hlt q (List.mem_cons_of_mem _ hq)⟩
      rcases newIds_mem h with ⟨a, _⟩ | a
      · exact hn.1 a
      · exact absurd (hlt r (List.mem_cons_self ..)) (by omega)
    | some p =>
      obtain ⟨tag, args⟩ := p
      have ih := newIds_nodup (ask := ask) (j := j) (n := n + 1) hn.2
        (fun q hq => Nat.lt_succ_of_lt (hlt q (List.mem_cons_of_mem _ hq)))
      simp only
      by_cases e : tag = j
      · rw [if_pos e]
        refine List.nodup_cons.2 ⟨fun h => ?_, ih⟩
        rcases newIds_mem h with ⟨a, _⟩ | a
        · exact absurd (hlt n (List.mem_cons_of_mem _ a)) (by omega)
        · omega
      · rw [if_neg e]; exact ih

/-- A new row belongs to one case. -/
theorem newIds_disjoint {ask : Ask} {j j' : Nat} (hj : j ≠ j') : ∀ {rs : List Nat} {n q : Nat},
    (∀ r ∈ rs, r < n) → q ∈ newIds ask j rs n → q ∈ newIds ask j' rs n → q ∈ rs ∧ ask q = none
  | r :: rs, n, q, hlt, h, h' => by
    unfold newIds at h h'
    cases ha : ask r with
    | none =>
      rw [ha] at h h'
      rcases List.mem_cons.1 h with e | e
      · subst e; exact ⟨List.mem_cons_self .., ha⟩
      · rcases List.mem_cons.1 h' with e' | e'
        · subst e'; exact ⟨List.mem_cons_self .., ha⟩
        · obtain ⟨a, b⟩ := newIds_disjoint hj (fun q hq => hlt q (List.mem_cons_of_mem _ hq)) e e'
          exact ⟨List.mem_cons_of_mem _ a, b⟩
    | some p =>
      obtain ⟨tag, args⟩ := p
      rw [ha] at h h'
      simp only at h h'
      have hlt' : ∀ r ∈ rs, r < n + 1 := fun q hq => Nat.lt_succ_of_lt (hlt q (List.mem_cons_of_mem _ hq))
      have hn : ∀ i, n ∉ newIds ask i rs (n + 1) := by
        intro i hm
        rcases newIds_mem hm with ⟨a, _⟩ | a
        · exact absurd (hlt n (List.mem_cons_of_mem _ a)) (by omega)
        · omega
      have fin : q ∈ newIds ask j rs (n + 1) → q ∈ newIds ask j' rs (n + 1) →
          q ∈ r :: rs ∧ ask q = none := fun a b => by
        obtain ⟨a, b⟩ := newIds_disjoint hj hlt' a b
        exact ⟨List.mem_cons_of_mem _ a, b⟩
      by_cases e : tag = j
      · rw [if_pos e] at h
        rw [if_neg (fun e' => hj (e.symm.trans e'))] at h'
        rcases List.mem_cons.1 h with e1 | e1
        · subst e1; exact absurd h' (hn j')
        · exact fin e1 h'
      · rw [if_neg e] at h
        by_cases e' : tag = j'
        · rw [if_pos e'] at h'
          rcases List.mem_cons.1 h' with e1 | e1
          · subst e1; exact absurd h (hn j)
          · exact fin h e1
        · rw [if_neg e'] at h'; exact fin h h'

/-- What `spread` makes of rows that ask for variants or nothing. -/
theorem spread_ask {v : MVar} {ask : Ask} : ∀ (rs : List Nat) {cases : List RawCase} {σ : PState},
    σ.Wf → rs.Nodup → (∀ r ∈ rs, r < σ.nRows) →
    (∀ q ∈ rs, ∀ r ∈ rs, (σ.row q).list = (σ.row r).list → q = r) →
    (∀ r ∈ rs, σ.cols r = askCols v (ask r)) →
    (∀ r ∈ rs, ∀ tag args, ask r = some (tag, args) → tag < cases.length) →
    ∃ raw σ', spread v rs cases σ = .ok (raw, σ') ∧ σ'.bindings = σ.bindings ∧ σ'.Wf ∧
      σ.nRows ≤ σ'.nRows ∧ (∀ q < σ.nRows, σ'.row q = σ.row q) ∧
      (∀ q < σ.nRows, (∀ r ∈ rs, (σ.row r).list ≠ (σ.row q).list) → σ'.cols q = σ.cols q) ∧
      (∀ q ∈ rs, ask q = none → σ'.cols q = []) ∧
      raw.length = cases.length ∧
      ∀ (j : Nat) (k : Cons) (vs : List MVar) (ids : List Nat), cases[j]? = some (k, vs, ids) →
        raw[j]? = some (k, vs, ids ++ newIds ask j rs σ.nRows) ∧
        (∀ q ∈ newIds ask j rs σ.nRows, q < σ'.nRows) ∧
        (newIds ask j rs σ.nRows).map (fun q => ((σ'.row q).arm, σ'.cols q)) =
          (rs.filter (goes ask j)).map fun r => ((σ.row r).arm, caseCols vs (ask r))
  | [], cases, σ, w, _, _, _, _, _ => by
    refine ⟨cases, σ, rfl, rfl, w, Nat.le_refl _, fun _ _ => rfl, fun _ _ _ => rfl,
      fun q hq => (List.not_mem_nil hq).elim, rfl, ?_⟩
    intro j k vs ids h
    exact ⟨by simpa [newIds] using h, fun q hq => (List.not_mem_nil hq).elim, rfl⟩
  | r :: rs, cases, σ, w, hn, hr, hsep, hc, htag => by
    rw [List.nodup_cons] at hn
    have hr0 := hr r (List.mem_cons_self ..)
    have hcr := hc r (List.mem_cons_self ..)
    cases ha : ask r with
    | none =>
      rw [ha] at hcr
      have hrc : removeColumn σ r v = (none, σ) := removeColumn_empty hcr
      obtain ⟨raw, σ', h1, h2, h3, h4, h5, h6, h7, h8, h9⟩ := spread_ask (ask := ask) rs
        (cases := cases.map (pushRow r)) (σ := σ) w hn.2
        (fun q hq => hr q (List.mem_cons_of_mem _ hq))
        (fun q hq s hs => hsep q (List.mem_cons_of_mem _ hq) s (List.mem_cons_of_mem _ hs))
        (fun q hq => hc q (List.mem_cons_of_mem _ hq))
        (fun q hq tag args e => by
          rw [List.length_map]; exact htag q (List.mem_cons_of_mem _ hq) tag args e)
      have hkeep : σ'.cols r = [] := by
        rw [h6 r hr0 (fun q hq e => ?_), hcr]
        · rfl
        · have := hsep q (List.mem_cons_of_mem _ hq) r (List.mem_cons_self ..) e
          subst this; exact hn.1 hq
      refine ⟨raw, σ', ?_, h2, h3, h4, h5, ?_, ?_, ?_, ?_⟩
      · unfold spread; rw [hrc]; exact h1
      · intro q hq hs
        exact h6 q hq (fun s hsm => hs s (List.mem_cons_of_mem _ hsm))
      · intro q hq hq'
        rcases List.mem_cons.1 hq with e | e
        · subst e; exact hkeep
        · exact h7 q e hq'
      · rw [h8, List.length_map]
      · intro j k vs ids h
        obtain ⟨a, b, c⟩ := h9 j k vs (ids ++ [r]) (by rw [List.getElem?_map, h]; rfl)
        have hni : newIds ask j (r :: rs) σ.nRows = r :: newIds ask j rs σ.nRows := by
          conv => lhs; unfold newIds
          rw [ha]
        rw [hni]
        refine ⟨by rw [a]; simp, ?_, ?_⟩
        · intro q hq
          rcases List.mem_cons.1 hq with e | e
          · subst e; exact Nat.lt_of_lt_of_le hr0 h4
          · exact b q e
        · rw [List.map_cons, c, List.filter_cons_of_pos (by simp [goes, ha]), List.map_cons,
            h5 r hr0, hkeep, ha]
          rfl
    | some p =>
      obtain ⟨tag, args⟩ := p
      rw [ha] at hcr
      have htl := htag r (List.mem_cons_self ..) tag args ha
      obtain ⟨⟨k0, vs0, ids0⟩, hget⟩ : ∃ c, cases[tag]? = some c :=
        ⟨_, List.getElem?_eq_getElem htl⟩
      have hsame : v.same v = true := by simp [MVar.same]
      have hrc : removeColumn σ r v =
          (some ⟨v, .adt (some tag) args⟩, { σ with list := upd σ.list (σ.row r).list [] }) := by
        unfold removeColumn
        rw [hcr]
        simp [askCols, popCol, hsame]
      let σ2 : PState := { σ with
        list := upd (upd σ.list (σ.row r).list []) (σ.row r).list (argCols vs0 args)
        row := upd σ.row σ.nRows { list := (σ.row r).list, arm := (σ.row r).arm }
        nRows := σ.nRows + 1 }
      have hrow2 : ∀ q < σ.nRows, σ2.row q = σ.row q := fun q hq => upd_ne _ _ (Nat.ne_of_lt hq)
      have hcols2 : ∀ q < σ.nRows, (σ.row q).list ≠ (σ.row r).list → σ2.cols q = σ.cols q := by
        intro q hq hl
        show upd (upd σ.list _ _) _ _ (σ2.row q).list = _
        rw [hrow2 q hq, upd_ne _ _ hl, upd_ne _ _ hl]; rfl
      have hsep' : ∀ q ∈ rs, (σ.row q).list ≠ (σ.row r).list := fun q hq e => by
        have := hsep q (List.mem_cons_of_mem _ hq) r (List.mem_cons_self ..) e
        subst this; exact hn.1 hq
      have w2 : σ2.Wf := by
        intro q hq
        show (upd σ.row σ.nRows _ q).list < σ.nLists
        by_cases e : q = σ.nRows
        · rw [e, upd_same]; exact w r hr0
        · rw [upd_ne _ _ e]
          have : q < σ.nRows + 1 := hq
          exact w q (by omega)
      obtain ⟨raw, σ', h1, h2, h3, h4, h5, h6, h7, h8, h9⟩ := spread_ask (ask := ask) rs
        (cases := cases.set tag (k0, vs0, ids0 ++ [σ.nRows])) (σ := σ2) w2 hn.2
        (fun q hq => Nat.lt_succ_of_lt (hr q (List.mem_cons_of_mem _ hq)))
        (fun q hq s hs e => by
          rw [hrow2 q (hr q (List.mem_cons_of_mem _ hq)),
            hrow2 s (hr s (List.mem_cons_of_mem _ hs))] at e
          exact hsep q (List.mem_cons_of_mem _ hq) s (List.mem_cons_of_mem _ hs) e)
        (fun q hq => by
          rw [hcols2 q (hr q (List.mem_cons_of_mem _ hq)) (hsep' q hq)]
          exact hc q (List.mem_cons_of_mem _ hq))
        (fun q hq tag args e => by
          rw [List.length_set]; exact htag q (List.mem_cons_of_mem _ hq) tag args e)
      have hnew : σ2.row σ.nRows = { list := (σ.row r).list, arm := (σ.row r).arm } := upd_same _ _ _
      have hnewc : σ'.cols σ.nRows = argCols vs0 args := by
        rw [h6 σ.nRows (Nat.lt_succ_self _) (fun s hs => ?_)]
        · show upd _ _ _ (σ2.row σ.nRows).list = _
          rw [hnew, upd_same]
        · rw [hrow2 s (hr s (List.mem_cons_of_mem _ hs)), hnew]
          exact hsep' s hs
      have h5' : ∀ q < σ.nRows, σ'.row q = σ.row q := fun q hq => by
        rw [h5 q (Nat.lt_succ_of_lt hq), hrow2 q hq]
      refine ⟨raw, σ', ?_, h2, h3, Nat.le_of_succ_le h4, h5', ?_, ?_, ?_, ?_⟩
      · unfold spread
        rw [hrc]
        simp only [hget]
        have e1 : upd σ.list (σ.row r).list [] (σ.row r).list = [] := upd_same _ _ _
        rw [e1, List.nil_append]
        exact h1
      · intro q hq hs
        rw [h6 q (Nat.lt_succ_of_lt hq) (fun s hsm => by
          rw [hrow2 s (hr s (List.mem_cons_of_mem _ hsm)), hrow2 q hq]
          exact hs s (List.mem_cons_of_mem _ hsm))]
        exact hcols2 q hq (fun e => hs r (List.mem_cons_self ..) e.symm)
      · intro q hq hq'
        rcases List.mem_cons.1 hq with e | e
        · subst e; rw [ha] at hq'; cases hq'
        · exact h7 q e hq'
      · rw [h8, List.length_set]
      · intro j k vs ids h
        have hrest : ((rs.filter (goes ask j)).map fun r => ((σ2.row r).arm, caseCols vs (ask r))) =
            (rs.filter (goes ask j)).map fun r => ((σ.row r).arm, caseCols vs (ask r)) := by
          apply List.map_congr_left
          intro q hq
          rw [hrow2 q (hr q (List.mem_cons_of_mem _ (List.mem_filter.1 hq).1))]
        by_cases e : tag = j
        · subst e
          rw [hget] at h
          obtain ⟨rfl, rfl, rfl⟩ : k0 = k ∧ vs0 = vs ∧ ids0 = ids := by
            simpa using h
          obtain ⟨a, b, c⟩ := h9 tag k0 vs0 (ids0 ++ [σ.nRows]) (by
            rw [List.getElem?_set_self htl])
          have hni : newIds ask tag (r :: rs) σ.nRows = σ.nRows :: newIds ask tag rs (σ.nRows + 1) := by
            conv => lhs; unfold newIds
            rw [ha]; simp
          rw [hni]
          refine ⟨by rw [a]; simp [σ2], ?_, ?_⟩
          · intro q hq
            rcases List.mem_cons.1 hq with e | e
            · subst e; exact h4
            · exact b q e
          · have c' : (newIds ask tag rs (σ.nRows + 1)).map
                (fun q => ((σ'.row q).arm, σ'.cols q)) = _ := c
            rw [List.map_cons, c', List.filter_cons_of_pos (by simp [goes, ha]), List.map_cons,
              hrest, hnewc, ha, h5 σ.nRows (Nat.lt_succ_self _), hnew]
            rfl
        · obtain ⟨a, b, c⟩ := h9 j k vs ids (by rw [List.getElem?_set_ne e]; exact h)
          have hni : newIds ask j (r :: rs) σ.nRows = newIds ask j rs (σ.nRows + 1) := by
            conv => lhs; unfold newIds
            rw [ha]; simp [e]
          rw [hni]
          refine ⟨a, b, ?_⟩
          rw [List.filter_cons_of_neg (by simp [goes, ha, e]), ← hrest]
          exact c

end Amanda.Iguala

import Verif.IgualaFrame

/-!
# When a decision tree has a failure leaf
-/

namespace Amanda.Iguala

mutual
/-- Whether a tree has a leaf for a missing pattern. -/
def MTree.hasFail : MTree → Bool
  | .fail => true
  | .success _ => false
  | .switch _ cases none => casesFail cases
  | .switch _ cases (some t) => casesFail cases || t.hasFail
/-- The same for a list of cases. -/
def casesFail : List (Cons × List MVar × MTree) → Bool
  | [] => false
  | (_, _, t) :: rest => t.hasFail || casesFail rest
end

/-! ## `Diagnostics.missing` says whether there is such a leaf -/

theorem moveAll_missing : ∀ (ids : List Nat) (σ : PState), (moveAll σ ids).missing = σ.missing
  | [], _ => rfl
  | r :: rs, σ => (moveAll_missing rs (moveVars σ r)).trans rfl

theorem openCases_missing (ks : List (Cons × List Ty)) (σ : PState) :
    (openCases σ ks).2.missing = σ.missing := by
  obtain ⟨_, _, _, e⟩ := openCases_eq ks σ
  rw [e]

theorem spread_missing {v : MVar} : ∀ (rs : List Nat) {cases : List RawCase} {σ : PState} {raw σ'},
    spread v rs cases σ = .ok (raw, σ') → σ'.missing = σ.missing
  | [], _, _, _, _, h => by cases h; rfl
  | r :: rs, cases, σ, raw, σ', h => by
    rcases spread_cons h with ⟨_, h⟩ | ⟨_, _, _, _, h⟩ | ⟨_, _, _, _, _, _, _, _, _, _, h⟩
    · exact (spread_missing rs h).trans rfl
    · exact (spread_missing rs h).trans rfl
    · exact (spread_missing rs h).trans rfl

theorem gather_missing {v : MVar} : ∀ (rs : List Nat) {tested raw fb} {σ : PState} {res σ'},
    gather v rs tested raw fb σ = .ok (res, σ') → σ'.missing = σ.missing
  | [], _, _, _, _, _, _, h => by cases h; rfl
  | r :: rs, tested, raw, fb, σ, res, σ', h => by
    rcases gather_cons h with ⟨_, h⟩ | ⟨_, _, _, _, _, ⟨_, _, h⟩ | ⟨_, h⟩⟩
    · exact (gather_missing rs h).trans rfl
    · exact (gather_missing rs h).trans rfl
    · exact (gather_missing rs h).trans rfl

/-- The calls report failure leaves. -/
def GoMiss (go : List Nat → P MTree) : Prop := ∀ {ids σ t σ'}, go ids σ = .ok (t, σ') →
  σ'.missing = (σ.missing || t.hasFail)

theorem compileCases_missing {go : List Nat → P MTree} (hgo : GoMiss go) : ∀ (raw : List RawCase)
    {σ ts σ'}, compileCases go raw σ = .ok (ts, σ') → σ'.missing = (σ.missing || casesFail ts)
  | [], σ, ts, σ', h => by cases h; simp [casesFail]
  | (k, vs, ids) :: rest, σ, ts, σ', h => by
    obtain ⟨t, σ1, ts', h1, h2, rfl⟩ := compileCases_cons h
    rw [compileCases_missing hgo rest h2, hgo h1]
    simp [casesFail, Bool.or_assoc]

/-- `missing` is set exactly if the tree gets a failure leaf. -/
theorem compileRows_missing (U : Unions) : ∀ fuel, GoMiss (compileRows U fuel)
  | 0, ids, σ, t, σ', h => by cases ids <;> cases h
  | fuel + 1, [], σ, t, σ', h => by cases h; simp [MTree.hasFail]
  | fuel + 1, r :: rs, σ, t, σ', h => by
    have h' : branch U (compileRows U fuel) r rs (moveAll σ (r :: rs)) = .ok (t, σ') := h
    have hm := moveAll_missing (r :: rs) σ
    rcases branch_cases h' with ⟨_, rfl, rfl⟩ | ⟨c, cs, _, v, _, ⟨_, raw, σ3, ts, h1, h2, rfl⟩ |
      ⟨_, _, raw, fb, σ2, ts, σ3, t', h1, h2, h3, rfl⟩⟩
    · simp [MTree.hasFail, hm]
    · rw [compileCases_missing (compileRows_missing U fuel) _ h2, spread_missing _ h1,
        openCases_missing, hm]
      simp [MTree.hasFail]
    · rw [compileRows_missing U fuel h3, compileCases_missing (compileRows_missing U fuel) _ h2,
        gather_missing _ h1, hm]
      simp [MTree.hasFail, Bool.or_assoc]

/-! ## A row of names only leaves no failure leaf -/

/-- All columns test nothing. -/
def AllNames (cs : List Col) : Prop := ∀ c ∈ cs, ∃ x, c.pat = .bind x

theorem splitCols_names : ∀ {cs : List Col}, AllNames cs → (splitCols cs).1 = []
  | [], _ => rfl
  | c :: cs, h => by
    obtain ⟨x, hx⟩ := h c (List.mem_cons_self ..)
    have := splitCols_names (cs := cs) fun d hd => h d (List.mem_cons_of_mem _ hd)
    simp [splitCols, hx, this]

theorem moveAll_names : ∀ (ids : List Nat) {σ : PState} {r : Nat}, σ.Wf →
    (∀ q ∈ ids, q < σ.nRows) → r ∈ ids → AllNames (σ.cols r) → (moveAll σ ids).cols r = []
  | q :: ids, σ, r, w, hr, hm, hn => by
    have a := moveVars_fr w q (hr q (List.mem_cons_self ..))
    have hr' : ∀ p ∈ ids, p < (moveVars σ q).nRows := fun p hp => hr p (List.mem_cons_of_mem _ hp)
    show (moveAll (moveVars σ q) ids).cols r = []
    by_cases e : r = q
    · subst e
      apply (moveAll_fr ids a.wf hr').empty r (hr r hm)
      rw [moveVars_cols, splitCols_names hn]
    · have hm' : r ∈ ids := by
        rcases List.mem_cons.1 hm with h | h
        · exact absurd h e
        · exact h
      apply moveAll_names ids a.wf hr' hm'
      rw [a.cols (hr r hm) e (w r (hr r hm))]
      exact hn

theorem spread_keeps {v : MVar} {r : Nat} : ∀ (rs : List Nat) {cases : List RawCase} {σ : PState}
    {raw σ'}, σ.Wf → (∀ q ∈ rs, q < σ.nRows) → spread v rs cases σ = .ok (raw, σ') →
    r < σ.nRows → σ.cols r = [] → (r ∈ rs ∨ ∀ c ∈ cases, r ∈ c.2.2) → ∀ c ∈ raw, r ∈ c.2.2
  | [], cases, σ, raw, σ', _, _, h, _, _, hm => by
    cases h
    rcases hm with hm | hm
    · cases hm
    · exact hm
  | q :: rs, cases, σ, raw, σ', w, hr, h, hr0, hc, hm => by
    have hq := hr q (List.mem_cons_self ..)
    have hrs : ∀ p ∈ rs, p < σ.nRows := fun p hp => hr p (List.mem_cons_of_mem _ hp)
    rcases spread_cons h with ⟨_, h⟩ | ⟨c, rest, hp, _, h⟩ | ⟨c, rest, tag, args, k, vs, ids, hp, _, hg, h⟩
    · refine spread_keeps rs w hrs h hr0 hc ?_
      by_cases e : r = q
      · refine .inr fun c hcm => ?_
        obtain ⟨d, _, rfl⟩ := List.mem_map.1 hcm
        exact List.mem_append.2 (.inr (by simp [e]))
      · rcases hm with hm | hm
        · rcases List.mem_cons.1 hm with h | h
          · exact absurd h e
          · exact .inl h
        · refine .inr fun c hcm => ?_
          obtain ⟨d, hd, rfl⟩ := List.mem_map.1 hcm
          exact List.mem_append.2 (.inl (hm d hd))
    · have e : r ≠ q := fun e => by subst e; rw [hc] at hp; cases hp
      have a : Fr 0 (fun _ => False) σ _ := popList_fr w (Nat.zero_le _) hp
      refine spread_keeps rs a.wf hrs h hr0 (a.empty r hr0 hc) ?_
      rcases hm with hm | hm
      · rcases List.mem_cons.1 hm with h | h
        · exact absurd h e
        · exact .inl h
      · exact .inr hm
    · have e : r ≠ q := fun e => by subst e; rw [hc] at hp; cases hp
      have a : Fr 0 (fun _ => False) σ _ := grow_fr (rest := rest)
        (new := (vs.zip args).map fun p => Col.mk p.1 p.2) w hq (Nat.zero_le _) (popCol_mem hp)
      refine spread_keeps rs a.wf (fun p hp => Nat.lt_succ_of_lt (hrs p hp)) h
        (Nat.lt_succ_of_lt hr0) (a.empty r hr0 hc) ?_
      rcases hm with hm | hm
      · rcases List.mem_cons.1 hm with h | h
        · exact absurd h e
        · exact .inl h
      · refine .inr fun d hd => ?_
        rcases mem_set hd with e | e
        · rw [e]
          exact List.mem_append.2 (.inl (hm _ (List.mem_of_getElem? hg)))
        · exact hm d e

theorem gather_keeps {v : MVar} {r : Nat} : ∀ (rs : List Nat) {tested raw fb} {σ : PState}
    {raw' fb' σ'}, σ.Wf → gather v rs tested raw fb σ = .ok ((raw', fb'), σ') →
    r < σ.nRows → σ.cols r = [] → (r ∈ rs ∨ r ∈ fb) → r ∈ fb'
  | [], _, _, _, _, _, _, _, _, h, _, _, hm => by
    cases h
    rcases hm with hm | hm
    · cases hm
    · exact hm
  | q :: rs, tested, raw, fb, σ, raw', fb', σ', w, h, hr0, hc, hm => by
    have key : ∀ {c rest}, popCol v (σ.cols q) = some (c, rest) →
        (r ∈ rs ∨ r ∈ fb) ∧ Fr 0 (fun _ => False) σ
          { σ with list := upd σ.list (σ.row q).list rest } := by
      intro c rest hp
      refine ⟨?_, popList_fr w (Nat.zero_le _) hp⟩
      rcases hm with hm | hm
      · rcases List.mem_cons.1 hm with h | h
        · subst h; rw [hc] at hp; cases hp
        · exact .inl h
      · exact .inr hm
    rcases gather_cons h with ⟨_, h⟩ | ⟨c, rest, k, hp, _, ⟨i, _, h⟩ | ⟨_, h⟩⟩
    · refine gather_keeps rs w h hr0 hc ?_
      rcases hm with hm | hm
      · rcases List.mem_cons.1 hm with h | h
        · exact .inr (List.mem_append.2 (.inr (by simp [h])))
        · exact .inl h
      · exact .inr (List.mem_append.2 (.inl hm))
    · exact gather_keeps rs (key hp).2.wf h hr0 ((key hp).2.empty r hr0 hc) (key hp).1
    · exact gather_keeps rs (key hp).2.wf h hr0 ((key hp).2.empty r hr0 hc) (key hp).1

/-- Calls on rows among which one tests nothing make no failure leaf. -/
def GoSafe (go : List Nat → P MTree) : Prop := ∀ {ids σ t σ' r}, σ.Wf → (∀ q ∈ ids, q < σ.nRows) →
  r ∈ ids → AllNames (σ.cols r) → go ids σ = .ok (t, σ') → t.hasFail = false

theorem compileCases_safe {go : List Nat → P MTree} (hgo : GoSafe go) (hfr : GoFr go) {r : Nat} :
    ∀ (raw : List RawCase) {σ ts σ'}, σ.Wf → (∀ c ∈ raw, ∀ q ∈ c.2.2, q < σ.nRows) →
    (∀ c ∈ raw, r ∈ c.2.2) → r < σ.nRows → σ.cols r = [] →
    compileCases go raw σ = .ok (ts, σ') → casesFail ts = false
  | [], σ, ts, σ', _, _, _, _, _, h => by cases h; rfl
  | (k, vs, ids) :: rest, σ, ts, σ', w, hr, hm, hr0, hc, h => by
    obtain ⟨t, σ1, ts', h1, h2, rfl⟩ := compileCases_cons h
    have a := hfr w (hr _ (List.mem_cons_self ..)) h1
    have h1' := hgo w (hr _ (List.mem_cons_self ..)) (hm _ (List.mem_cons_self ..))
      (by rw [hc]; intro c hc; cases hc) h1
    have h2' := compileCases_safe hgo hfr rest a.wf
      (fun c hc q hq => Nat.lt_of_lt_of_le (hr c (List.mem_cons_of_mem _ hc) q hq) a.rowsLe)
      (fun c hc => hm c (List.mem_cons_of_mem _ hc)) (Nat.lt_of_lt_of_le hr0 a.rowsLe)
      (a.empty r hr0 hc) h2
    simp [casesFail, h1', h2']

/-- A list of rows in which one tests nothing gets a tree without failure leaf. -/
theorem compileRows_safe (U : Unions) : ∀ fuel, GoSafe (compileRows U fuel)
  | 0, ids, σ, t, σ', r, _, _, _, _, h => by cases ids <;> cases h
  | fuel + 1, [], σ, t, σ', r, _, _, hm, _, _ => by cases hm
  | fuel + 1, p :: rs, σ, t, σ', r, w, hr, hm, hn, h => by
    have h' : branch U (compileRows U fuel) p rs (moveAll σ (p :: rs)) = .ok (t, σ') := h
    have a := moveAll_fr (p :: rs) w hr
    have hc := moveAll_names (p :: rs) w hr hm hn
    have hr0 : r < (moveAll σ (p :: rs)).nRows := Nat.lt_of_lt_of_le (hr r hm) a.rowsLe
    have hr1 : ∀ q ∈ p :: rs, q < (moveAll σ (p :: rs)).nRows := fun q hq =>
      Nat.lt_of_lt_of_le (hr q hq) a.rowsLe
    revert h' hc hr0 hr1
    have w1 := a.wf
    revert w1
    generalize moveAll σ (p :: rs) = σ1
    intro w1 h' hc hr0 hr1
    rcases branch_cases h' with ⟨_, rfl, _⟩ | ⟨c, cs, _, v, _, ⟨_, raw, σ3, ts, h1, h2, rfl⟩ |
      ⟨_, _, raw, fb, σ2, ts, σ3, t', h1, h2, h3, rfl⟩⟩
    · rfl
    · have b : Fr 0 (fun _ => False) σ1 _ := openCases_fr (constructors U v.ty) w1
      obtain ⟨_, _, _, e⟩ := openCases_eq (constructors U v.ty) σ1
      have hnr : (openCases σ1 (constructors U v.ty)).2.nRows = σ1.nRows := by rw [e]
      have hrr : ∀ q ∈ p :: rs, q < (openCases σ1 (constructors U v.ty)).2.nRows := by
        rw [hnr]; exact hr1
      obtain ⟨d, hd⟩ := spread_fr (L := 0) (p :: rs) b.wf hrr (fun _ _ => Nat.zero_le _) h1
      have hin := spread_keeps (r := r) (p :: rs) b.wf hrr h1 (hnr ▸ hr0) (b.empty r hr0 hc)
        (.inl hm)
      have hraw := hd 0 (fun _ => True) (Nat.zero_le _) (fun _ _ => trivial)
        (fun c hc q hq => by rw [openCases_nil _ _ c hc] at hq; cases hq)
      exact compileCases_safe (compileRows_safe U fuel) (compileRows_fr U fuel) raw d.wf
        (fun c hc q hq => (hraw c hc q hq).2) hin (Nat.lt_of_lt_of_le (hnr ▸ hr0) d.rowsLe)
        (d.empty r (hnr ▸ hr0) (b.empty r hr0 hc)) h2
    · obtain ⟨b, hnr, hb⟩ := gather_fr (L := 0) (p :: rs) w1 hr1 (fun _ _ => Nat.zero_le _) h1
      obtain ⟨hb1, hb2⟩ := hb (fun q => q < σ1.nRows) hr1
        (fun c hc => by cases hc) (fun c hc => by cases hc)
      have hfb := gather_keeps (p :: rs) w1 h1 hr0 hc (.inl hm)
      have hall : ∀ c ∈ raw.map (fun c => (c.1, c.2.1, c.2.2 ++ fb)), ∀ q ∈ c.2.2,
          q < σ2.nRows := by
        intro c hc q hq
        obtain ⟨d, hd, rfl⟩ := List.mem_map.1 hc
        rw [hnr]
        rcases List.mem_append.1 hq with hq | hq
        · exact hb1 d hd q hq
        · exact hb2 q hq
      have hin : ∀ c ∈ raw.map (fun c => (c.1, c.2.1, c.2.2 ++ fb)), r ∈ c.2.2 := by
        intro c hc
        obtain ⟨d, hd, rfl⟩ := List.mem_map.1 hc
        exact List.mem_append.2 (.inr hfb)
      have e1 := compileCases_safe (compileRows_safe U fuel) (compileRows_fr U fuel) _ b.wf hall
        hin (hnr ▸ hr0) (b.empty r hr0 hc) h2
      have f := compileCases_fr (compileRows_fr U fuel) _ b.wf hall h2
      have e2 := compileRows_safe U fuel f.wf
        (fun q hq => Nat.lt_of_lt_of_le (hnr ▸ hb2 q hq) f.rowsLe) hfb
        (by rw [f.empty r (hnr ▸ hr0) (b.empty r hr0 hc)]; intro c hc; cases hc) h3
      simp [MTree.hasFail, e1, e2]

end Amanda.Iguala

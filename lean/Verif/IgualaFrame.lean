import Verif.IgualaSpec

/-!
# What compiling rows leaves alone

`_compile_rows` gives each of its rows a new column list before it changes any, so lists made before
are not changed, and neither are rows outside its argument.  Rows without columns stay so.
-/

namespace Amanda.Iguala

theorem upd_same {β : Type} (f : Nat → β) (i : Nat) (x : β) : upd f i x i = x := by
  simp [upd]

theorem upd_ne {β : Type} (f : Nat → β) {i j : Nat} (x : β) (h : j ≠ i) : upd f i x j = f j := by
  simp [upd, h]

/-- Every row object has a list object. -/
def PState.Wf (σ : PState) : Prop := ∀ q < σ.nRows, (σ.row q).list < σ.nLists

/-- `σ'` follows from `σ` by changes to rows in `S` and to lists from `L` on. -/
structure Fr (L : Nat) (S : Nat → Prop) (σ σ' : PState) : Prop where
  rowsLe : σ.nRows ≤ σ'.nRows
  listsLe : σ.nLists ≤ σ'.nLists
  varsLe : σ.nVars ≤ σ'.nVars
  lists : ∀ l < L, σ'.list l = σ.list l
  other : ∀ q < σ.nRows, ¬ S q → σ'.row q = σ.row q
  arm : ∀ q < σ.nRows, (σ'.row q).arm = (σ.row q).arm
  empty : ∀ q < σ.nRows, σ.cols q = [] → σ'.cols q = []
  wf : σ'.Wf

theorem Fr.refl {L S σ} (h : σ.Wf) : Fr L S σ σ :=
  ⟨Nat.le_refl _, Nat.le_refl _, Nat.le_refl _, fun _ _ => rfl, fun _ _ _ => rfl, fun _ _ => rfl,
    fun _ _ h => h, h⟩

theorem Fr.trans {L L' S S' σ σ1 σ2} (a : Fr L S σ σ1) (b : Fr L' S' σ1 σ2) (hL : L ≤ L')
    (h : ∀ q < σ.nRows, S' q → S q) : Fr L S σ σ2 where
  rowsLe := Nat.le_trans a.rowsLe b.rowsLe
  listsLe := Nat.le_trans a.listsLe b.listsLe
  varsLe := Nat.le_trans a.varsLe b.varsLe
  lists l hl := (b.lists l (Nat.lt_of_lt_of_le hl hL)).trans (a.lists l hl)
  other q hq hS := (b.other q (Nat.lt_of_lt_of_le hq a.rowsLe) fun h' => hS (h q hq h')).trans
    (a.other q hq hS)
  arm q hq := (b.arm q (Nat.lt_of_lt_of_le hq a.rowsLe)).trans (a.arm q hq)
  empty q hq he := b.empty q (Nat.lt_of_lt_of_le hq a.rowsLe) (a.empty q hq he)
  wf := b.wf

theorem Fr.weaken {L S S' σ σ'} (a : Fr L S σ σ') (h : ∀ q < σ.nRows, S q → S' q) :
    Fr L S' σ σ' :=
  { a with other := fun q hq hS => a.other q hq fun h' => hS (h q hq h') }

/-- A row outside `S` keeps its columns, if its list is not among those that may change. -/
theorem Fr.cols {L S σ σ'} (a : Fr L S σ σ') {q : Nat} (hq : q < σ.nRows) (hS : ¬ S q)
    (hl : (σ.row q).list < L) : σ'.cols q = σ.cols q := by
  unfold PState.cols
  rw [a.other q hq hS, a.lists _ hl]

/-! ## The steps -/

theorem splitCols_nil : splitCols [] = ([], []) := rfl

theorem moveVars_fr {σ : PState} (w : σ.Wf) (r : Nat) (hr : r < σ.nRows) :
    Fr σ.nLists (fun q => q = r) σ (moveVars σ r) where
  rowsLe := Nat.le_refl _
  listsLe := Nat.le_succ _
  varsLe := Nat.le_refl _
  lists l hl := upd_ne _ _ (Nat.ne_of_lt hl)
  other q _ hS := upd_ne _ _ hS
  arm q _ := by
    show (upd σ.row r _ q).arm = _
    by_cases h : q = r
    · subst h; rw [upd_same]
    · rw [upd_ne _ _ h]
  empty q hq he := by
    show upd σ.list σ.nLists _ (upd σ.row r _ q).list = []
    by_cases h : q = r
    · subst h
      rw [upd_same, upd_same]
      have : σ.list (σ.row q).list = [] := he
      rw [this]; rfl
    · rw [upd_ne _ _ h, upd_ne _ _ (Nat.ne_of_lt (w q hq))]
      exact he
  wf q hq := by
    show (upd σ.row r _ q).list < σ.nLists + 1
    by_cases h : q = r
    · subst h; rw [upd_same]; exact Nat.lt_succ_self _
    · rw [upd_ne _ _ h]; exact Nat.lt_succ_of_lt (w q hq)

/-- The columns of the moved row: those that are not names. -/
theorem moveVars_cols {σ : PState} (r : Nat) :
    (moveVars σ r).cols r = (splitCols (σ.cols r)).1 := by
  show upd σ.list σ.nLists _ (upd σ.row r _ r).list = _
  rw [upd_same, upd_same]; rfl

theorem moveVars_list {σ : PState} (r : Nat) : ((moveVars σ r).row r).list = σ.nLists := by
  show (upd σ.row r _ r).list = _
  rw [upd_same]

theorem moveAll_fr : ∀ (ids : List Nat) {σ : PState}, σ.Wf → (∀ r ∈ ids, r < σ.nRows) →
    Fr σ.nLists (fun q => q ∈ ids) σ (moveAll σ ids)
  | [], _, w, _ => Fr.refl w
  | r :: rs, σ, w, h => by
    have a := moveVars_fr w r (h r (List.mem_cons_self ..))
    have b := moveAll_fr rs a.wf (fun q hq => h q (List.mem_cons_of_mem _ hq))
    exact ((a.weaken (S' := fun q => q ∈ r :: rs)
      (fun q _ e => by subst e; exact List.mem_cons_self ..)).trans b a.listsLe
      (fun q _ hq => List.mem_cons_of_mem _ hq))

/-- Moved rows have lists of their own. -/
theorem moveAll_lists : ∀ (ids : List Nat) {σ : PState}, σ.Wf → (∀ r ∈ ids, r < σ.nRows) →
    ∀ r ∈ ids, σ.nLists ≤ ((moveAll σ ids).row r).list
  | r :: rs, σ, w, h, q, hq => by
    have a := moveVars_fr w r (h r (List.mem_cons_self ..))
    have hrs : ∀ q ∈ rs, q < (moveVars σ r).nRows := fun q hq => h q (List.mem_cons_of_mem _ hq)
    have b := moveAll_fr rs a.wf hrs
    show σ.nLists ≤ ((moveAll (moveVars σ r) rs).row q).list
    by_cases hm : q ∈ rs
    · exact Nat.le_trans a.listsLe (moveAll_lists rs a.wf hrs q hm)
    · rcases List.mem_cons.1 hq with e | e
      · subst e
        rw [b.other q (h q hq) hm, moveVars_list]
        exact Nat.le_refl _
      · exact absurd e hm

theorem popCol_mem {v : MVar} : ∀ {cs : List Col} {c rest}, popCol v cs = some (c, rest) → cs ≠ []
  | _ :: _, _, _, _ => by simp

/-- Removing a column changes one list. -/
theorem removeColumn_fr {L σ} {r : Nat} {v : MVar} (w : σ.Wf) (hl : L ≤ (σ.row r).list) :
    Fr L (fun _ => False) σ (removeColumn σ r v).2 := by
  unfold removeColumn
  cases h : popCol v (σ.cols r) with
  | none => exact Fr.refl w
  | some p =>
    obtain ⟨c, rest⟩ := p
    exact
      { rowsLe := Nat.le_refl _
        listsLe := Nat.le_refl _
        varsLe := Nat.le_refl _
        lists := fun l hl' => upd_ne _ _ (Nat.ne_of_lt (Nat.lt_of_lt_of_le hl' hl))
        other := fun _ _ _ => rfl
        arm := fun _ _ => rfl
        empty := fun q _ he => by
          show upd σ.list (σ.row r).list rest (σ.row q).list = []
          by_cases e : (σ.row q).list = (σ.row r).list
          · exfalso
            have : σ.cols r = [] := by
              have he' : σ.list (σ.row q).list = [] := he
              rw [e] at he'; exact he'
            rw [this] at h
            exact popCol_mem h rfl
          · rw [upd_ne _ _ e]; exact he
        wf := w }

theorem removeColumn_some {σ σ1 : PState} {r : Nat} {v : MVar} {c : Col}
    (h : removeColumn σ r v = (some c, σ1)) :
    ∃ rest, popCol v (σ.cols r) = some (c, rest) ∧
      σ1 = { σ with list := upd σ.list (σ.row r).list rest } := by
  unfold removeColumn at h
  cases e : popCol v (σ.cols r) with
  | none => rw [e] at h; cases h
  | some p =>
    obtain ⟨d, rest⟩ := p
    rw [e] at h
    cases h
    exact ⟨rest, rfl, rfl⟩

theorem removeColumn_none {σ σ1 : PState} {r : Nat} {v : MVar}
    (h : removeColumn σ r v = (none, σ1)) : popCol v (σ.cols r) = none ∧ σ1 = σ := by
  unfold removeColumn at h
  cases e : popCol v (σ.cols r) with
  | none => rw [e] at h; cases h; exact ⟨rfl, rfl⟩
  | some p => rw [e] at h; cases h

theorem removeColumn_row {σ} {r : Nat} {v : MVar} : (removeColumn σ r v).2.row = σ.row := by
  unfold removeColumn
  split <;> rfl

theorem removeColumn_nRows {σ} {r : Nat} {v : MVar} : (removeColumn σ r v).2.nRows = σ.nRows := by
  unfold removeColumn
  split <;> rfl

theorem removeColumn_empty {σ : PState} {r : Nat} {v : MVar} (h : σ.cols r = []) :
    removeColumn σ r v = (none, σ) := by
  unfold removeColumn
  rw [h]; rfl

theorem newVars_eq : ∀ (tys : List Ty) (σ : PState),
    ∃ names n, n ≥ σ.nVars ∧ (newVars σ tys).2 = { σ with names := names, nVars := n }
  | [], σ => ⟨σ.names, σ.nVars, Nat.le_refl _, rfl⟩
  | t :: ts, σ => by
    obtain ⟨ns, n, hn, e⟩ := newVars_eq ts (newVar σ t).2
    exact ⟨ns, n, Nat.le_trans (Nat.le_succ _) hn, e⟩

theorem openCases_eq : ∀ (ks : List (Cons × List Ty)) (σ : PState),
    ∃ names n, n ≥ σ.nVars ∧ (openCases σ ks).2 = { σ with names := names, nVars := n }
  | [], σ => ⟨σ.names, σ.nVars, Nat.le_refl _, rfl⟩
  | (k, tys) :: ks, σ => by
    obtain ⟨ns, n, hn, e⟩ := newVars_eq tys σ
    obtain ⟨ns', n', hn', e'⟩ := openCases_eq ks (newVars σ tys).2
    refine ⟨ns', n', ?_, ?_⟩
    · rw [e] at hn'; exact Nat.le_trans hn hn'
    · show (openCases (newVars σ tys).2 ks).2 = _
      rw [e', e]

theorem openCases_fr {L S σ} (ks : List (Cons × List Ty)) (w : σ.Wf) :
    Fr L S σ (openCases σ ks).2 := by
  obtain ⟨ns, n, hn, e⟩ := openCases_eq ks σ
  rw [e]
  exact ⟨Nat.le_refl _, Nat.le_refl _, hn, fun _ _ => rfl, fun _ _ _ => rfl, fun _ _ => rfl,
    fun _ _ h => h, w⟩

theorem openCases_nil : ∀ (ks : List (Cons × List Ty)) (σ : PState),
    ∀ c ∈ (openCases σ ks).1, c.2.2 = []
  | [], _, _, h => by cases h
  | (k, tys) :: ks, σ, c, h => by
    rcases List.mem_cons.1 h with e | e
    · rw [e]
    · exact openCases_nil ks _ c e

/-- Rows of the raw cases: rows given or new ones. -/
def RawIn (n : Nat) (T : Nat → Prop) (n' : Nat) (cases : List RawCase) : Prop :=
  ∀ c ∈ cases, ∀ r ∈ c.2.2, (T r ∨ n ≤ r) ∧ r < n'

/-- A row with the popped column is rebuilt with the argument columns and shared with a new row. -/
def grow (σ : PState) (r : Nat) (rest new : List Col) : PState :=
  { σ with
    list := upd σ.list (σ.row r).list (rest ++ new)
    row := upd σ.row σ.nRows { list := (σ.row r).list, arm := (σ.row r).arm }
    nRows := σ.nRows + 1 }

theorem grow_fr {L S σ} {r : Nat} {rest new : List Col} (w : σ.Wf) (hr : r < σ.nRows)
    (hl : L ≤ (σ.row r).list) (hc : σ.cols r ≠ []) : Fr L S σ (grow σ r rest new) where
  rowsLe := Nat.le_succ _
  listsLe := Nat.le_refl _
  varsLe := Nat.le_refl _
  lists l hl' := upd_ne _ _ (Nat.ne_of_lt (Nat.lt_of_lt_of_le hl' hl))
  other q hq _ := upd_ne _ _ (Nat.ne_of_lt hq)
  arm q hq := by
    show (upd σ.row σ.nRows _ q).arm = _
    rw [upd_ne _ _ (Nat.ne_of_lt hq)]
  empty q hq he := by
    show upd σ.list (σ.row r).list _ (upd σ.row σ.nRows _ q).list = []
    rw [upd_ne _ _ (Nat.ne_of_lt hq)]
    by_cases e : (σ.row q).list = (σ.row r).list
    · exfalso
      apply hc
      have he' : σ.list (σ.row q).list = [] := he
      rw [e] at he'; exact he'
    · rw [upd_ne _ _ e]; exact he
  wf q hq := by
    show (upd σ.row σ.nRows _ q).list < σ.nLists
    by_cases e : q = σ.nRows
    · subst e; rw [upd_same]; exact w r hr
    · rw [upd_ne _ _ e]
      exact w q (Nat.lt_of_le_of_ne (Nat.le_of_lt_succ hq) e)

theorem upd_upd {β : Type} (f : Nat → β) (i : Nat) (x y : β) :
    upd (upd f i x) i y = upd f i y := by
  funext j
  by_cases h : j = i
  · subst h; rw [upd_same, upd_same]
  · rw [upd_ne _ _ h, upd_ne _ _ h, upd_ne _ _ h]

/-- One row of `spread`: the three ways it can go. -/
theorem spread_cons {v : MVar} {r : Nat} {rs : List Nat} {cases : List RawCase} {σ : PState} {raw σ'}
    (h : spread v (r :: rs) cases σ = .ok (raw, σ')) :
    (popCol v (σ.cols r) = none ∧ spread v rs (cases.map (pushRow r)) σ = .ok (raw, σ')) ∨
    (∃ c rest, popCol v (σ.cols r) = some (c, rest) ∧ (∀ k args, c.pat ≠ .adt k args) ∧
      spread v rs cases { σ with list := upd σ.list (σ.row r).list rest } = .ok (raw, σ')) ∨
    (∃ c rest tag args k vs ids, popCol v (σ.cols r) = some (c, rest) ∧
      c.pat = .adt (some tag) args ∧ cases[tag]? = some (k, vs, ids) ∧
      spread v rs (cases.set tag (k, vs, ids ++ [σ.nRows]))
        (grow σ r rest ((vs.zip args).map fun p => Col.mk p.1 p.2)) = .ok (raw, σ')) := by
  unfold spread at h
  rcases hc : removeColumn σ r v with ⟨o, σ1⟩
  rw [hc] at h
  cases o with
  | none =>
    obtain ⟨e, rfl⟩ := removeColumn_none hc
    exact .inl ⟨e, h⟩
  | some c =>
    obtain ⟨rest, e, rfl⟩ := removeColumn_some hc
    simp only at h
    cases hp : c.pat with
    | int k => simp only [hp] at h; exact .inr (.inl ⟨c, rest, e, by simp [hp], h⟩)
    | str k => simp only [hp] at h; exact .inr (.inl ⟨c, rest, e, by simp [hp], h⟩)
    | bind k => simp only [hp] at h; exact .inr (.inl ⟨c, rest, e, by simp [hp], h⟩)
    | adt tag args =>
      simp only [hp] at h
      cases tag with
      | none => cases h
      | some tag =>
        simp only at h
        cases hg : cases[tag]? with
        | none => rw [hg] at h; cases h
        | some q =>
          obtain ⟨k, vs, ids⟩ := q
          rw [hg] at h
          simp only [upd_same, upd_upd] at h
          exact .inr (.inr ⟨c, rest, tag, args, k, vs, ids, e, hp, hg, h⟩)

theorem mem_set {α : Type} : ∀ {l : List α} {i : Nat} {x y : α}, y ∈ l.set i x → y = x ∨ y ∈ l
  | a :: l, 0, x, y, h => by
    rcases List.mem_cons.1 h with e | e
    · exact .inl e
    · exact .inr (List.mem_cons_of_mem _ e)
  | a :: l, i + 1, x, y, h => by
    rcases List.mem_cons.1 h with e | e
    · exact .inr (e ▸ List.mem_cons_self ..)
    · rcases mem_set e with e | e
      · exact .inl e
      · exact .inr (List.mem_cons_of_mem _ e)

theorem popList_fr {L S σ} {r : Nat} {c : Col} {v : MVar} {rest : List Col} (w : σ.Wf)
    (hl : L ≤ (σ.row r).list) (h : popCol v (σ.cols r) = some (c, rest)) :
    Fr L S σ { σ with list := upd σ.list (σ.row r).list rest } := by
  have a := removeColumn_fr (v := v) w hl
  unfold removeColumn at a
  rw [h] at a
  exact a.weaken (fun _ _ h => h.elim)

theorem spread_fr {L : Nat} {v : MVar} : ∀ (rs : List Nat) {cases : List RawCase} {σ : PState}
    {raw σ'}, σ.Wf → (∀ r ∈ rs, r < σ.nRows) → (∀ r ∈ rs, L ≤ (σ.row r).list) →
    spread v rs cases σ = .ok (raw, σ') →
    Fr L (fun _ => False) σ σ' ∧ ∀ n T, n ≤ σ.nRows → (∀ r ∈ rs, T r) →
      RawIn n T σ.nRows cases → RawIn n T σ'.nRows raw
  | [], cases, σ, raw, σ', w, _, _, h => by
    cases h
    exact ⟨Fr.refl w, fun n T hn _ hc => hc⟩
  | r :: rs, cases, σ, raw, σ', w, hr, hl, h => by
    have hrm := hr r (List.mem_cons_self ..)
    have hlm := hl r (List.mem_cons_self ..)
    have hr1 : ∀ q ∈ rs, q < σ.nRows := fun q hq => hr q (List.mem_cons_of_mem _ hq)
    have hl1 : ∀ q ∈ rs, L ≤ (σ.row q).list := fun q hq => hl q (List.mem_cons_of_mem _ hq)
    rcases spread_cons h with ⟨_, h⟩ | ⟨c, rest, hp, _, h⟩ | ⟨c, rest, tag, args, k, vs, ids, hp, _, hg, h⟩
    · obtain ⟨b, hb⟩ := spread_fr rs w hr1 hl1 h
      refine ⟨b, fun n T hnn hT hc => ?_⟩
      refine hb n T hnn (fun q hq => hT q (List.mem_cons_of_mem _ hq)) ?_
      intro c hcm q hq
      obtain ⟨c0, hc0, rfl⟩ := List.mem_map.1 hcm
      rcases List.mem_append.1 hq with hq | hq
      · exact hc c0 hc0 q hq
      · rw [List.mem_singleton.1 hq]
        exact ⟨.inl (hT r (List.mem_cons_self ..)), hrm⟩
    · have a : Fr L (fun _ => False) σ _ := popList_fr w hlm hp
      obtain ⟨b, hb⟩ := spread_fr rs a.wf hr1 hl1 h
      exact ⟨a.trans b (Nat.le_refl _) (fun _ _ h => h), fun n T hnn hT hc =>
        hb n T hnn (fun q hq => hT q (List.mem_cons_of_mem _ hq)) hc⟩
    · have a : Fr L (fun _ => False) σ _ := grow_fr (rest := rest)
        (new := (vs.zip args).map fun p => Col.mk p.1 p.2) w hrm hlm (popCol_mem hp)
      obtain ⟨b, hb⟩ := spread_fr rs a.wf
        (fun q hq => Nat.lt_succ_of_lt (hr1 q hq))
        (fun q hq => by rw [a.other q (hr1 q hq) (fun h => h)]; exact hl1 q hq) h
      refine ⟨a.trans b (Nat.le_refl _) (fun _ _ h => h), fun n T hnn hT hc => ?_⟩
      refine hb n T (Nat.le_succ_of_le hnn) (fun q hq => hT q (List.mem_cons_of_mem _ hq)) ?_
      intro d hd q hq
      show _ ∧ q < σ.nRows + 1
      rcases mem_set hd with e | e
      · rw [e] at hq
        rcases List.mem_append.1 hq with hq | hq
        · have := hc _ (List.mem_of_getElem? hg) q hq
          exact ⟨this.1, Nat.lt_succ_of_lt this.2⟩
        · rw [List.mem_singleton.1 hq]
          exact ⟨.inr hnn, Nat.lt_succ_self _⟩
      · have := hc d e q hq
        exact ⟨this.1, Nat.lt_succ_of_lt this.2⟩

/-- One row of `gather`: the three ways it can go. -/
theorem gather_cons {v : MVar} {r : Nat} {rs : List Nat} {tested : List (Cons × Nat)}
    {raw : List RawCase} {fb : List Nat} {σ : PState} {res σ'}
    (h : gather v (r :: rs) tested raw fb σ = .ok (res, σ')) :
    (popCol v (σ.cols r) = none ∧ gather v rs tested raw (fb ++ [r]) σ = .ok (res, σ')) ∨
    (∃ c rest k, popCol v (σ.cols r) = some (c, rest) ∧ litCons c.pat = some k ∧
      ((∃ i, testedGet k tested = some (i + 1) ∧
        gather v rs tested (raw.modify (i + 1) (pushRow r)) fb
          { σ with list := upd σ.list (σ.row r).list rest } = .ok (res, σ')) ∨
       ((∀ i, testedGet k tested ≠ some (i + 1)) ∧
        gather v rs ((k, raw.length) :: tested) (raw ++ [(k, [], [r])]) fb
          { σ with list := upd σ.list (σ.row r).list rest } = .ok (res, σ')))) := by
  unfold gather at h
  rcases hc : removeColumn σ r v with ⟨o, σ1⟩
  rw [hc] at h
  cases o with
  | none =>
    obtain ⟨e, rfl⟩ := removeColumn_none hc
    exact .inl ⟨e, h⟩
  | some c =>
    obtain ⟨rest, e, rfl⟩ := removeColumn_some hc
    simp only at h
    cases hk : litCons c.pat with
    | none => rw [hk] at h; cases h
    | some k =>
      rw [hk] at h
      simp only at h
      refine .inr ⟨c, rest, k, e, hk, ?_⟩
      cases ht : testedGet k tested with
      | none => rw [ht] at h; exact .inr ⟨by simp, h⟩
      | some i =>
        rw [ht] at h
        cases i with
        | zero => exact .inr ⟨by simp, h⟩
        | succ i => exact .inl ⟨i, rfl, h⟩

theorem mem_modify {α : Type} {f : α → α} : ∀ {l : List α} {i : Nat} {y : α}, y ∈ l.modify i f →
    (∃ x ∈ l, y = f x) ∨ y ∈ l
  | a :: l, 0, y, h => by
    rcases List.mem_cons.1 (by simpa using h) with e | e
    · exact .inl ⟨a, List.mem_cons_self .., e⟩
    · exact .inr (List.mem_cons_of_mem _ e)
  | a :: l, i + 1, y, h => by
    rw [List.modify_succ_cons] at h
    rcases List.mem_cons.1 h with e | e
    · exact .inr (e ▸ List.mem_cons_self ..)
    · rcases mem_modify e with ⟨x, hx, e⟩ | e
      · exact .inl ⟨x, List.mem_cons_of_mem _ hx, e⟩
      · exact .inr (List.mem_cons_of_mem _ e)
  | [], i, y, h => by simp at h

theorem gather_fr {L : Nat} {v : MVar} : ∀ (rs : List Nat) {tested : List (Cons × Nat)}
    {raw : List RawCase} {fb : List Nat} {σ : PState} {raw' fb' σ'}, σ.Wf →
    (∀ r ∈ rs, r < σ.nRows) → (∀ r ∈ rs, L ≤ (σ.row r).list) →
    gather v rs tested raw fb σ = .ok ((raw', fb'), σ') →
    Fr L (fun _ => False) σ σ' ∧ σ'.nRows = σ.nRows ∧ ∀ T : Nat → Prop, (∀ r ∈ rs, T r) →
      (∀ c ∈ raw, ∀ r ∈ c.2.2, T r) → (∀ r ∈ fb, T r) →
      (∀ c ∈ raw', ∀ r ∈ c.2.2, T r) ∧ ∀ r ∈ fb', T r
  | [], _, raw, fb, σ, _, _, _, w, _, _, h => by
    cases h
    exact ⟨Fr.refl w, rfl, fun T _ h1 h2 => ⟨h1, h2⟩⟩
  | r :: rs, tested, raw, fb, σ, raw', fb', σ', w, hr, hl, h => by
    have hrm := hr r (List.mem_cons_self ..)
    have hlm := hl r (List.mem_cons_self ..)
    have hr1 : ∀ q ∈ rs, q < σ.nRows := fun q hq => hr q (List.mem_cons_of_mem _ hq)
    have hl1 : ∀ q ∈ rs, L ≤ (σ.row q).list := fun q hq => hl q (List.mem_cons_of_mem _ hq)
    rcases gather_cons h with ⟨_, h⟩ | ⟨c, rest, k, hp, _, ⟨i, _, h⟩ | ⟨_, h⟩⟩
    · obtain ⟨b, hn, hb⟩ := gather_fr rs w hr1 hl1 h
      refine ⟨b, hn, fun T hT h1 h2 => hb T (fun q hq => hT q (List.mem_cons_of_mem _ hq)) h1 ?_⟩
      intro q hq
      rcases List.mem_append.1 hq with hq | hq
      · exact h2 q hq
      · rw [List.mem_singleton.1 hq]; exact hT r (List.mem_cons_self ..)
    · have a : Fr L (fun _ => False) σ _ := popList_fr w hlm hp
      obtain ⟨b, hn, hb⟩ := gather_fr rs a.wf hr1 hl1 h
      refine ⟨a.trans b (Nat.le_refl _) (fun _ _ h => h), hn, fun T hT h1 h2 =>
        hb T (fun q hq => hT q (List.mem_cons_of_mem _ hq)) ?_ h2⟩
      intro d hd q hq
      rcases mem_modify hd with ⟨x, hx, e⟩ | e
      · rw [e] at hq
        rcases List.mem_append.1 hq with hq | hq
        · exact h1 x hx q hq
        · rw [List.mem_singleton.1 hq]; exact hT r (List.mem_cons_self ..)
      · exact h1 d e q hq
    · have a : Fr L (fun _ => False) σ _ := popList_fr w hlm hp
      obtain ⟨b, hn, hb⟩ := gather_fr rs a.wf hr1 hl1 h
      refine ⟨a.trans b (Nat.le_refl _) (fun _ _ h => h), hn, fun T hT h1 h2 =>
        hb T (fun q hq => hT q (List.mem_cons_of_mem _ hq)) ?_ h2⟩
      intro d hd q hq
      rcases List.mem_append.1 hd with e | e
      · exact h1 d e q hq
      · rw [List.mem_singleton.1 e] at hq
        rw [List.mem_singleton.1 hq]; exact hT r (List.mem_cons_self ..)

/-! ## The whole -/

/-- What the recursive calls are known to leave alone. -/
def GoFr (go : List Nat → P MTree) : Prop := ∀ {ids σ t σ'}, σ.Wf → (∀ r ∈ ids, r < σ.nRows) →
  go ids σ = .ok (t, σ') → Fr σ.nLists (fun q => q ∈ ids) σ σ'

theorem compileCases_cons {go : List Nat → P MTree} {k vs ids rest σ ts σ'}
    (h : compileCases go ((k, vs, ids) :: rest) σ = .ok (ts, σ')) :
    ∃ t σ1 ts', go ids σ = .ok (t, σ1) ∧ compileCases go rest σ1 = .ok (ts', σ') ∧
      ts = (k, vs, t) :: ts' := by
  unfold compileCases at h
  cases h1 : go ids σ with
  | error e => rw [h1] at h; cases h
  | ok p =>
    obtain ⟨t, σ1⟩ := p
    rw [h1] at h
    simp only at h
    cases h2 : compileCases go rest σ1 with
    | error e => rw [h2] at h; cases h
    | ok p =>
      obtain ⟨ts', σ2⟩ := p
      rw [h2] at h
      cases h
      exact ⟨t, σ1, ts', rfl, h2, rfl⟩

theorem compileCases_fr {go : List Nat → P MTree} (hgo : GoFr go) : ∀ (raw : List RawCase)
    {σ ts σ'}, σ.Wf → (∀ c ∈ raw, ∀ r ∈ c.2.2, r < σ.nRows) →
    compileCases go raw σ = .ok (ts, σ') →
    Fr σ.nLists (fun q => ∃ c ∈ raw, q ∈ c.2.2) σ σ'
  | [], σ, ts, σ', w, _, h => by cases h; exact Fr.refl w
  | (k, vs, ids) :: rest, σ, ts, σ', w, hr, h => by
    obtain ⟨t, σ1, ts', h1, h2, _⟩ := compileCases_cons h
    have a := hgo w (hr _ (List.mem_cons_self ..)) h1
    have b := compileCases_fr hgo rest a.wf
      (fun c hc r hm => Nat.lt_of_lt_of_le (hr c (List.mem_cons_of_mem _ hc) r hm) a.rowsLe) h2
    exact (a.weaken (fun q _ hq => ⟨_, List.mem_cons_self .., hq⟩)).trans b a.listsLe
      (fun q _ ⟨c, hc, hq⟩ => ⟨c, List.mem_cons_of_mem _ hc, hq⟩)

/-- The ways a call of `branch` can end. -/
theorem branch_cases {U : Unions} {go : List Nat → P MTree} {r : Nat} {rs : List Nat} {σ : PState}
    {t σ'} (h : branch U go r rs σ = .ok (t, σ')) :
    (σ.cols r = [] ∧ t = .success (σ.row r).arm ∧
      σ' = { σ with reachable := σ.reachable ++ [(σ.row r).arm] }) ∨
    (∃ c cs, σ.cols r = c :: cs ∧ ∃ v, v = branchVar σ (r :: rs) c cs ∧
      ((finite v.ty = true ∧ ∃ raw σ3 ts,
          spread v (r :: rs) (openCases σ (constructors U v.ty)).1
            (openCases σ (constructors U v.ty)).2 = .ok (raw, σ3) ∧
          compileCases go raw σ3 = .ok (ts, σ') ∧ t = .switch v ts none) ∨
        (finite v.ty = false ∧ (v.ty.eqv .int || v.ty.eqv .texto) = true ∧
          ∃ raw fb σ2 ts σ3 t', gather v (r :: rs) [] [] [] σ = .ok ((raw, fb), σ2) ∧
          compileCases go (raw.map fun c => (c.1, c.2.1, c.2.2 ++ fb)) σ2 = .ok (ts, σ3) ∧
          go fb σ3 = .ok (t', σ') ∧ t = .switch v ts (some t')))) := by
  unfold branch at h
  cases hc : σ.cols r with
  | nil => rw [hc] at h; cases h; exact .inl ⟨rfl, rfl, rfl⟩
  | cons c cs =>
    rw [hc] at h
    refine .inr ⟨c, cs, rfl, _, rfl, ?_⟩
    simp only at h
    revert h
    generalize branchVar σ (r :: rs) c cs = v
    intro h
    by_cases hf : finite v.ty = true
    · rw [if_pos hf] at h
      cases h1 : spread v (r :: rs) (openCases σ (constructors U v.ty)).1
          (openCases σ (constructors U v.ty)).2 with
      | error e => rw [h1] at h; cases h
      | ok p =>
        obtain ⟨raw, σ3⟩ := p
        rw [h1] at h
        simp only at h
        cases h2 : compileCases go raw σ3 with
        | error e => rw [h2] at h; cases h
        | ok p =>
          obtain ⟨ts, σ4⟩ := p
          rw [h2] at h
          cases h
          exact .inl ⟨hf, raw, σ3, ts, rfl, h2, rfl⟩
    · rw [if_neg hf] at h
      by_cases hi : (v.ty.eqv .int || v.ty.eqv .texto) = true
      · rw [if_pos hi] at h
        cases h1 : gather v (r :: rs) [] [] [] σ with
        | error e => rw [h1] at h; cases h
        | ok p =>
          obtain ⟨⟨raw, fb⟩, σ2⟩ := p
          rw [h1] at h
          simp only at h
          cases h2 : compileCases go (raw.map fun c => (c.1, c.2.1, c.2.2 ++ fb)) σ2 with
          | error e => rw [h2] at h; cases h
          | ok p =>
            obtain ⟨ts, σ3⟩ := p
            rw [h2] at h
            simp only at h
            cases h3 : go fb σ3 with
            | error e => rw [h3] at h; cases h
            | ok p =>
              obtain ⟨t', σ4⟩ := p
              rw [h3] at h
              cases h
              exact .inr ⟨by simpa using hf, hi, raw, fb, σ2, ts, σ3, t', rfl, h2, h3, rfl⟩
      · rw [if_neg hi] at h; cases h

theorem branch_fr {U : Unions} {go : List Nat → P MTree} (hgo : GoFr go) {L r rs σ t σ'}
    (w : σ.Wf) (hr : ∀ q ∈ r :: rs, q < σ.nRows) (hl : ∀ q ∈ r :: rs, L ≤ (σ.row q).list)
    (hL : L ≤ σ.nLists) (h : branch U go r rs σ = .ok (t, σ')) :
    Fr L (fun q => q ∈ r :: rs) σ σ' := by
  rcases branch_cases h with ⟨_, _, rfl⟩ | ⟨c, cs, _, v, _, ⟨_, raw, σ3, ts, h1, h2, _⟩ |
    ⟨_, _, raw, fb, σ2, ts, σ3, t', h1, h2, h3, _⟩⟩
  · exact ⟨Nat.le_refl _, Nat.le_refl _, Nat.le_refl _, fun _ _ => rfl, fun _ _ _ => rfl,
      fun _ _ => rfl, fun _ _ h => h, w⟩
  · have a : Fr L (fun q => q ∈ r :: rs) σ _ := openCases_fr (constructors U v.ty) w
    obtain ⟨ns, n, hn, e⟩ := openCases_eq (constructors U v.ty) σ
    have hrow : (openCases σ (constructors U v.ty)).2.row = σ.row := by rw [e]
    have hnr : (openCases σ (constructors U v.ty)).2.nRows = σ.nRows := by rw [e]
    obtain ⟨b, hb⟩ := spread_fr (L := L) (r :: rs) a.wf (by rw [hnr]; exact hr)
      (by rw [hrow]; exact hl) h1
    have hraw := hb σ.nRows (fun q => q ∈ r :: rs) (Nat.le_of_eq hnr.symm) (fun _ h => h)
      (fun c hc q hq => by rw [openCases_nil _ _ c hc] at hq; cases hq)
    have cfr := compileCases_fr hgo raw b.wf (fun c hc q hq => (hraw c hc q hq).2) h2
    have ab := a.trans b (Nat.le_refl _) (fun _ _ h => h.elim)
    refine ab.trans cfr (Nat.le_trans hL ab.listsLe) ?_
    intro q hq ⟨c, hc, hm⟩
    rcases (hraw c hc q hm).1 with h | h
    · exact h
    · exact absurd hq (Nat.not_lt_of_le h)
  · obtain ⟨b, hnr, hb⟩ := gather_fr (L := L) (r :: rs) w hr hl h1
    obtain ⟨hb1, hb2⟩ := hb (fun q => q ∈ r :: rs) (fun _ h => h)
      (fun c hc => by cases hc) (fun c hc => by cases hc)
    have hall : ∀ c ∈ raw.map (fun c => (c.1, c.2.1, c.2.2 ++ fb)), ∀ q ∈ c.2.2, q ∈ r :: rs := by
      intro c hc q hq
      obtain ⟨d, hd, rfl⟩ := List.mem_map.1 hc
      rcases List.mem_append.1 hq with hq | hq
      · exact hb1 d hd q hq
      · exact hb2 q hq
    have cfr := compileCases_fr hgo _ b.wf
      (fun c hc q hq => by rw [hnr]; exact hr q (hall c hc q hq)) h2
    have b' := (b.weaken (S' := fun q => q ∈ r :: rs) (fun _ _ h => h.elim)).trans cfr
      (Nat.le_trans hL b.listsLe) (fun q _ ⟨c, hc, hm⟩ => hall c hc q hm)
    have d := hgo cfr.wf (fun q hq => Nat.lt_of_lt_of_le (hr q (hb2 q hq)) b'.rowsLe) h3
    exact b'.trans d (Nat.le_trans hL b'.listsLe) (fun q _ hq => hb2 q hq)

/-- Compiling rows changes no list made before and no row but its own. -/
theorem compileRows_fr (U : Unions) : ∀ fuel, GoFr (compileRows U fuel)
  | 0, ids, σ, t, σ', _, _, h => by cases ids <;> cases h
  | fuel + 1, [], σ, t, σ', w, _, h => by
    cases h
    exact ⟨Nat.le_refl _, Nat.le_refl _, Nat.le_refl _, fun _ _ => rfl, fun _ _ _ => rfl,
      fun _ _ => rfl, fun _ _ h => h, w⟩
  | fuel + 1, r :: rs, σ, t, σ', w, hr, h => by
    have a := moveAll_fr (r :: rs) w hr
    have b := branch_fr (compileRows_fr U fuel) a.wf
      (fun q hq => Nat.lt_of_lt_of_le (hr q hq) a.rowsLe) (moveAll_lists (r :: rs) w hr)
      a.listsLe (show branch U (compileRows U fuel) r rs (moveAll σ (r :: rs)) = _ from h)
    exact a.trans b (Nat.le_refl _) (fun _ _ h => h)

end Amanda.Iguala

import Verif.IgualaGroups

/-!
# Rows that test literals

The part of the pattern compiler that works on columns with numbers and texts, for lists of rows
on which it is right (`Tame`).
-/

namespace Amanda.Iguala

/-- A row as far as tests go: places with the literals expected there. -/
abbrev LRow := List (Nat × Cons)

/-- The first test of a place, and the other tests. -/
def popL (p : Nat) : LRow → Option (Cons × LRow)
  | [] => none
  | (q, k) :: r =>
    if q = p then some (k, r)
    else match popL p r with
      | some (j, s) => some (j, (q, k) :: s)
      | none => none

/-- How often a place is tested. -/
def countL (rows : List LRow) (p : Nat) : Nat :=
  (rows.map fun r => (r.filter fun a => a.1 == p).length).sum

/-- The first of the places with the largest count. -/
def maxL (key : Nat → Nat) : Nat → List Nat → Nat
  | best, [] => best
  | best, p :: ps => if key p > key best then maxL key p ps else maxL key best ps

/-- The place that is tested first: among those of the first row the one tested most often. -/
def pickL (rows : List LRow) : Option Nat :=
  match rows with
  | ((p, _) :: r) :: _ => some (maxL (countL rows) p (r.map (·.1)))
  | _ => none

/-- Lists of rows that the pattern compiler treats rightly.

* `leaf`: the first row tests nothing;
* `single`: some rows with a single test, all at the same place, then rows that do not test it;
* `block`: rows that test one place, and maybe others, then rows that test nothing; rows that
  expect the same value there have the same lexeme, other than that of the first row, or else test
  nothing more. -/
inductive Tame : List LRow → Prop where
  | nil : Tame []
  | leaf {rest : List LRow} : Tame ([] :: rest)
  | single {p : Nat} {k0 : Cons} {ks : List Cons} {fb : List LRow} :
      (∀ r ∈ fb, popL p r = none) → Tame fb → Tame ((k0 :: ks).map (fun k => [(p, k)]) ++ fb)
  | block {p : Nat} {k0 : Cons} {r0 : LRow} {ws : List (Cons × LRow)} {rows fb : List LRow} :
      rows.map (popL p) = ((k0, r0) :: ws).map some → pickL (rows ++ fb) = some p →
      (∀ r ∈ fb, r = []) →
      ((k0, r0) :: ws).Pairwise (fun a b => litEq a.1 b.1 = true →
        (a.1 = b.1 ∧ a.1 ≠ k0) ∨ (a.2 = [] ∧ b.2 = [])) →
      (∀ a ∈ (k0, r0) :: ws,
        Tame ((((k0, r0) :: ws).filter fun b => litEq a.1 b.1).map (·.2) ++ fb)) →
      Tame (rows ++ fb)

/-- Whether a test holds. -/
def holds (env : Env) (a : Nat × Cons) : Bool :=
  match env a.1 with
  | some x => fits a.2 x
  | none => false

/-- Whether all tests of a row hold. -/
def sat (env : Env) (r : LRow) : Bool := r.all (holds env)

/-- The first row all of whose tests hold. -/
def firstSat (env : Env) : List (Nat × LRow) → Option Nat
  | [] => none
  | (a, r) :: rest => if sat env r then some a else firstSat env rest

theorem firstSat_append (env : Env) : ∀ (a b : List (Nat × LRow)),
    firstSat env (a ++ b) = (firstSat env a).or (firstSat env b)
  | [], b => by simp [firstSat]
  | (n, r) :: a, b => by
    have := firstSat_append env a b
    by_cases h : sat env r <;> simp [firstSat, h, this]

theorem sat_pop {env : Env} {p : Nat} {x : V} (hx : env p = some x) :
    ∀ {r : LRow} {k : Cons} {s : LRow}, popL p r = some (k, s) →
      sat env r = (fits k x && sat env s)
  | (q, j) :: r, k, s, h => by
    unfold popL at h
    by_cases e : q = p
    · rw [if_pos e] at h
      cases h
      subst e
      simp [sat, holds, hx]
    · rw [if_neg e] at h
      cases hr : popL p r with
      | none => rw [hr] at h; cases h
      | some a =>
        obtain ⟨k', s'⟩ := a
        rw [hr] at h
        cases h
        have := sat_pop hx hr
        simp only [sat, List.all_cons] at this ⊢
        rw [this]
        cases holds env (q, j) <;> cases fits k x <;> simp

/-- The number of tests. -/
def total (rows : List LRow) : Nat := (rows.map List.length).sum

theorem total_append (a b : List LRow) : total (a ++ b) = total a + total b := by
  simp [total]

theorem popL_length {p : Nat} : ∀ {r : LRow} {k s}, popL p r = some (k, s) →
    r.length = s.length + 1
  | (q, j) :: r, k, s, h => by
    unfold popL at h
    by_cases e : q = p
    · rw [if_pos e] at h; cases h; rfl
    · rw [if_neg e] at h
      cases hr : popL p r with
      | none => rw [hr] at h; cases h
      | some a =>
        obtain ⟨k', s'⟩ := a
        rw [hr] at h
        cases h
        simp [popL_length hr]

theorem total_pop {p : Nat} : ∀ {rows : List LRow} {ws : List (Cons × LRow)},
    rows.map (popL p) = ws.map some → total rows = total (ws.map (·.2)) + ws.length
  | [], [], _ => rfl
  | r :: rows, (k, s) :: ws, h => by
    simp only [List.map_cons, List.cons.injEq] at h
    have := total_pop h.2
    have h1 := popL_length h.1
    simp only [total, List.map_cons, List.sum_cons, List.length_cons] at this ⊢
    omega
  | [], _ :: _, h => by cases h
  | _ :: _, [], h => by cases h

theorem total_filter (f : Cons × LRow → Bool) : ∀ (ws : List (Cons × LRow)),
    total ((ws.filter f).map (·.2)) ≤ total (ws.map (·.2))
  | [] => Nat.le_refl _
  | w :: ws => by
    have := total_filter f ws
    by_cases h : f w
    · simp only [total, List.filter_cons_of_pos h, List.map_cons, List.sum_cons] at this ⊢
      omega
    · simp only [total, List.filter_cons_of_neg h, List.map_cons, List.sum_cons] at this ⊢
      omega

/-! ## Columns with literals -/

/-- The test of a column. -/
def litKey (c : Col) : Nat × Cons := (c.v.id, (litCons c.pat).getD (.bool 0))

/-- Types for whose values there are literals. -/
def litTy (t : Ty) : Bool := !finite t && (t.eqv .int || t.eqv .texto)

/-- Columns that test literals of variables in `VS`. -/
def LitCols (VS : MVar → Prop) (cs : List Col) : Prop :=
  ∀ c ∈ cs, VS c.v ∧ (litCons c.pat).isSome = true ∧ litTy c.v.ty = true

/-- Variables that are equal only if identical. -/
def Apart (VS : MVar → Prop) : Prop := ∀ a b, VS a → VS b → (a.same b = true ↔ a.id = b.id)

theorem litKey_isLit {c : Col} (h : (litCons c.pat).isSome = true) : (litKey c).2.isLit = true := by
  cases hp : c.pat <;> simp_all [litKey, litCons, Cons.isLit]

theorem splitCols_lits {VS} : ∀ {cs : List Col}, LitCols VS cs → splitCols cs = (cs, [])
  | [], _ => rfl
  | c :: cs, h => by
    have := splitCols_lits (VS := VS) (cs := cs) fun d hd => h d (List.mem_cons_of_mem _ hd)
    have hl := (h c (List.mem_cons_self ..)).2.1
    cases hp : c.pat <;> simp_all [splitCols, litCons]

theorem popCol_popL {VS} (hA : Apart VS) {v : MVar} (hv : VS v) : ∀ {cs : List Col}, LitCols VS cs →
    popL v.id (cs.map litKey) =
      (popCol v cs).map fun a => ((litKey a.1).2, a.2.map litKey)
  | [], _ => rfl
  | c :: cs, h => by
    have ih := popCol_popL hA hv (cs := cs) fun d hd => h d (List.mem_cons_of_mem _ hd)
    have hs := hA c.v v (h c (List.mem_cons_self ..)).1 hv
    rw [List.map_cons]
    show popL v.id ((c.v.id, (litKey c).2) :: cs.map litKey) = _
    unfold popL popCol
    by_cases e : c.v.id = v.id
    · rw [if_pos e, if_pos (hs.2 e)]; rfl
    · rw [if_neg e, if_neg (fun h => e (hs.1 h)), ih]
      cases popCol v cs with
      | none => rfl
      | some a => rfl

theorem popCol_rest {v : MVar} : ∀ {cs : List Col} {c rest}, popCol v cs = some (c, rest) →
    c ∈ cs ∧ ∀ d ∈ rest, d ∈ cs
  | a :: cs, c, rest, h => by
    unfold popCol at h
    by_cases e : a.v.same v = true
    · rw [if_pos e] at h
      cases h
      exact ⟨List.mem_cons_self .., fun d hd => List.mem_cons_of_mem _ hd⟩
    · rw [if_neg e] at h
      cases hr : popCol v cs with
      | none => rw [hr] at h; cases h
      | some p =>
        obtain ⟨d, ds⟩ := p
        rw [hr] at h
        cases h
        obtain ⟨h1, h2⟩ := popCol_rest hr
        refine ⟨List.mem_cons_of_mem _ h1, fun d hd => ?_⟩
        rcases List.mem_cons.1 hd with e | e
        · rw [e]; exact List.mem_cons_self ..
        · exact List.mem_cons_of_mem _ (h2 d e)

/-- The columns left by `remove_column`. -/
def popRest (v : MVar) (cs : List Col) : List Col :=
  match popCol v cs with
  | some (_, rest) => rest
  | none => cs

theorem LitCols.popRest {VS v cs} (h : LitCols VS cs) : LitCols VS (popRest v cs) := by
  unfold Iguala.popRest
  cases hp : popCol v cs with
  | none => exact h
  | some a =>
    obtain ⟨c, rest⟩ := a
    exact fun d hd => h d ((popCol_rest hp).2 d hd)

/-! ## Moving and gathering such rows -/

/-- Moving rows, seen from any row: its columns lose the names. -/
theorem moveAll_cols : ∀ (ids : List Nat) {σ : PState}, σ.Wf → ids.Nodup →
    (∀ r ∈ ids, r < σ.nRows) → ∀ q < σ.nRows,
    (moveAll σ ids).cols q = if q ∈ ids then (splitCols (σ.cols q)).1 else σ.cols q
  | [], σ, _, _, _, q, _ => rfl
  | r :: rs, σ, w, hn, hr, q, hq => by
    have a := moveVars_fr w r (hr r (List.mem_cons_self ..))
    rw [List.nodup_cons] at hn
    show (moveAll (moveVars σ r) rs).cols q = _
    rw [moveAll_cols rs a.wf hn.2 (fun p hp => hr p (List.mem_cons_of_mem _ hp)) q hq]
    by_cases e : q = r
    · subst e
      rw [if_neg hn.1, if_pos (List.mem_cons_self ..), moveVars_cols]
    · have : (moveVars σ r).cols q = σ.cols q := a.cols hq e (w q hq)
      rw [this]
      by_cases hm : q ∈ rs
      · rw [if_pos hm, if_pos (List.mem_cons_of_mem _ hm)]
      · rw [if_neg hm, if_neg]
        intro h
        rcases List.mem_cons.1 h with h | h
        · exact e h
        · exact hm h

/-- Moved rows do not share lists. -/
theorem moveAll_sep : ∀ (ids : List Nat) {σ : PState}, σ.Wf → ids.Nodup →
    (∀ r ∈ ids, r < σ.nRows) → ∀ q ∈ ids, ∀ r ∈ ids,
    ((moveAll σ ids).row q).list = ((moveAll σ ids).row r).list → q = r
  | p :: ps, σ, w, hn, hr, q, hq, r, hrm, e => by
    have a := moveVars_fr w p (hr p (List.mem_cons_self ..))
    rw [List.nodup_cons] at hn
    have hps : ∀ r ∈ ps, r < (moveVars σ p).nRows := fun p hp => hr p (List.mem_cons_of_mem _ hp)
    have b := moveAll_fr ps a.wf hps
    have hl := moveAll_lists ps a.wf hps
    have e' : ((moveAll (moveVars σ p) ps).row q).list = ((moveAll (moveVars σ p) ps).row r).list := e
    have hp0 : ((moveAll (moveVars σ p) ps).row p).list = σ.nLists := by
      rw [b.other p (hr p (List.mem_cons_self ..)) hn.1, moveVars_list]
    have hlt : ∀ s ∈ ps, ((moveAll (moveVars σ p) ps).row s).list ≠ σ.nLists := by
      intro s hs h
      have := hl s hs
      rw [h] at this
      exact Nat.not_succ_le_self _ this
    rcases List.mem_cons.1 hq with h1 | h1 <;> rcases List.mem_cons.1 hrm with h2 | h2
    · rw [h1, h2]
    · rw [h1, hp0] at e'
      exact absurd e'.symm (hlt r h2)
    · rw [h2, hp0] at e'
      exact absurd e' (hlt q h1)
    · exact moveAll_sep ps a.wf hn.2 hps q h1 r h2 e'

theorem moveAll_bindings_lits {VS} : ∀ (ids : List Nat) {σ : PState}, σ.Wf → ids.Nodup →
    (∀ r ∈ ids, r < σ.nRows) → (∀ r ∈ ids, LitCols VS (σ.cols r)) →
    (moveAll σ ids).bindings = σ.bindings
  | [], _, _, _, _, _ => rfl
  | r :: rs, σ, w, hn, hr, hc => by
    have a := moveVars_fr w r (hr r (List.mem_cons_self ..))
    rw [List.nodup_cons] at hn
    have hb : (moveVars σ r).bindings = σ.bindings := by
      show upd σ.bindings _ (_ ++ (splitCols (σ.cols r)).2) = _
      rw [splitCols_lits (hc r (List.mem_cons_self ..))]
      funext i
      by_cases e : i = (σ.row r).arm
      · subst e; rw [upd_same]; simp
      · rw [upd_ne _ _ e]
    have : (moveAll (moveVars σ r) rs).bindings = (moveVars σ r).bindings := by
      refine moveAll_bindings_lits (VS := VS) rs a.wf hn.2 (fun p hp => hr p (List.mem_cons_of_mem _ hp)) ?_
      intro q hq
      have hqr : q ≠ r := fun e => hn.1 (e ▸ hq)
      have hq' := hr q (List.mem_cons_of_mem _ hq)
      rw [a.cols hq' hqr (w q hq')]
      exact hc q (List.mem_cons_of_mem _ hq)
    exact this.trans hb

/-- `gather` on rows that do not share lists: rows with the column are grouped, the others kept
aside. -/
theorem gather_lits {VS} (hA : Apart VS) {v : MVar} (hv : VS v) : ∀ (ids : List Nat)
    {tested : List (Cons × Nat)} {raw : List RawCase} {fb : List Nat} {σ : PState},
    ids.Nodup → (∀ q ∈ ids, ∀ r ∈ ids, (σ.row q).list = (σ.row r).list → q = r) →
    (∀ r ∈ ids, LitCols VS (σ.cols r)) →
    ∀ (ws : List (Nat × Cons)) (fs : List Nat), ids = ws.map (·.1) ++ fs →
    (∀ a ∈ ws, ∃ s, popL v.id ((σ.cols a.1).map litKey) = some (a.2, s)) →
    (∀ r ∈ fs, popL v.id ((σ.cols r).map litKey) = none) →
    ∃ σ', gather v ids tested raw fb σ = .ok ((groups ws tested raw, fb ++ fs), σ') ∧
      σ'.row = σ.row ∧ σ'.nRows = σ.nRows ∧ σ'.nLists = σ.nLists ∧ σ'.bindings = σ.bindings ∧
      (∀ r ∈ ids, σ'.cols r = popRest v (σ.cols r)) ∧
      (∀ r, (∀ q ∈ ids, (σ.row q).list ≠ (σ.row r).list) → σ'.cols r = σ.cols r)
  | [], tested, raw, fb, σ, _, _, _, ws, fs, he, _, _ => by
    have h1 : ws = [] := by
      cases ws with
      | nil => rfl
      | cons a l => cases he
    subst h1
    have h2 : fs = [] := by simpa using he.symm
    subst h2
    exact ⟨σ, by simp [gather, groups], rfl, rfl, rfl, rfl, fun r h => by simp at h, fun _ _ => rfl⟩
  | r :: rs, tested, raw, fb, σ, hn, hsep, hc, ws, fs, he, hw, hf => by
    rw [List.nodup_cons] at hn
    have hcr := hc r (List.mem_cons_self ..)
    have hpl := popCol_popL hA hv hcr
    cases ws with
    | nil =>
      have hfs : fs = r :: rs := he.symm
      subst hfs
      have hnone : popCol v (σ.cols r) = none := by
        have h0 := hf r (List.mem_cons_self ..)
        rw [hpl] at h0
        cases hp : popCol v (σ.cols r) with
        | none => rfl
        | some a => rw [hp] at h0; cases h0
      have hrc : removeColumn σ r v = (none, σ) := by unfold removeColumn; rw [hnone]
      obtain ⟨σ', h1, h2, h3, h4, h5, h6, h7⟩ := gather_lits hA hv rs (tested := tested)
        (raw := raw) (fb := fb ++ [r]) (σ := σ) hn.2
        (fun q hq s hs => hsep q (List.mem_cons_of_mem _ hq) s (List.mem_cons_of_mem _ hs))
        (fun q hq => hc q (List.mem_cons_of_mem _ hq)) [] rs rfl (by simp)
        (fun q hq => hf q (List.mem_cons_of_mem _ hq))
      refine ⟨σ', ?_, h2, h3, h4, h5, ?_, ?_⟩
      · unfold gather
        rw [hrc]
        simp only
        rw [h1]
        simp [groups]
      · intro q hq
        rcases List.mem_cons.1 hq with e | e
        · subst e
          rw [h7 q (fun s hs h => ?_)]
          · unfold popRest; rw [hnone]
          · have := hsep s (List.mem_cons_of_mem _ hs) q (List.mem_cons_self ..) h
            subst this; exact hn.1 hs
        · exact h6 q e
      · intro q hq
        exact h7 q (fun s hs => hq s (List.mem_cons_of_mem _ hs))
    | cons a ws =>
      obtain ⟨r', k⟩ := a
      simp only [List.map_cons, List.cons_append, List.cons.injEq] at he
      obtain ⟨rfl, he⟩ := he
      obtain ⟨s, hs⟩ := hw (r, k) (List.mem_cons_self ..)
      have hs' : popL v.id ((σ.cols r).map litKey) = some (k, s) := hs
      rw [hpl] at hs'
      cases hp : popCol v (σ.cols r) with
      | none => rw [hp] at hs'; cases hs'
      | some p =>
        obtain ⟨c, rest⟩ := p
        rw [hp] at hs'
        have hck : (litKey c).2 = k := by
          simp only [Option.map_some, Option.some.injEq, Prod.mk.injEq] at hs'
          exact hs'.1
        have hlit : litCons c.pat = some k := by
          have h0 := (hcr c (popCol_rest hp).1).2.1
          cases hl : litCons c.pat with
          | none => rw [hl] at h0; cases h0
          | some k' =>
            unfold litKey at hck
            rw [hl] at hck
            exact congrArg some hck
        have hrc : removeColumn σ r v =
            (some c, { σ with list := upd σ.list (σ.row r).list rest }) := by
          unfold removeColumn; rw [hp]
        have hcols : ∀ q, (σ.row q).list ≠ (σ.row r).list →
            PState.cols { σ with list := upd σ.list (σ.row r).list rest } q = σ.cols q :=
          fun q hq => upd_ne _ _ hq
        have hrs : ∀ q ∈ rs, (σ.row q).list ≠ (σ.row r).list := fun q hq h => by
          have := hsep q (List.mem_cons_of_mem _ hq) r (List.mem_cons_self ..) h
          subst this; exact hn.1 hq
        have ih := fun (tested' : List (Cons × Nat)) (raw' : List RawCase) =>
          gather_lits hA hv rs (tested := tested') (raw := raw') (fb := fb)
            (σ := { σ with list := upd σ.list (σ.row r).list rest }) hn.2
            (fun q hq s hs => hsep q (List.mem_cons_of_mem _ hq) s (List.mem_cons_of_mem _ hs))
            (fun q hq => by rw [hcols q (hrs q hq)]; exact hc q (List.mem_cons_of_mem _ hq)) ws fs he
            (fun a ha => by
              have hm : a.1 ∈ rs := by
                rw [he]; exact List.mem_append.2 (.inl (List.mem_map.2 ⟨a, ha, rfl⟩))
              rw [hcols a.1 (hrs _ hm)]
              exact hw a (List.mem_cons_of_mem _ ha))
            (fun q hq => by
              have hm : q ∈ rs := by rw [he]; exact List.mem_append.2 (.inr hq)
              rw [hcols q (hrs _ hm)]
              exact hf q hq)
        have fin : ∀ {tested' raw'}, (∀ res σ'', gather v rs tested' raw' fb
              { σ with list := upd σ.list (σ.row r).list rest } = .ok (res, σ'') →
              gather v (r :: rs) tested raw fb σ = .ok (res, σ'')) →
            groups ((r, k) :: ws) tested raw = groups ws tested' raw' →
            ∃ σ', gather v (r :: rs) tested raw fb σ =
                .ok ((groups ((r, k) :: ws) tested raw, fb ++ fs), σ') ∧
              σ'.row = σ.row ∧ σ'.nRows = σ.nRows ∧ σ'.nLists = σ.nLists ∧
              σ'.bindings = σ.bindings ∧
              (∀ q ∈ r :: rs, σ'.cols q = popRest v (σ.cols q)) ∧
              (∀ q, (∀ p ∈ r :: rs, (σ.row p).list ≠ (σ.row q).list) → σ'.cols q = σ.cols q) := by
          intro tested' raw' hg hgr
          obtain ⟨σ', h1, h2, h3, h4, h5, h6, h7⟩ := ih tested' raw'
          refine ⟨σ', ?_, h2, h3, h4, h5, ?_, ?_⟩
          · rw [hgr]; exact hg _ _ h1
          · intro q hq
            rcases List.mem_cons.1 hq with e | e
            · subst e
              rw [h7 q (fun p hp => hrs p hp)]
              show upd σ.list (σ.row q).list rest (σ.row q).list = _
              rw [upd_same]
              unfold popRest; rw [hp]
            · rw [h6 q e, hcols q (hrs q e)]
          · intro q hq
            rw [h7 q (fun p hp => hq p (List.mem_cons_of_mem _ hp))]
            exact hcols q (fun h => hq r (List.mem_cons_self ..) h.symm)
        cases ht : testedGet k tested with
        | none =>
          refine fin (tested' := (k, raw.length) :: tested) (raw' := raw ++ [(k, [], [r])]) ?_ ?_
          · intro res σ'' h
            unfold gather
            rw [hrc]
            simp only [hlit, ht]
            exact h
          · conv => lhs; unfold groups
            rw [ht]
        | some i =>
          cases i with
          | zero =>
            refine fin (tested' := (k, raw.length) :: tested) (raw' := raw ++ [(k, [], [r])]) ?_ ?_
            · intro res σ'' h
              unfold gather
              rw [hrc]
              simp only [hlit, ht]
              exact h
            · conv => lhs; unfold groups
              rw [ht]
          | succ i =>
            refine fin (tested' := tested) (raw' := raw.modify (i + 1) (pushRow r)) ?_ ?_
            · intro res σ'' h
              unfold gather
              rw [hrc]
              simp only [hlit, ht]
              exact h
            · conv => lhs; unfold groups
              rw [ht]

end Amanda.Iguala

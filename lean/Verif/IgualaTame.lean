import Verif.IgualaLits

/-!
# The tree for tame rows selects the first row whose tests hold
-/

namespace Amanda.Iguala

/-! ## Compiling the cases of a switch -/

/-- The rows `ids` have the columns `C` and the arms `A`. -/
def Has (C : Nat → List Col) (A : Nat → Nat) (σ : PState) (ids : List Nat) : Prop :=
  ∀ r ∈ ids, r < σ.nRows ∧ σ.cols r = C r ∧ (σ.row r).arm = A r

/-- Compiling a case leaves the columns of a row as they are. -/
def Keep (go : List Nat → P MTree) (C : Nat → List Col) (A : Nat → Nat) (ids : List Nat) (r : Nat) :
    Prop :=
  ∀ {σ t σ'}, σ.Wf → Has C A σ ids → r < σ.nRows → σ.cols r = C r → go ids σ = .ok (t, σ') →
    σ'.cols r = C r

theorem Keep.of_fr {go C A ids r} (hfr : GoFr go) (h : r ∉ ids ∨ C r = []) : Keep go C A ids r := by
  intro σ t σ' w hh hr hc hg
  have a := hfr w (fun q hq => (hh q hq).1) hg
  rcases h with h | h
  · rw [a.cols hr h (w r hr)]; exact hc
  · rw [h] at hc ⊢
    exact a.empty r hr hc

/-- The trees of the cases, one for each raw case. -/
inductive Trees (P : RawCase → MTree → Prop) :
    List RawCase → List (Cons × List MVar × MTree) → Prop where
  | nil : Trees P [] []
  | cons {c : RawCase} {t : MTree} {raw ts} : P c t → Trees P raw ts →
      Trees P (c :: raw) ((c.1, c.2.1, t) :: ts)

theorem compileCases_ok {go : List Nat → P MTree} (hfr : GoFr go) (C : Nat → List Col) (A : Nat → Nat)
    (add : RawCase → (Nat → List (String × MVar)) → Nat → List (String × MVar))
    (Q : RawCase → MTree → Prop) : ∀ (raw : List RawCase),
    raw.Pairwise (fun c d => ∀ r ∈ d.2.2, Keep go C A c.2.2 r) →
    (∀ c ∈ raw, ∀ σ, σ.Wf → Has C A σ c.2.2 →
      ∃ t σ', go c.2.2 σ = .ok (t, σ') ∧ σ'.bindings = add c σ.bindings ∧ Q c t) →
    ∀ {σ : PState}, σ.Wf → (∀ c ∈ raw, Has C A σ c.2.2) →
    ∃ ts σ', compileCases go raw σ = .ok (ts, σ') ∧
      σ'.bindings = raw.foldl (fun b c => add c b) σ.bindings ∧ σ'.Wf ∧ Trees Q raw ts ∧
      ∀ r, (∀ c ∈ raw, Keep go C A c.2.2 r) → Has C A σ [r] → Has C A σ' [r]
  | [], _, _, σ, w, _ => ⟨[], σ, rfl, rfl, w, .nil, fun _ _ h => h⟩
  | (k, vs, ids) :: raw, hp, hgo, σ, w, hh => by
    have hp' := List.pairwise_cons.1 hp
    obtain ⟨t, σ1, h1, hb, hq⟩ := hgo _ (List.mem_cons_self ..) σ w (hh _ (List.mem_cons_self ..))
    have hids := hh _ (List.mem_cons_self ..)
    have a := hfr w (fun q hq => (hids q hq).1) h1
    have step : ∀ r, Keep go C A ids r → Has C A σ [r] → Has C A σ1 [r] := by
      intro r hk hr q hq
      rw [List.mem_singleton.1 hq]
      obtain ⟨x, y, z⟩ := hr r (by simp)
      exact ⟨Nat.lt_of_lt_of_le x a.rowsLe, hk w hids x y h1, by rw [a.arm r x]; exact z⟩
    obtain ⟨ts, σ2, g1, g2, g3, g4, g5⟩ := compileCases_ok hfr C A add Q raw hp'.2
      (fun c hc => hgo c (List.mem_cons_of_mem _ hc)) a.wf
      (fun c hc r hr => by
        have := step r (hp'.1 c hc r hr) (fun q hq => by
          rw [List.mem_singleton.1 hq]
          exact hh c (List.mem_cons_of_mem _ hc) r hr)
        exact this r (by simp))
    refine ⟨(k, vs, t) :: ts, σ2, ?_, ?_, g3, .cons (c := (k, vs, ids)) hq g4, ?_⟩
    · unfold compileCases
      rw [show go ids σ = .ok (t, σ1) from h1]
      simp only [g1]
    · rw [g2, hb]; rfl
    · intro r hk hr
      exact g5 r (fun c hc => hk c (List.mem_cons_of_mem _ hc))
        (step r (hk _ (List.mem_cons_self ..)) hr)

theorem runCases_none {Q env x fb} : ∀ {raw ts}, Trees Q raw ts →
    (∀ c ∈ raw, fits c.1 x = false) → runCases env x ts fb = fb
  | [], _, .nil, _ => by simp [runCases]
  | c :: raw, _, .cons (t := t) (ts := ts) hq ht, h => by
    have h0 := h c (List.mem_cons_self ..)
    have : parts c.1 x = none := by
      cases hp : parts c.1 x with
      | none => rfl
      | some a => simp [fits, hp] at h0
    rw [runCases, this]
    exact runCases_none ht (fun d hd => h d (List.mem_cons_of_mem _ hd))

theorem runCases_found {Q env x fb} {vs : List V} : ∀ {raw ts} {j : Nat} {c : RawCase},
    Trees Q raw ts → raw[j]? = some c → parts c.1 x = some vs →
    (∀ i < j, ∀ d : RawCase, raw[i]? = some d → fits d.1 x = false) →
    ∃ t, Q c t ∧ runCases env x ts fb = run (setArgs env c.2.1 vs) t ∧
      (casesFail ts = false → t.hasFail = false)
  | [], _, j, c, .nil, h, _, _ => by simp at h
  | d :: raw, _, 0, c, .cons (t := t) hq ht, h, hp, _ => by
    cases h
    refine ⟨t, hq, ?_, ?_⟩
    · rw [runCases, hp]
    · intro hcf
      simp only [casesFail, Bool.or_eq_false_iff] at hcf
      exact hcf.1
  | d :: raw, _, j + 1, c, .cons (t := t) hq ht, h, hp, hlt => by
    have h0 := hlt 0 (Nat.succ_pos _) d rfl
    have : parts d.1 x = none := by
      cases hp : parts d.1 x with
      | none => rfl
      | some a => simp [fits, hp] at h0
    obtain ⟨t', a, b, b'⟩ := runCases_found (env := env) (fb := fb) ht h hp
      (fun i hi e he => hlt (i + 1) (Nat.succ_lt_succ hi) e he)
    refine ⟨t', a, ?_, ?_⟩
    · rw [runCases, this]
      exact b
    · intro hcf
      simp only [casesFail, Bool.or_eq_false_iff] at hcf
      exact b' hcf.2

/-! ## The variable that is branched on -/

theorem maxBy_id (f : Nat → Nat) : ∀ (vs : List MVar) (b : MVar),
    (maxBy (fun v => f v.id) b vs).id = maxL f b.id (vs.map (·.id))
  | [], _ => rfl
  | v :: vs, b => by
    unfold maxBy maxL
    by_cases h : f v.id > f b.id
    · rw [if_pos h]
      show _ = if f v.id > f b.id then _ else _
      rw [if_pos h]; exact maxBy_id f vs v
    · rw [if_neg h]
      show _ = if f v.id > f b.id then _ else _
      rw [if_neg h]; exact maxBy_id f vs b

theorem maxBy_mem (key : MVar → Nat) : ∀ (vs : List MVar) (b : MVar), maxBy key b vs ∈ b :: vs
  | [], b => by simp [maxBy]
  | v :: vs, b => by
    unfold maxBy
    by_cases h : key v > key b
    · rw [if_pos h]
      exact List.mem_cons_of_mem _ (maxBy_mem key vs v)
    · rw [if_neg h]
      rcases List.mem_cons.1 (maxBy_mem key vs b) with e | e
      · rw [e]; exact List.mem_cons_self ..
      · exact List.mem_cons_of_mem _ (List.mem_cons_of_mem _ e)

theorem countVar_countL (σ : PState) (ids : List Nat) (i : Nat) :
    countVar σ ids i = countL (ids.map fun r => (σ.cols r).map litKey) i := by
  unfold countVar countL
  rw [List.map_map]
  congr 1
  apply List.map_congr_left
  intro r _
  simp only [Function.comp]
  induction σ.cols r with
  | nil => rfl
  | cons c cs ih =>
    simp only [List.map_cons, List.filter_cons]
    by_cases h : c.v.id == i
    · simp [h, litKey, ih]
    · simp [h, litKey, ih]

theorem branchVar_pick {σ : PState} {r : Nat} {rs : List Nat} {c : Col} {cs : List Col}
    (hc : σ.cols r = c :: cs) :
    pickL ((r :: rs).map fun r => (σ.cols r).map litKey) =
      some (branchVar σ (r :: rs) c cs).id := by
  unfold branchVar
  have := maxBy_id (countVar σ (r :: rs)) (cs.map (·.v)) c.v
  rw [this]
  unfold pickL
  simp only [List.map_cons, hc]
  have e : countL ((r :: rs).map fun r => (σ.cols r).map litKey) = countVar σ (r :: rs) := by
    funext i; exact (countVar_countL σ (r :: rs) i).symm
  simp only [List.map_cons, hc] at e
  rw [e]
  simp [litKey, List.map_map, Function.comp_def]

theorem branchVar_mem {σ : PState} {ids : List Nat} {c : Col} {cs : List Col} :
    ∃ d ∈ c :: cs, branchVar σ ids c cs = d.v := by
  have := maxBy_mem (fun v => countVar σ ids v.id) (cs.map (·.v)) c.v
  rcases List.mem_cons.1 this with e | e
  · exact ⟨c, List.mem_cons_self .., e⟩
  · obtain ⟨d, hd, e'⟩ := List.mem_map.1 e
    exact ⟨d, List.mem_cons_of_mem _ hd, e'.symm⟩

/-! ## Which literal decides -/

/-- A value that a literal denotes. -/
def litVal : Cons → V
  | .int n => .int n
  | .str s => .str (textOf s)
  | _ => .other

theorem fits_litVal {k : Cons} (h : k.isLit = true) : fits k (litVal k) = true := by
  cases k <;> simp_all [Cons.isLit, fits, litVal, parts]

/-- Rows that expect the same value all have one lexeme, or they test nothing more. -/
theorem one_or_done {k0 : Cons} : ∀ (L : List (Cons × LRow)),
    L.Pairwise (fun a b => (a.1 = b.1 ∧ a.1 ≠ k0) ∨ (a.2 = [] ∧ b.2 = [])) →
    L.length ≤ 1 ∨ (∃ k, k ≠ k0 ∧ ∀ a ∈ L, a.1 = k) ∨ ∀ a ∈ L, a.2 = []
  | [], _ => .inl (by simp)
  | a :: L, h => by
    have h' := List.pairwise_cons.1 h
    by_cases hL : L = []
    · subst hL; exact .inl (by simp)
    · right
      by_cases hall : ∀ b ∈ L, a.1 = b.1 ∧ a.1 ≠ k0
      · left
        refine ⟨a.1, ?_, ?_⟩
        · cases L with
          | nil => exact absurd rfl hL
          | cons b l => exact (hall b (List.mem_cons_self ..)).2
        · intro b hb
          rcases List.mem_cons.1 hb with e | e
          · rw [e]
          · exact (hall b e).1.symm
      · have ⟨b, hb, hnb⟩ : ∃ b ∈ L, ¬ (a.1 = b.1 ∧ a.1 ≠ k0) := by
          apply Classical.byContradiction
          intro hn
          exact hall fun b hb => Classical.byContradiction fun hc => hn ⟨b, hb, hc⟩
        have hab := (h'.1 b hb).resolve_left hnb
        rcases one_or_done L h'.2 with h1 | ⟨k, hk, h1⟩ | h1
        · right
          intro d hd
          rcases List.mem_cons.1 hd with e | e
          · rw [e]; exact hab.1
          · cases L with
            | nil => cases e
            | cons l ls =>
              have : ls = [] := by
                cases ls with
                | nil => rfl
                | cons _ _ => simp at h1
              subst this
              have e1 : d = l := by simpa using e
              have e2 : b = l := by simpa using hb
              rw [e1, ← e2]; exact hab.2
        · right
          intro d hd
          rcases List.mem_cons.1 hd with e | e
          · rw [e]; exact hab.1
          · rcases h'.1 d e with h2 | h2
            · exact absurd ⟨h2.1.trans ((h1 d e).trans (h1 b hb).symm), h2.2⟩ hnb
            · exact h2.2
        · right
          intro d hd
          rcases List.mem_cons.1 hd with e | e
          · rw [e]; exact hab.1
          · exact h1 d e

/-- The rows whose literal denotes `x` decide by themselves. -/
def Exact (k0 : Cons) (ws : List (Nat × Cons)) (x : V) : Prop :=
  (rowsOf x ws).length ≤ 1 ∨ ∃ k, k ≠ k0 ∧ ∀ a ∈ ws, fits a.2 x = true → a.2 = k

/-- The rows whose literal denotes `x` test nothing more. -/
def Done (R : Nat → LRow) (ws : List (Nat × Cons)) (x : V) : Prop :=
  ∀ a ∈ ws, fits a.2 x = true → R a.1 = []

theorem mem_rowsOf {x : V} {ws : List (Nat × Cons)} {r : Nat} :
    r ∈ rowsOf x ws ↔ ∃ k, (r, k) ∈ ws ∧ fits k x = true := by
  unfold rowsOf
  constructor
  · intro h
    obtain ⟨a, ha, e⟩ := List.mem_map.1 h
    obtain ⟨h1, h2⟩ := List.mem_filter.1 ha
    subst e
    exact ⟨a.2, h1, h2⟩
  · rintro ⟨k, h1, h2⟩
    exact List.mem_map.2 ⟨(r, k), List.mem_filter.2 ⟨h1, h2⟩, rfl⟩

theorem exact_single {k0 : Cons} {ws : List (Nat × Cons)} {x : V} {r : Nat} {k : Cons}
    (h : (rowsOf x ws).length ≤ 1) (hm : (r, k) ∈ ws) (hk : fits k x = true) :
    (∀ a ∈ ws, fits a.2 x = true → a.2 = k) ∧ (k ≠ k0 ∨ (rowsOf x ws).length = 1) := by
  have hL : ∀ (a b : Nat × Cons), a ∈ ws → fits a.2 x = true → b ∈ ws → fits b.2 x = true →
      a = b := by
    intro a b ha hfa hb hfb
    have ha' : a ∈ ws.filter fun a => fits a.2 x := List.mem_filter.2 ⟨ha, hfa⟩
    have hb' : b ∈ ws.filter fun a => fits a.2 x := List.mem_filter.2 ⟨hb, hfb⟩
    have hl : (ws.filter fun a => fits a.2 x).length ≤ 1 := by
      simpa [rowsOf] using h
    revert ha' hb' hl
    cases ws.filter fun a => fits a.2 x with
    | nil => intro h; cases h
    | cons c l =>
      intro h1 h2 h3
      have : l = [] := by
        cases l with
        | nil => rfl
        | cons _ _ => simp at h3
      subst this
      simp at h1 h2
      rw [h1, h2]
  refine ⟨fun a ha hfa => ?_, .inr ?_⟩
  · have := hL a (r, k) ha hfa hm hk
    rw [this]
  · have hne : rowsOf x ws ≠ [] := by
      intro e
      have := mem_rowsOf.2 ⟨k, hm, hk⟩
      rw [e] at this; cases this
    cases hq : rowsOf x ws with
    | nil => exact absurd hq hne
    | cons a l =>
      rw [hq] at h
      simp at h ⊢
      exact h

/-- With `Exact`, every case whose literal denotes `x` has exactly the rows of `x`. -/
theorem group_exact {x : V} {r0 : Nat} {k0 : Cons} {ws : List (Nat × Cons)}
    (hn : (((r0, k0) :: ws).map (·.1)).Nodup) (hE : Exact k0 ((r0, k0) :: ws) x)
    {c : RawCase} (hc : c ∈ groups ((r0, k0) :: ws) [] []) (hf : fits c.1 x = true) :
    c.2.2 = rowsOf x ((r0, k0) :: ws) := by
  have hmem := groups_mem ((r0, k0) :: ws) [] (tested := []) (raw := []) (by simp [testedGet])
    (by simp) c hc
  simp only [List.nil_append] at hmem
  have hdis := groups_disjoint ((r0, k0) :: ws) (tested := []) (raw := []) hn (by simp) .nil
  obtain ⟨_, hsp⟩ := groups_spec x r0 k0 ws
  obtain ⟨r, hr⟩ : ∃ r, r ∈ c.2.2 := by
    cases h : c.2.2 with
    | nil => exact absurd h hmem.2.1
    | cons a l => exact ⟨a, by simp⟩
  have hrw := hmem.2.2 r hr
  have hW : rowsOf x ((r0, k0) :: ws) ≠ [] := by
    intro e
    have := mem_rowsOf.2 ⟨c.1, hrw, hf⟩
    rw [e] at this; cases this
  obtain ⟨j, k, ids, hj, hkx, hlt, hhd, hex⟩ := hsp hW
  have hids : ids = rowsOf x ((r0, k0) :: ws) := by
    have hmem' := groups_mem ((r0, k0) :: ws) [] (tested := []) (raw := []) (by simp [testedGet])
      (by simp) _ (List.mem_of_getElem? hj)
    simp only [List.nil_append] at hmem'
    obtain ⟨r', hr'⟩ : ∃ r, r ∈ ids := by
      cases h : ids with
      | nil => exact absurd h hmem'.2.1
      | cons a l => exact ⟨a, by simp⟩
    rcases hE with hE | ⟨k', hk', hE⟩
    · obtain ⟨a, b⟩ := exact_single (k0 := k0) hE (hmem'.2.2 r' hr') hkx
      exact hex a b
    · have : k = k' := hE _ (hmem'.2.2 r' hr') hkx
      subst this
      exact hex hE (.inl hk')
  obtain ⟨j', hj'⟩ := List.mem_iff_getElem?.1 hc
  by_cases e : j = j'
  · subst e
    rw [hj] at hj'
    cases hj'
    exact hids
  · exfalso
    have hr2 : r ∈ ids := by rw [hids]; exact mem_rowsOf.2 ⟨c.1, hrw, hf⟩
    have hlt1 := List.getElem?_eq_some_iff.1 hj
    have hlt2 := List.getElem?_eq_some_iff.1 hj'
    obtain ⟨h1, e1⟩ := hlt1
    obtain ⟨h2, e2⟩ := hlt2
    rw [List.pairwise_iff_getElem] at hdis
    rcases Nat.lt_or_gt_of_ne e with h | h
    · have := hdis j j' h1 h2 h r (by rw [e2]; exact hr)
      rw [e1] at this
      exact this hr2
    · have := hdis j' j h2 h1 h r (by rw [e1]; exact hr2)
      rw [e2] at this
      exact this hr

theorem firstSat_rowsOf {env : Env} {x : V} (A : Nat → Nat) (F R : Nat → LRow) :
    ∀ (ws : List (Nat × Cons)),
    (∀ a ∈ ws, sat env (F a.1) = (fits a.2 x && sat env (R a.1))) →
    firstSat env (ws.map fun a => (A a.1, F a.1)) =
      firstSat env ((rowsOf x ws).map fun r => (A r, R r))
  | [], _ => rfl
  | a :: ws, h => by
    have ih := firstSat_rowsOf A F R ws (fun b hb => h b (List.mem_cons_of_mem _ hb))
    have ha := h a (List.mem_cons_self ..)
    by_cases hf : fits a.2 x = true
    · have e : rowsOf x (a :: ws) = a.1 :: rowsOf x ws := by
        simp [rowsOf, hf]
      rw [e]
      simp only [List.map_cons, firstSat]
      rw [ha, hf, Bool.true_and, ih]
    · have e : rowsOf x (a :: ws) = rowsOf x ws := by
        simp [rowsOf, hf]
      rw [e]
      simp only [List.map_cons, firstSat]
      rw [ha]
      simp [hf, ih]

/-! ## Compiling the rows -/

/-- The variables of `VS` have values. -/
def Def (VS : MVar → Prop) (env : Env) : Prop := ∀ v, VS v → ∃ x, env v.id = some x

theorem Has.mono {C A σ ids ids'} (h : Has C A σ ids) (hs : ∀ r ∈ ids', r ∈ ids) : Has C A σ ids' :=
  fun r hr => h r (hs r hr)

/-- Rows whose first tests nothing: a success. -/
theorem leaf_ok {U : Unions} {fuel : Nat} {r : Nat} {rs : List Nat} {σ : PState} (w : σ.Wf)
    (hn : (r :: rs).Nodup) (hr : ∀ q ∈ r :: rs, q < σ.nRows)
    (h0 : (splitCols (σ.cols r)).1 = []) :
    ∃ σ', compileRows U (fuel + 1) (r :: rs) σ = .ok (.success (σ.row r).arm, σ') ∧
      σ'.bindings = (moveAll σ (r :: rs)).bindings ∧
      σ'.list = (moveAll σ (r :: rs)).list ∧ σ'.row = (moveAll σ (r :: rs)).row := by
  have a := moveAll_fr (r :: rs) w hr
  have hc : (moveAll σ (r :: rs)).cols r = [] := by
    rw [moveAll_cols (r :: rs) w hn hr r (hr r (List.mem_cons_self ..)),
      if_pos (List.mem_cons_self ..), h0]
  have harm := a.arm r (hr r (List.mem_cons_self ..))
  refine ⟨{ moveAll σ (r :: rs) with
    reachable := (moveAll σ (r :: rs)).reachable ++ [(σ.row r).arm] }, ?_, rfl, rfl, rfl⟩
  show branch U (compileRows U fuel) r rs (moveAll σ (r :: rs)) = _
  unfold branch
  rw [hc]
  simp only [harm]

/-- Rows with literals keep their columns if the first of them tests nothing. -/
theorem leaf_keep {U : Unions} {fuel : Nat} {VS C A r rs} (hn : (r :: rs).Nodup)
    (hl : ∀ q ∈ r :: rs, LitCols VS (C q)) (h0 : C r = []) (q : Nat) :
    Keep (compileRows U (fuel + 1)) C A (r :: rs) q := by
  intro σ t σ' w hh hq hc hg
  have hr : ∀ q ∈ r :: rs, q < σ.nRows := fun q hq => (hh q hq).1
  have hrc : σ.cols r = C r := (hh r (List.mem_cons_self ..)).2.1
  obtain ⟨σ1, h1, _, h3, h4⟩ := leaf_ok (U := U) (fuel := fuel) w hn hr (by rw [hrc, h0]; rfl)
  rw [h1] at hg
  have he : σ1 = σ' := (Prod.mk.inj (Except.ok.inj hg)).2
  rw [← he]
  have : σ1.cols q = (moveAll σ (r :: rs)).cols q := by unfold PState.cols; rw [h3, h4]
  rw [this, moveAll_cols (r :: rs) w hn hr q hq]
  by_cases hm : q ∈ r :: rs
  · rw [if_pos hm, hc, splitCols_lits (hl q hm)]
  · rw [if_neg hm, hc]

/-- A tree selects `o`, which is some arm if the tree has no failure leaf. -/
def Ans (env : Env) (t : MTree) (o : Option Nat) : Prop :=
  run env t = o.map (fun a => (a, env)) ∧ (t.hasFail = false → o.isSome = true)

/-- What compiling the rows `ids` with columns `C` gives. -/
def Good (VS : MVar → Prop) (A : Nat → Nat) (R : Nat → LRow) (ids : List Nat) (t : MTree) : Prop :=
  ∀ env, Def VS env → Ans env t (firstSat env (ids.map fun r => (A r, R r)))

theorem foldl_same {α β : Type} (b : β) : ∀ (l : List α), l.foldl (fun b _ => b) b = b
  | [] => rfl
  | _ :: l => foldl_same b l

/-- One switch on a variable with literals. -/
theorem switch_ok {U : Unions} {VS} (hA : Apart VS) {go : List Nat → P MTree} (hfr : GoFr go)
    {τ : PState} (w : τ.Wf) {r0 : Nat} {k0 : Cons} {ws : List (Nat × Cons)} {fs : List Nat} {rs}
    (hids : r0 :: rs = ((r0, k0) :: ws).map (·.1) ++ fs) (hn : (r0 :: rs).Nodup)
    (hr : ∀ r ∈ r0 :: rs, r < τ.nRows)
    (hsep : ∀ q ∈ r0 :: rs, ∀ r ∈ r0 :: rs, (τ.row q).list = (τ.row r).list → q = r)
    (hlit : ∀ r ∈ r0 :: rs, LitCols VS (τ.cols r)) {c0 : Col} {cs0 : List Col}
    (hc0 : τ.cols r0 = c0 :: cs0) {v : MVar} (hv : branchVar τ (r0 :: rs) c0 cs0 = v)
    {A : Nat → Nat} (hAr : ∀ r ∈ r0 :: rs, (τ.row r).arm = A r) {C2 : Nat → List Col}
    {R : Nat → LRow} (hC2 : ∀ r ∈ r0 :: rs, C2 r = popRest v (τ.cols r))
    (hR : ∀ r, R r = (C2 r).map litKey)
    (hw : ∀ a ∈ (r0, k0) :: ws, popL v.id ((τ.cols a.1).map litKey) = some (a.2, R a.1))
    (hf : ∀ r ∈ fs, popL v.id ((τ.cols r).map litKey) = none)
    (hkeep : ∀ c ∈ groups ((r0, k0) :: ws) [] [], ∀ r ∈ fs, Keep go C2 A (c.2.2 ++ fs) r)
    (hcase : ∀ c ∈ groups ((r0, k0) :: ws) [] [], ∀ σ, σ.Wf → Has C2 A σ (c.2.2 ++ fs) →
      ∃ t σ', go (c.2.2 ++ fs) σ = .ok (t, σ') ∧ σ'.bindings = σ.bindings ∧
        ∀ env x, Def VS env → fits c.1 x = true →
          c.2.2.head? = (rowsOf x ((r0, k0) :: ws)).head? →
          Ans env t (firstSat env ((rowsOf x ((r0, k0) :: ws) ++ fs).map fun r => (A r, R r))))
    (hfb : ∀ σ, σ.Wf → Has C2 A σ fs →
      ∃ t σ', go fs σ = .ok (t, σ') ∧ σ'.bindings = σ.bindings ∧ Good VS A R fs t) :
    ∃ t σ', branch U go r0 rs τ = .ok (t, σ') ∧ σ'.bindings = τ.bindings ∧
      Good VS A (fun r => (τ.cols r).map litKey) (r0 :: rs) t := by
  have hvS : VS v ∧ litTy v.ty = true := by
    obtain ⟨d, hd, e⟩ := branchVar_mem (σ := τ) (ids := r0 :: rs) (c := c0) (cs := cs0)
    have := hlit r0 (List.mem_cons_self ..) d (by rw [hc0]; exact hd)
    rw [hv] at e
    rw [e]; exact ⟨this.1, this.2.2⟩
  obtain ⟨hVv, hty⟩ := hvS
  have hty' : finite v.ty = false ∧ (v.ty.eqv .int || v.ty.eqv .texto) = true := by
    unfold litTy at hty
    simpa using hty
  obtain ⟨σ1, hg, hrow, hnr, hnl, hb1, hcols, _⟩ := gather_lits hA hVv (r0 :: rs) (tested := [])
    (raw := []) (fb := []) hn hsep hlit ((r0, k0) :: ws) fs hids
    (fun a ha => ⟨_, hw a ha⟩) hf
  simp only [List.nil_append] at hg
  have w1 : σ1.Wf := fun q hq => by rw [hrow, hnl]; exact w q (hnr ▸ hq)
  have hhas : Has C2 A σ1 (r0 :: rs) := fun r hm =>
    ⟨by rw [hnr]; exact hr r hm, by rw [hcols r hm, hC2 r hm], by rw [hrow]; exact hAr r hm⟩
  have hn' := hn
  rw [hids] at hn'
  have hnw := (List.nodup_append.1 hn').1
  have hdisj := (List.nodup_append.1 hn').2.2
  have hgm := groups_mem ((r0, k0) :: ws) [] (tested := []) (raw := []) (by simp [testedGet])
    (by simp)
  simp only [List.nil_append] at hgm
  have hgd := groups_disjoint ((r0, k0) :: ws) (tested := []) (raw := []) hnw (by simp) .nil
  have hin : ∀ c ∈ groups ((r0, k0) :: ws) [] [], ∀ r ∈ c.2.2,
      r ∈ ((r0, k0) :: ws).map (·.1) := fun c hc r hm =>
    List.mem_map.2 ⟨_, (hgm c hc).2.2 r hm, rfl⟩
  have hin2 : ∀ c ∈ groups ((r0, k0) :: ws) [] [], ∀ r ∈ c.2.2 ++ fs, r ∈ r0 :: rs := by
    intro c hc r hm
    rw [hids]
    rcases List.mem_append.1 hm with h | h
    · exact List.mem_append.2 (.inl (hin c hc r h))
    · exact List.mem_append.2 (.inr h)
  generalize hraw : groups ((r0, k0) :: ws) [] [] = raw at *
  obtain ⟨ts, σ2, hcc, hb2, w2, htr, hkp⟩ := compileCases_ok hfr C2 A (fun _ b => b)
    (fun c t => ∀ env x, Def VS env → fits c.1 x = true →
          c.2.2.head? = ((rowsOf x ((r0, k0) :: ws)) ++ fs).head? →
          (∃ r, r ∈ rowsOf x ((r0, k0) :: ws)) →
          Ans env t (firstSat env ((rowsOf x ((r0, k0) :: ws) ++ fs).map fun r => (A r, R r))))
    (raw.map fun c => (c.1, c.2.1, c.2.2 ++ fs)) (by
      rw [List.pairwise_map]
      refine hgd.imp_of_mem ?_
      intro c d hc hd hcd r hm
      rcases List.mem_append.1 hm with h | h
      · refine Keep.of_fr hfr (.inl ?_)
        intro h2
        rcases List.mem_append.1 h2 with h2 | h2
        · exact hcd r h h2
        · exact hdisj r (hin d hd r h) r h2 rfl
      · exact hkeep c hc r h)
    (by
      intro c hc σ ws' hh
      obtain ⟨d, hd, rfl⟩ := List.mem_map.1 hc
      obtain ⟨t, σ', h1, h2, h3⟩ := hcase d hd σ ws' hh
      refine ⟨t, σ', h1, h2, fun env x he hx hhd hne => h3 env x he hx ?_⟩
      have hne2 := (hgm d hd).2.1
      obtain ⟨q, hq⟩ := hne
      revert hhd
      show (d.2.2 ++ fs).head? = _ → _
      cases hdd : d.2.2 with
      | nil => exact absurd hdd hne2
      | cons a l =>
        cases hrr : rowsOf x ((r0, k0) :: ws) with
        | nil => rw [hrr] at hq; cases hq
        | cons b m => simp)
    (σ := σ1) w1 (by
      intro c hc
      obtain ⟨d, hd, rfl⟩ := List.mem_map.1 hc
      exact hhas.mono (hin2 d hd))
  have hb2' : σ2.bindings = τ.bindings := by
    rw [hb2, ← hb1]
    exact foldl_same _ _
  obtain ⟨t', σ3, hgf, hb3, hgood⟩ := hfb σ2 w2 (by
    intro r hm
    have := hkp r (fun c hc => by
      obtain ⟨d, hd, rfl⟩ := List.mem_map.1 hc
      exact hkeep d hd r hm) (hhas.mono (fun q hq => by
        rw [List.mem_singleton.1 hq, hids]; exact List.mem_append.2 (.inr hm)))
    exact this r (by simp))
  refine ⟨.switch v ts (some t'), σ3, ?_, hb3.trans hb2', ?_⟩
  · unfold branch
    rw [hc0]
    simp only [hv]
    rw [if_neg (by rw [hty'.1]; simp), if_pos hty'.2, hg]
    simp only
    rw [hcc]
    simp only
    rw [hgf]
  · intro env he
    obtain ⟨x, hx⟩ := he v hVv
    unfold Ans
    rw [run, hx]
    simp only [MTree.hasFail, Bool.or_eq_false_iff]
    have hsplit : firstSat env ((r0 :: rs).map fun r => (A r, (τ.cols r).map litKey)) =
        firstSat env ((rowsOf x ((r0, k0) :: ws) ++ fs).map fun r => (A r, R r)) := by
      rw [hids, List.map_append, firstSat_append, List.map_append, firstSat_append]
      congr 1
      · rw [List.map_map]
        exact firstSat_rowsOf A (fun r => (τ.cols r).map litKey) R ((r0, k0) :: ws)
          (fun a ha => sat_pop hx (hw a ha))
      · congr 1
        apply List.map_congr_left
        intro r hm
        have hmem : r ∈ r0 :: rs := by rw [hids]; exact List.mem_append.2 (.inr hm)
        have h0 := hf r hm
        rw [popCol_popL hA hVv (hlit r hmem)] at h0
        rw [hR, hC2 r hmem]
        unfold popRest
        cases hp : popCol v (τ.cols r) with
        | none => rfl
        | some a => rw [hp] at h0; cases h0
    rw [hsplit]
    obtain ⟨hs1, hs2⟩ := groups_spec x r0 k0 ws
    rw [hraw] at hs1 hs2
    by_cases hne : rowsOf x ((r0, k0) :: ws) = []
    · rw [runCases_none htr (fun c hc => by
        obtain ⟨d, hd, rfl⟩ := List.mem_map.1 hc
        exact hs1 hne d hd), hne, List.nil_append]
      exact ⟨(hgood env he).1, fun h => (hgood env he).2 h.2⟩
    · obtain ⟨j, k, ids, hj, hkx, hlt, hhd, _⟩ := hs2 hne
      have hk : k.isLit = true := by
        obtain ⟨_, h2, h3⟩ := hgm _ (List.mem_of_getElem? hj)
        cases hi : ids with
        | nil => exact absurd hi h2
        | cons a l =>
          have := h3 a (by rw [hi]; exact List.mem_cons_self ..)
          have hpp := hw _ this
          have ham : a ∈ r0 :: rs := by
            rw [hids]; exact List.mem_append.2 (.inl (List.mem_map.2 ⟨_, this, rfl⟩))
          rw [popCol_popL hA hVv (hlit a ham)] at hpp
          cases hp : popCol v (τ.cols a) with
          | none => rw [hp] at hpp; cases hpp
          | some q =>
            rw [hp] at hpp
            simp only [Option.map_some, Option.some.injEq, Prod.mk.injEq] at hpp
            have := litKey_isLit (hlit a ham q.1 (popCol_rest (rest := q.2) hp).1).2.1
            rw [hpp.1] at this
            exact this
      obtain ⟨t, hQ, hrun, hcf⟩ := runCases_found (env := env) (fb := run env t')
        (j := j) (c := (k, [], ids ++ fs)) htr
        (by rw [List.getElem?_map, hj]; rfl) (parts_lit hk hkx) (by
          intro i hi d hd
          rw [List.getElem?_map] at hd
          cases hri : raw[i]? with
          | none => rw [hri] at hd; cases hd
          | some e =>
            rw [hri] at hd
            cases hd
            exact hlt i hi e hri)
      rw [hrun]
      have hids0 : ids ≠ [] := (hgm _ (List.mem_of_getElem? hj)).2.1
      have hans := hQ env x he hkx ?_ ?_
      · exact ⟨hans.1, fun h => hans.2 (hcf h.1)⟩
      · show (ids ++ fs).head? = _
        cases hi : ids with
        | nil => exact absurd hi hids0
        | cons a l =>
          rw [hi] at hhd
          cases hrr : rowsOf x ((r0, k0) :: ws) with
          | nil => exact absurd hrr hne
          | cons b m => rw [hrr] at hhd; simpa using hhd
      · cases hrr : rowsOf x ((r0, k0) :: ws) with
        | nil => exact absurd hrr hne
        | cons b m => exact ⟨b, List.mem_cons_self ..⟩

/-- What is proved of the rows `ids` whose tests are `rows`. -/
def Goal (U : Unions) (VS : MVar → Prop) (rows : List LRow) : Prop :=
  ∀ (fuel : Nat) (ids : List Nat) (σ : PState), σ.Wf → ids.Nodup → (∀ r ∈ ids, r < σ.nRows) →
    (∀ r ∈ ids, LitCols VS (splitCols (σ.cols r)).1) →
    ids.map (fun r => (splitCols (σ.cols r)).1.map litKey) = rows → total rows < fuel →
    ∃ t σ', compileRows U fuel ids σ = .ok (t, σ') ∧ σ'.bindings = (moveAll σ ids).bindings ∧
      Good VS (fun r => (σ.row r).arm) (fun r => (splitCols (σ.cols r)).1.map litKey) ids t

theorem goal_nil {U VS} : Goal U VS [] := by
  intro fuel ids σ _ _ _ _ h hf
  have : ids = [] := by
    cases ids with
    | nil => rfl
    | cons a l => cases h
  subst this
  cases fuel with
  | zero => cases hf
  | succ f => exact ⟨.fail, _, rfl, rfl, fun env _ => by simp [Ans, run, firstSat, MTree.hasFail]⟩

theorem goal_leaf {U VS rest} : Goal U VS ([] :: rest) := by
  intro fuel ids σ w hn hr hl h hf
  cases ids with
  | nil => cases h
  | cons r rs =>
    simp only [List.map_cons, List.cons.injEq] at h
    cases fuel with
    | zero => cases hf
    | succ f =>
      have h0 : (splitCols (σ.cols r)).1 = [] := by simpa using h.1
      obtain ⟨σ', h1, h2, _⟩ := leaf_ok (U := U) (fuel := f) w hn hr h0
      refine ⟨_, σ', h1, h2, fun env _ => ?_⟩
      unfold Ans
      rw [run]
      simp [firstSat, h0, sat]

/-- Rows with columns `C` that are literals, compiled later: the goal with these columns. -/
theorem Goal.has {U VS rows} (g : Goal U VS rows) {fuel : Nat} {ids : List Nat} {C A R}
    (hn : ids.Nodup) (hl : ∀ r ∈ ids, LitCols VS (C r)) (hR : ∀ r, R r = (C r).map litKey)
    (he : ids.map R = rows) (hf : total rows < fuel) {σ : PState} (w : σ.Wf) (hh : Has C A σ ids) :
    ∃ t σ', compileRows U fuel ids σ = .ok (t, σ') ∧ σ'.bindings = σ.bindings ∧
      Good VS A R ids t := by
  have hs : ∀ r ∈ ids, (splitCols (σ.cols r)).1 = C r := fun r hr => by
    rw [(hh r hr).2.1, splitCols_lits (hl r hr)]
  obtain ⟨t, σ', h1, h2, h3⟩ := g fuel ids σ w hn (fun r hr => (hh r hr).1)
    (fun r hr => by rw [hs r hr]; exact hl r hr)
    (by rw [← he]; apply List.map_congr_left; intro r hr; rw [hs r hr, hR]) hf
  refine ⟨t, σ', h1, ?_, ?_⟩
  · rw [h2]
    exact moveAll_bindings_lits (VS := VS) ids w hn (fun r hr => (hh r hr).1)
      (fun r hr => by rw [(hh r hr).2.1]; exact hl r hr)
  · intro env he
    have h3' := h3 env he
    rw [show (ids.map fun r => (A r, R r)) = _ from ?_]
    · exact h3'
    apply List.map_congr_left
    intro r hr
    symm
    show ((σ.row r).arm, List.map litKey (splitCols (σ.cols r)).1) = _
    rw [hs r hr, hR, (hh r hr).2.2]

theorem litEq_fits {k k' : Cons} (hk : k.isLit = true) : fits k' (litVal k) = litEq k k' :=
  fits_litEq hk (fits_litVal hk)

/-- Literals that fit the same value denote the same. -/
theorem litEq_of_fits {k k' : Cons} {x : V} (hk : k.isLit = true) (h : fits k x = true)
    (h' : fits k' x = true) : litEq k k' = true := by
  rw [← fits_litEq hk h]; exact h'

/-- The rows of a value that a case's literal denotes. -/
theorem rowsOf_eq {k : Cons} {x : V} (hk : k.isLit = true) (h : fits k x = true)
    (ws : List (Nat × Cons)) : rowsOf x ws = rowsOf (litVal k) ws := by
  unfold rowsOf
  congr 1
  apply List.filter_congr
  intro a _
  rw [fits_litEq hk h, litEq_fits hk]

theorem rowsOf_map {x : V} (key : Nat → Cons) (ids : List Nat) :
    rowsOf x (ids.map fun r => (r, key r)) = ids.filter fun r => fits (key r) x := by
  unfold rowsOf
  rw [List.filter_map, List.map_map]
  simp [Function.comp_def]

/-- The tests of a row. -/
abbrev tests (σ : PState) (r : Nat) : LRow := (splitCols (σ.cols r)).1.map litKey

/-- A switch on the place `p`, whose cases are compiled as the hypotheses say. -/
theorem goal_switch {U VS} (hA : Apart VS) {p fuel : Nat} {q0 : Nat} {wids fids : List Nat}
    {σ : PState} (w : σ.Wf) (hn : (q0 :: wids ++ fids).Nodup)
    (hr : ∀ r ∈ q0 :: wids ++ fids, r < σ.nRows)
    (hl : ∀ r ∈ q0 :: wids ++ fids, LitCols VS (splitCols (σ.cols r)).1)
    (hpick : pickL ((q0 :: wids ++ fids).map (tests σ)) = some p)
    (hw : ∀ r ∈ q0 :: wids, (popL p (tests σ r)).isSome = true)
    (hf : ∀ r ∈ fids, popL p (tests σ r) = none)
    (hyp : ∀ (C2 : Nat → List Col) (A : Nat → Nat) (R : Nat → LRow) (key : Nat → Cons),
      (∀ r ∈ q0 :: wids ++ fids, LitCols VS (C2 r)) → (∀ r, R r = (C2 r).map litKey) →
      (∀ r ∈ q0 :: wids, popL p (tests σ r) = some (key r, R r) ∧ (key r).isLit = true) →
      (∀ r ∈ fids, R r = tests σ r) → 
      let ws := (q0 :: wids).map fun r => (r, key r)
      (∀ c ∈ groups ws [] [], ∀ r ∈ fids, Keep (compileRows U fuel) C2 A (c.2.2 ++ fids) r) ∧
      (∀ c ∈ groups ws [] [], ∀ σ, σ.Wf → Has C2 A σ (c.2.2 ++ fids) →
        ∃ t σ', compileRows U fuel (c.2.2 ++ fids) σ = .ok (t, σ') ∧ σ'.bindings = σ.bindings ∧
          ∀ env x, Def VS env → fits c.1 x = true → c.2.2.head? = (rowsOf x ws).head? →
            Ans env t (firstSat env ((rowsOf x ws ++ fids).map fun r => (A r, R r)))) ∧
      (∀ σ, σ.Wf → Has C2 A σ fids →
        ∃ t σ', compileRows U fuel fids σ = .ok (t, σ') ∧ σ'.bindings = σ.bindings ∧
          Good VS A R fids t)) :
    ∃ t σ', compileRows U (fuel + 1) (q0 :: wids ++ fids) σ = .ok (t, σ') ∧
      σ'.bindings = (moveAll σ (q0 :: wids ++ fids)).bindings ∧
      Good VS (fun r => (σ.row r).arm) (tests σ) (q0 :: wids ++ fids) t := by
  have hcols : ∀ r ∈ q0 :: wids ++ fids,
      (moveAll σ (q0 :: wids ++ fids)).cols r = (splitCols (σ.cols r)).1 := fun r h => by
    rw [moveAll_cols _ w hn hr r (hr r h), if_pos h]
  have a := moveAll_fr _ w hr
  have hsep := moveAll_sep _ w hn hr
  generalize hτ : moveAll σ (q0 :: wids ++ fids) = τ at *
  have hq0 : q0 ∈ q0 :: wids ++ fids := by simp
  cases hc0 : τ.cols q0 with
  | nil =>
    exfalso
    have := hw q0 (List.mem_cons_self ..)
    rw [tests, ← hcols q0 hq0, hc0] at this
    simp [popL] at this
  | cons c0 cs0 =>
    have hlt : ∀ r ∈ q0 :: wids ++ fids, LitCols VS (τ.cols r) := fun r h => by
      rw [hcols r h]; exact hl r h
    have htests : ∀ r ∈ q0 :: wids ++ fids, (τ.cols r).map litKey = tests σ r := fun r h => by
      rw [hcols r h]
    have hv : (branchVar τ (q0 :: wids ++ fids) c0 cs0).id = p := by
      have h1 := branchVar_pick (rs := wids ++ fids) hc0
      rw [show q0 :: (wids ++ fids) = q0 :: wids ++ fids from rfl] at h1
      rw [show ((q0 :: wids ++ fids).map fun r => (τ.cols r).map litKey) =
        (q0 :: wids ++ fids).map (tests σ) from List.map_congr_left htests, hpick] at h1
      exact (Option.some.inj h1).symm
    have hVv : VS (branchVar τ (q0 :: wids ++ fids) c0 cs0) := by
      obtain ⟨d, hd, e⟩ := branchVar_mem (σ := τ) (ids := q0 :: wids ++ fids) (c := c0) (cs := cs0)
      rw [e]
      exact (hlt q0 hq0 d (by rw [hc0]; exact hd)).1
    generalize hvv : branchVar τ (q0 :: wids ++ fids) c0 cs0 = v at *
    let C2 : Nat → List Col := fun r => popRest v (τ.cols r)
    let R : Nat → LRow := fun r => (C2 r).map litKey
    let key : Nat → Cons := fun r => ((popL p (tests σ r)).map (·.1)).getD (.bool 0)
    have hpk : ∀ r ∈ q0 :: wids, popL p (tests σ r) = some (key r, R r) ∧
        (key r).isLit = true := by
      intro r hm
      have hm' : r ∈ q0 :: wids ++ fids := List.mem_append.2 (.inl hm)
      have h1 := popCol_popL hA hVv (hlt r hm')
      rw [hv, htests r hm'] at h1
      have h2 := hw r hm
      cases hp : popCol v (τ.cols r) with
      | none => rw [h1, hp] at h2; cases h2
      | some b =>
        rw [hp] at h1
        have hk : key r = (litKey b.1).2 := by
          show ((popL p (tests σ r)).map (·.1)).getD _ = _
          rw [h1]; rfl
        have hRr : R r = b.2.map litKey := by
          show (popRest v (τ.cols r)).map litKey = _
          unfold popRest; rw [hp]
        refine ⟨?_, ?_⟩
        · rw [h1, hk, hRr]; rfl
        · rw [hk]
          exact litKey_isLit (hlt r hm' b.1 (popCol_rest (rest := b.2) hp).1).2.1
    have hRf : ∀ r ∈ fids, R r = tests σ r := by
      intro r hm
      have hm' : r ∈ q0 :: wids ++ fids := List.mem_append.2 (.inr hm)
      have h1 := popCol_popL hA hVv (hlt r hm')
      rw [hv, htests r hm', hf r hm] at h1
      show (popRest v (τ.cols r)).map litKey = _
      unfold popRest
      cases hp : popCol v (τ.cols r) with
      | none => exact htests r hm'
      | some b => rw [hp] at h1; cases h1
    obtain ⟨k1, k2, k3⟩ := hyp C2 (fun r => (σ.row r).arm) R key
      (fun r hm => (hlt r hm).popRest) (fun _ => rfl) hpk hRf
    obtain ⟨t, σ', g1, g2, g3⟩ := switch_ok (U := U) hA (compileRows_fr U fuel) a.wf (r0 := q0)
      (k0 := key q0) (ws := wids.map fun r => (r, key r)) (fs := fids) (rs := wids ++ fids)
      (by simp [Function.comp_def]) hn (fun r hm => Nat.lt_of_lt_of_le (hr r hm) a.rowsLe) hsep hlt
      hc0 hvv (A := fun r => (σ.row r).arm) (fun r hm => a.arm r (hr r hm)) (C2 := C2) (R := R)
      (fun _ _ => rfl) (fun _ => rfl)
      (fun b hb => by
        rw [← List.map_cons (f := fun r => (r, key r))] at hb
        obtain ⟨r, hm, rfl⟩ := List.mem_map.1 hb
        rw [hv]
        show popL p ((τ.cols r).map litKey) = _
        rw [htests r (List.mem_append.2 (.inl hm))]
        exact (hpk r hm).1)
      (fun r hm => by
        rw [hv, htests r (List.mem_append.2 (.inr hm))]; exact hf r hm)
      k1 k2 k3
    refine ⟨t, σ', ?_, g2, fun env he => ?_⟩
    · show branch U (compileRows U fuel) q0 (wids ++ fids) (moveAll σ (q0 :: wids ++ fids)) = _
      rw [hτ]; exact g1
    · have := g3 env he
      rw [show ((q0 :: (wids ++ fids)).map fun r => ((σ.row r).arm, (τ.cols r).map litKey)) =
        (q0 :: wids ++ fids).map fun r => ((σ.row r).arm, tests σ r) from
        List.map_congr_left fun r hm => by rw [htests r hm]] at this
      exact this

theorem pick_single {p : Nat} {k : Cons} {rest : List LRow} : pickL ([(p, k)] :: rest) = some p := rfl

/-- Rows with literals whose first tests nothing, compiled later. -/
theorem leaf_has {U VS fuel r rs C A} {R : Nat → LRow} (hn : (r :: rs).Nodup)
    (hl : ∀ q ∈ r :: rs, LitCols VS (C q)) (h0 : C r = []) (hR : R r = []) {σ : PState} (w : σ.Wf)
    (hh : Has C A σ (r :: rs)) :
    ∃ t σ', compileRows U (fuel + 1) (r :: rs) σ = .ok (t, σ') ∧ σ'.bindings = σ.bindings ∧
      ∀ env l, Ans env t (firstSat env ((r :: l).map fun r => (A r, R r))) := by
  have hc : σ.cols r = [] := by rw [(hh r (List.mem_cons_self ..)).2.1, h0]
  obtain ⟨σ', h1, h2, _⟩ := leaf_ok (U := U) (fuel := fuel) w hn (fun q hq => (hh q hq).1)
    (by rw [hc]; rfl)
  refine ⟨_, σ', h1, ?_, fun env l => ?_⟩
  · rw [h2]
    exact moveAll_bindings_lits (VS := VS) _ w hn (fun q hq => (hh q hq).1)
      (fun q hq => by rw [(hh q hq).2.1]; exact hl q hq)
  · unfold Ans
    rw [run, (hh r (List.mem_cons_self ..)).2.2]
    simp [firstSat, hR, sat]

/-- The cases of a switch: rows with the literal, without repeats. -/
theorem case_rows {q0 : Nat} {wids fids : List Nat} {key : Nat → Cons}
    (hn : (q0 :: wids ++ fids).Nodup) {c : RawCase}
    (hc : c ∈ groups ((q0 :: wids).map fun r => (r, key r)) [] []) :
    ∃ r l, c.2.2 = r :: l ∧ (∀ q ∈ r :: l, q ∈ q0 :: wids ∧ key q = c.1) ∧
      (r :: l ++ fids).Nodup := by
  have hgm := groups_mem ((q0 :: wids).map fun r => (r, key r)) [] (tested := []) (raw := [])
    (by simp [testedGet]) (by simp)
  simp only [List.nil_append] at hgm
  obtain ⟨_, h2, h3⟩ := hgm c hc
  have hin : ∀ q ∈ c.2.2, q ∈ q0 :: wids ∧ key q = c.1 := by
    intro q hq
    obtain ⟨q', hm, e⟩ := List.mem_map.1 (h3 q hq)
    obtain ⟨e1, e2⟩ := Prod.mk.inj e
    subst e1
    exact ⟨hm, e2⟩
  have hna := List.nodup_append.1 hn
  have hnd := groups_nodup ((q0 :: wids).map fun r => (r, key r)) (tested := []) (raw := [])
    (by rw [List.map_map]; simpa [Function.comp_def] using hna.1) (by simp) c hc
  cases hcc : c.2.2 with
  | nil => exact absurd hcc h2
  | cons r l =>
    rw [hcc] at hin hnd
    exact ⟨r, l, rfl, hin, List.nodup_append.2
      ⟨hnd, hna.2.1, fun a ha b hb => hna.2.2 a (hin a ha).1 b hb⟩⟩

theorem goal_single {U VS} (hA : Apart VS) {p : Nat} {k0 : Cons} {ks : List Cons} {fb : List LRow}
    (hfb : ∀ r ∈ fb, popL p r = none) (ih : Goal U VS fb) :
    Goal U VS ((k0 :: ks).map (fun k => [(p, k)]) ++ fb) := by
  intro fuel ids σ w hn hr hl h hfu
  obtain ⟨wids, fids, rfl, hwr, hfr⟩ := List.map_eq_append_iff.1 h
  cases wids with
  | nil => cases hwr
  | cons q0 wids =>
  cases fuel with
  | zero => cases hfu
  | succ fuel =>
  have hone : ∀ r ∈ q0 :: wids, ∃ k, tests σ r = [(p, k)] := by
    intro r hm
    have : tests σ r ∈ (k0 :: ks).map (fun k => [(p, k)]) := by
      rw [← hwr]; exact List.mem_map.2 ⟨r, hm, rfl⟩
    obtain ⟨k, _, e⟩ := List.mem_map.1 this
    exact ⟨k, e.symm⟩
  have htot : total fb + 1 ≤ fuel := by
    rw [total_append] at hfu
    have : 1 ≤ total ((k0 :: ks).map fun k => [(p, k)]) := by
      simp [total]
    omega
  obtain ⟨fu, rfl⟩ : ∃ n, fuel = n + 1 := ⟨fuel - 1, by omega⟩
  refine goal_switch hA w hn hr hl (p := p) ?_ ?_ ?_ ?_
  · have := h
    rw [show (q0 :: wids ++ fids).map (tests σ) = _ from this]
    exact pick_single
  · intro r hm
    obtain ⟨k, e⟩ := hone r hm
    rw [e]; simp [popL]
  · intro r hm
    exact hfb _ (by rw [← hfr]; exact List.mem_map.2 ⟨r, hm, rfl⟩)
  · intro C2 A R key hl2 hR hpk hRf ws
    have hnone : ∀ r ∈ q0 :: wids, R r = [] := by
      intro r hm
      obtain ⟨k, e⟩ := hone r hm
      have := (hpk r hm).1
      rw [e] at this
      simp [popL] at this
      exact this.2
    have hC0 : ∀ r ∈ q0 :: wids, C2 r = [] := fun r hm => by
      have := hnone r hm
      rw [hR] at this
      simpa using this
    have hlits : ∀ l : List Nat, (∀ q ∈ l, q ∈ q0 :: wids) → ∀ q ∈ l ++ fids, LitCols VS (C2 q) := by
      intro l hin q hq
      apply hl2
      rcases List.mem_append.1 hq with h | h
      · exact List.mem_append.2 (.inl (hin q h))
      · exact List.mem_append.2 (.inr h)
    refine ⟨?_, ?_, ?_⟩
    · intro c hc r hm
      obtain ⟨q, l, e, hin, hnd⟩ := case_rows hn hc
      rw [e]
      exact leaf_keep (VS := VS) hnd (hlits _ fun q hq => (hin q hq).1)
        (hC0 q (hin q (List.mem_cons_self ..)).1) r
    · intro c hc σ1 w1 hh
      obtain ⟨q, l, e, hin, hnd⟩ := case_rows hn hc
      rw [e] at hh ⊢
      have hq := (hin q (List.mem_cons_self ..)).1
      obtain ⟨t, σ', h1, h2, h3⟩ := leaf_has (U := U) (fuel := fu) hnd
        (hlits _ fun q hq => (hin q hq).1) (hC0 q hq) (hnone q hq) w1 hh
      refine ⟨t, σ', h1, h2, fun env x _ _ hhd => ?_⟩
      cases hro : rowsOf x ws with
      | nil => rw [hro] at hhd; cases hhd
      | cons b m =>
        rw [hro] at hhd
        have : q = b := by simpa using hhd
        subst this
        exact h3 env (m ++ fids)
    · intro σ1 w1 hh
      exact ih.has (List.nodup_append.1 hn).2.1 (fun r hm => hl2 r (List.mem_append.2 (.inr hm))) hR
        (by rw [← hfr]; exact List.map_congr_left hRf) (by omega) w1 hh

theorem goal_block {U VS} (hA : Apart VS) {p : Nat} {k0 : Cons} {r0 : LRow}
    {ws : List (Cons × LRow)} {rows fb : List LRow}
    (hpop : rows.map (popL p) = ((k0, r0) :: ws).map some) (hpick : pickL (rows ++ fb) = some p)
    (hfb : ∀ r ∈ fb, r = [])
    (hpw : ((k0, r0) :: ws).Pairwise (fun a b => litEq a.1 b.1 = true →
        (a.1 = b.1 ∧ a.1 ≠ k0) ∨ (a.2 = [] ∧ b.2 = [])))
    (ih : ∀ a ∈ (k0, r0) :: ws,
        Goal U VS ((((k0, r0) :: ws).filter fun b => litEq a.1 b.1).map (·.2) ++ fb)) :
    Goal U VS (rows ++ fb) := by
  intro fuel ids σ w hn hr hl h hfu
  obtain ⟨wids, fids, rfl, hwr, hfr⟩ := List.map_eq_append_iff.1 h
  cases wids with
  | nil => subst hwr; cases hpop
  | cons q0 wids =>
  cases fuel with
  | zero => cases hfu
  | succ fuel =>
  have hsome : ∀ r ∈ q0 :: wids, ∃ a ∈ (k0, r0) :: ws, popL p (tests σ r) = some a := by
    intro r hm
    have : popL p (tests σ r) ∈ ((k0, r0) :: ws).map some := by
      rw [← hpop, ← hwr, List.map_map]; exact List.mem_map.2 ⟨r, hm, rfl⟩
    obtain ⟨a, ha, e⟩ := List.mem_map.1 this
    exact ⟨a, ha, e.symm⟩
  have htp := total_pop hpop
  have hlen : 1 ≤ ((k0, r0) :: ws).length := by simp
  have htot : total rows + total fb ≤ fuel := by
    rw [total_append] at hfu
    omega
  obtain ⟨fu, rfl⟩ : ∃ n, fuel = n + 1 := ⟨fuel - 1, by omega⟩
  have hfnil : ∀ r ∈ fids, tests σ r = [] := fun r hm =>
    hfb _ (by rw [← hfr]; exact List.mem_map.2 ⟨r, hm, rfl⟩)
  refine goal_switch hA w hn hr hl (p := p) ?_ ?_ ?_ ?_
  · rw [show (q0 :: wids ++ fids).map (tests σ) = _ from h]
    exact hpick
  · intro r hm
    obtain ⟨a, _, e⟩ := hsome r hm
    rw [e]; rfl
  · intro r hm
    rw [hfnil r hm]; rfl
  · intro C2 A R key hl2 hR hpk hRf wsI
    have hRf0 : ∀ r ∈ fids, R r = [] := fun r hm => by rw [hRf r hm, hfnil r hm]
    have hC0 : ∀ r, R r = [] → C2 r = [] := fun r hm => by
      rw [hR] at hm
      simpa using hm
    -- the list of literals and remaining tests, by rows
    have hL : (q0 :: wids).map (fun r => (key r, R r)) = (k0, r0) :: ws := by
      have h1 : (q0 :: wids).map (fun r => some (key r, R r)) = ((k0, r0) :: ws).map some := by
        rw [← hpop, ← hwr, List.map_map]
        apply List.map_congr_left
        intro r hm
        exact (hpk r hm).1.symm
      have h2 : ((q0 :: wids).map (fun r => (key r, R r))).map some = ((k0, r0) :: ws).map some := by
        rw [List.map_map]; exact h1
      exact (List.map_inj_right (fun a b e => Option.some.inj e)).1 h2
    have hk0 : key q0 = k0 := by
      simp only [List.map_cons, List.cons.injEq, Prod.mk.injEq] at hL
      exact hL.1.1
    have hlits : ∀ l : List Nat, (∀ q ∈ l, q ∈ q0 :: wids) → ∀ q ∈ l ++ fids, LitCols VS (C2 q) := by
      intro l hin q hq
      apply hl2
      rcases List.mem_append.1 hq with h | h
      · exact List.mem_append.2 (.inl (hin q h))
      · exact List.mem_append.2 (.inr h)
    have hna := List.nodup_append.1 hn
    refine ⟨?_, ?_, ?_⟩
    · intro c hc r hm
      exact Keep.of_fr (compileRows_fr U (fu + 1)) (.inr (hC0 r (hRf0 r hm)))
    · intro c hc σ1 w1 hh
      obtain ⟨q, l, e, hin, hnd⟩ := case_rows hn hc
      obtain ⟨hq, hkq⟩ := hin q (List.mem_cons_self ..)
      have hlit : c.1.isLit = true := by rw [← hkq]; exact (hpk q hq).2
      -- the rows of the value that the case's literal denotes
      have hrx : rowsOf (litVal c.1) wsI = (q0 :: wids).filter fun r => litEq c.1 (key r) := by
        rw [show wsI = (q0 :: wids).map fun r => (r, key r) from rfl, rowsOf_map]
        apply List.filter_congr
        intro r _
        rw [litEq_fits hlit]
      have hLx : (((k0, r0) :: ws).filter fun b => litEq c.1 b.1) =
          ((q0 :: wids).filter fun r => litEq c.1 (key r)).map fun r => (key r, R r) := by
        rw [← hL, List.filter_map]; rfl
      have hpx : (((k0, r0) :: ws).filter fun b => litEq c.1 b.1).Pairwise
          (fun a b => (a.1 = b.1 ∧ a.1 ≠ k0) ∨ (a.2 = [] ∧ b.2 = [])) := by
        refine (hpw.filter _).imp_of_mem ?_
        intro a b ha hb hab
        have h1 := (List.mem_filter.1 ha)
        have h2 := (List.mem_filter.1 hb)
        apply hab
        have hal : a.1.isLit = true := by
          have hm := h1.1
          rw [← hL] at hm
          obtain ⟨r, hr', e'⟩ := List.mem_map.1 hm
          rw [← e']; exact (hpk r hr').2
        exact litEq_of_fits (x := litVal c.1) hal (by rw [litEq_fits hlit]; exact h1.2)
          (by rw [litEq_fits hlit]; exact h2.2)
      have hED : Exact (key q0) wsI (litVal c.1) ∨ Done R wsI (litVal c.1) := by
        have hmemL : ∀ a ∈ wsI, fits a.2 (litVal c.1) = true →
            (a.2, R a.1) ∈ ((k0, r0) :: ws).filter fun b => litEq c.1 b.1 := by
          intro a ha hfa
          obtain ⟨r, hm, rfl⟩ := List.mem_map.1 ha
          refine List.mem_filter.2 ⟨?_, ?_⟩
          · rw [← hL]; exact List.mem_map.2 ⟨r, hm, rfl⟩
          · rw [← litEq_fits hlit]; exact hfa
        rcases one_or_done _ hpx with h1 | ⟨k, hk, h1⟩ | h1
        · left; left
          rw [hLx, List.length_map] at h1
          rw [hrx]; exact h1
        · left; right
          exact ⟨k, by rw [hk0]; exact hk, fun a ha hfa => h1 _ (hmemL a ha hfa)⟩
        · right
          exact fun a ha hfa => h1 _ (hmemL a ha hfa)
      rcases hED with hE | hD
      · have hex := group_exact (x := litVal c.1) (r0 := q0) (k0 := key q0)
          (ws := wids.map fun r => (r, key r)) (by
            rw [← List.map_cons (f := fun r => (r, key r)), List.map_map]
            simpa [Function.comp_def] using hna.1) hE hc (fits_litVal hlit)
        have hrows : c.2.2 = rowsOf (litVal c.1) wsI := hex
        have hcm : (c.1, R q) ∈ (k0, r0) :: ws := by
          rw [← hL]; exact List.mem_map.2 ⟨q, hq, by rw [hkq]⟩
        have hmap : (c.2.2 ++ fids).map R =
            (((k0, r0) :: ws).filter fun b => litEq c.1 b.1).map (·.2) ++ fb := by
          rw [List.map_append, hLx, List.map_map, hrows, hrx, ← hfr]
          congr 1
          exact List.map_congr_left hRf
        have ht := total_filter (fun b => litEq c.1 b.1) ((k0, r0) :: ws)
        obtain ⟨t, σ', g1, g2, g3⟩ := (ih _ hcm).has (fuel := fu + 1) (by rw [e]; exact hnd)
          (hlits _ fun q hq => (hin q (e ▸ hq)).1) hR hmap
          (by rw [total_append]; exact Nat.lt_of_le_of_lt (Nat.add_le_add_right ht _) (by omega)) w1 hh
        refine ⟨t, σ', g1, g2, fun env x he hx _ => ?_⟩
        have := g3 env he
        rw [hrows] at this
        rw [rowsOf_eq hlit hx]
        exact this
      · rw [e] at hh ⊢
        have hRq : R q = [] := hD (q, key q) (List.mem_map.2 ⟨q, hq, rfl⟩)
          (by rw [hkq]; exact fits_litVal hlit)
        obtain ⟨t, σ', h1, h2, h3⟩ := leaf_has (U := U) (fuel := fu) hnd
          (hlits _ fun q hq => (hin q hq).1) (hC0 q hRq) hRq w1 hh
        refine ⟨t, σ', h1, h2, fun env x _ _ hhd => ?_⟩
        cases hro : rowsOf x wsI with
        | nil => rw [hro] at hhd; cases hhd
        | cons b m =>
          rw [hro] at hhd
          have : q = b := by simpa using hhd
          subst this
          exact h3 env (m ++ fids)
    · intro σ1 w1 hh
      have hgl : Goal U VS fb := by
        cases fb with
        | nil => exact goal_nil
        | cons f fb =>
          rw [hfb f (List.mem_cons_self ..)]
          exact goal_leaf
      exact hgl.has hna.2.1 (fun r hm => hl2 r (List.mem_append.2 (.inr hm))) hR
        (by rw [← hfr]; exact List.map_congr_left hRf) (by omega) w1 hh

/-- Tame rows are compiled to a tree that selects the first row whose tests hold. -/
theorem lits_ok (U : Unions) {VS} (hA : Apart VS) {rows} (h : Tame rows) : Goal U VS rows := by
  induction h with
  | nil => exact goal_nil
  | leaf => exact goal_leaf
  | single h1 _ ih => exact goal_single hA h1 ih
  | block h1 h2 h3 h4 _ ih => exact goal_block hA h1 h2 h3 h4 ih

end Amanda.Iguala

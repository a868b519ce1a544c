import Verif.IgualaTarget

/-!
# Rejected `iguala`s and the patterns listed as missing
-/

namespace Amanda.Iguala

/-- Each case is compiled from the columns its rows had at the start, if rows shared with earlier
cases have none. -/
theorem compileCases_each {go : List Nat → P MTree} (hfr : GoFr go) :
    ∀ (raw : List RawCase) {σ0 σ : PState} {ts σ'}, σ.Wf →
    (∀ c ∈ raw, ∀ q ∈ c.2.2, q < σ.nRows ∧ σ.cols q = σ0.cols q) →
    raw.Pairwise (fun c d => ∀ r ∈ d.2.2, r ∉ c.2.2 ∨ σ0.cols r = []) →
    compileCases go raw σ = .ok (ts, σ') →
    Trees (fun c t => ∃ σa σb, σa.Wf ∧ (∀ q ∈ c.2.2, q < σa.nRows ∧ σa.cols q = σ0.cols q) ∧
      go c.2.2 σa = .ok (t, σb)) raw ts
  | [], _, σ, ts, σ', _, _, _, h => by cases h; exact .nil
  | (k, vs, ids) :: rest, σ0, σ, ts, σ', w, hr, hp, h => by
    obtain ⟨t, σ1, ts', h1, h2, rfl⟩ := compileCases_cons h
    have hr1 := hr _ (List.mem_cons_self ..)
    have a := hfr w (fun q hq => (hr1 q hq).1) h1
    rw [List.pairwise_cons] at hp
    refine .cons ⟨σ, σ1, w, hr1, h1⟩ (compileCases_each hfr rest a.wf ?_ hp.2 h2)
    intro c hc q hq
    obtain ⟨x, y⟩ := hr c (List.mem_cons_of_mem _ hc) q hq
    refine ⟨Nat.lt_of_lt_of_le x a.rowsLe, ?_⟩
    rcases hp.1 c hc q hq with h | h
    · rw [a.cols x h (w q x)]; exact y
    · rw [h] at y ⊢
      exact a.empty q x y

theorem Trees.fail {Q : RawCase → MTree → Prop} : ∀ {raw ts}, Trees Q raw ts →
    (∀ c ∈ raw, ∀ t, Q c t → t.hasFail = false) → casesFail ts = false
  | _, _, .nil, _ => rfl
  | _, _, .cons hq h, hh => by
    simp [casesFail, hh _ (List.mem_cons_self ..) _ hq,
      h.fail fun c hc => hh c (List.mem_cons_of_mem _ hc)]

/-! ## Values that no literal of the arms matches -/

/-- A number above all numbers and text lengths of a pattern that is not a variant. -/
def subBound : MPat → Nat
  | .int n => n.natAbs + 1
  | .str s => s.length + 1
  | _ => 0

/-- The same for the patterns inside a variant. -/
def armBound : MPat → Nat
  | .adt _ args => (args.map subBound).sum
  | p => subBound p

theorem le_sum {α : Type} (f : α → Nat) : ∀ {l : List α} {a : α}, a ∈ l → f a ≤ (l.map f).sum
  | b :: l, a, h => by
    rcases List.mem_cons.1 h with rfl | h
    · simp
    · have := le_sum f h
      simp only [List.map_cons, List.sum_cons]
      omega

/-- A text of `n` letters. -/
def longText (n : Nat) : String := String.ofList (List.replicate n 'a')

theorem textOf_length (s : String) : (textOf s).length ≤ s.length := by
  have := String.length_toList (s := s)
  simp [textOf]
  omega

/-- A value of the same type that numbers and texts below `N` do not match. -/
def away (N : Nat) : V → V
  | .int _ => .int N
  | .str _ => .str (longText N)
  | v => v

theorem away_ty {U : Unions} {N : Nat} {v : V} {t : Ty} (h : HasTy U v t) : HasTy U (away N v) t := by
  cases h with
  | int => exact .int _
  | str => exact .str _
  | bool => exact .bool _
  | variant h1 h2 => exact .variant h1 h2
  | any h1 h2 => exact .any h1 h2

theorem away_tys {U : Unions} {N : Nat} : ∀ {vs : List V} {ts : List Ty}, HasTys U vs ts →
    HasTys U (vs.map (away N)) ts
  | [], _, .nil => .nil
  | _ :: _, _, .cons h hs => .cons (away_ty h) (away_tys hs)

theorem away_sub {U : Unions} {N : Nat} {p : MPat} {t : Ty} (hp : FlatSub p t) (hb : subBound p ≤ N)
    {v : V} (hv : HasTy U v t) (hm : (matchPat p (away N v)).isSome = true) : ∃ x, p = .bind x := by
  rcases hp with h | ⟨⟨n, rfl⟩, rfl⟩ | ⟨⟨s, rfl⟩, rfl⟩
  · exact h
  · cases hv with
    | any h _ => exact absurd rfl (h rfl).1
    | int m =>
      simp only [subBound] at hb
      have : (N : Int) ≠ n := by omega
      simp [away, matchPat, this] at hm
  · cases hv with
    | any h _ => exact absurd rfl (h rfl).2.1
    | str m =>
      simp only [subBound] at hb
      have h2 := textOf_length s
      have : longText N ≠ textOf s := by
        intro e
        have := congrArg String.length e
        simp [longText] at this
        omega
      simp [away, matchPat, this] at hm

theorem away_subs {U : Unions} {N : Nat} : ∀ {ps : List MPat} {ts : List Ty}, FlatSubs ps ts →
    (∀ p ∈ ps, subBound p ≤ N) → ∀ {vs : List V}, HasTys U vs ts →
    (matchArgs ps (vs.map (away N))).isSome = true → ∀ p ∈ ps, ∃ x, p = .bind x
  | [], _, _, _, _, _, _, p, hp => by cases hp
  | q :: ps, t :: ts, .cons h hs, hb, v :: vs, .cons hv hvs, hm, p, hp => by
    simp only [List.map_cons, matchArgs] at hm
    have h1 : (matchPat q (away N v)).isSome = true := by
      revert hm
      cases matchPat q (away N v) <;> simp
    have h2 : (matchArgs ps (vs.map (away N))).isSome = true := by
      revert hm
      cases matchArgs ps (vs.map (away N)) <;> cases matchPat q (away N v) <;> simp
    rcases List.mem_cons.1 hp with rfl | hp
    · exact away_sub h (hb _ (List.mem_cons_self ..)) hv h1
    · exact away_subs hs (fun p hp => hb p (List.mem_cons_of_mem _ hp)) hvs h2 p hp

theorem firstMatch_some : ∀ {arms : List MPat} {i : Nat} {v : V}, (firstMatch arms i v).isSome = true →
    ∃ (r : Nat) (p : MPat), arms[r]? = some p ∧ (matchPat p v).isSome = true
  | [], _, _, h => by simp [firstMatch] at h
  | p :: ps, i, v, h => by
    cases hm : matchPat p v with
    | some bs => exact ⟨0, p, rfl, by simp [hm]⟩
    | none =>
      simp only [firstMatch, hm] at h
      obtain ⟨r, q, h1, h2⟩ := firstMatch_some h
      exact ⟨r + 1, q, h1, h2⟩

/-! ## Rejected arms leave a value out -/

/-- If every value is matched, no pattern is reported missing: targets without parts. -/
theorem flat_covered {U : Unions} {target : MVar} {arms : List MPat}
    (hf : ∀ p ∈ arms, FlatSub p target.ty) {names : List String} {mt : Match}
    (hin : ∃ v, HasTy U v target.ty) (hc : compile U target arms names = .ok mt)
    (hall : ∀ v, HasTy U v target.ty → (firstMatch arms 0 v).isSome = true) : mt.missing = false := by
  obtain ⟨v, hv⟩ := hin
  obtain ⟨r, p, hp, hm⟩ := firstMatch_some (hall _ (away_ty (N := (arms.map subBound).sum) hv))
  obtain ⟨x, rfl⟩ := away_sub (hf p (List.mem_of_getElem? hp))
    (le_sum subBound (List.mem_of_getElem? hp)) hv hm
  unfold compile at hc
  have hr : r ∈ List.range arms.length := List.mem_range.2 (List.getElem?_eq_some_iff.1 hp).1
  revert hc
  cases hh : compileRows U ((arms.map MPat.size).sum + 2) (List.range arms.length)
    (intoRows target arms names) with
  | error e => intro hc; cases hc
  | ok q =>
    obtain ⟨t, σ'⟩ := q
    intro hc
    cases hc
    rw [compileRows_missing U _ hh, compileRows_safe U _ (into_wf target arms names)
      (fun q h => List.mem_range.1 h) hr (by
        rw [into_cols hp]
        intro c hc
        rw [List.mem_singleton.1 hc]
        exact ⟨x, rfl⟩) hh]
    rfl

/-- The same for a union whose variants all have values. -/
theorem union_covered {U : Unions} {target : MVar} {m u : String} (hty : target.ty = .uniao m u)
    {arms : List MPat} (hf : ∀ p ∈ arms, FlatArm U (.uniao m u) p) {names : List String}
    (hfr : Fresh names) {mt : Match}
    (hin : ∃ v, HasTy U v target.ty)
    (hins : ∀ nt ∈ U m u, ∃ vs, HasTys U vs nt.2)
    (hc : compile U target arms names = .ok mt)
    (hall : ∀ v, HasTy U v target.ty → (firstMatch arms 0 v).isSome = true) : mt.missing = false := by
  cases arms with
  | nil =>
    obtain ⟨v, hv⟩ := hin
    have := hall v hv
    simp [firstMatch] at this
  | cons p0 arms' =>
  cases p0 with
  | bind x =>
    have hr : (0 : Nat) ∈ List.range (MPat.bind x :: arms').length := List.mem_range.2 (by simp)
    unfold compile at hc
    revert hc
    cases hh : compileRows U (((MPat.bind x :: arms').map MPat.size).sum + 2)
      (List.range (MPat.bind x :: arms').length) (intoRows target (MPat.bind x :: arms') names) with
    | error e => intro hc; cases hc
    | ok q =>
      obtain ⟨t, σ'⟩ := q
      intro hc
      cases hc
      rw [compileRows_missing U _ hh, compileRows_safe U _ (into_wf target _ names)
        (fun q h => List.mem_range.1 h) hr (by
          rw [into_cols (arms := MPat.bind x :: arms') (r := 0) (p := .bind x) rfl]
          intro c hc
          rw [List.mem_singleton.1 hc]
          exact ⟨x, rfl⟩) hh]
      rfl
  | int k =>
    rcases hf _ (List.mem_cons_self ..) with h | ⟨_, _, _, _, _, _, _, e, _⟩
    · rcases h with ⟨x, e⟩ | ⟨_, e⟩ | ⟨⟨s, e⟩, _⟩ <;> cases e
    · cases e
  | str k =>
    rcases hf _ (List.mem_cons_self ..) with h | ⟨_, _, _, _, _, _, _, e, _⟩
    · rcases h with ⟨x, e⟩ | ⟨⟨s, e⟩, _⟩ | ⟨_, e⟩ <;> cases e
    · cases e
  | adt t0 args0 =>
  obtain ⟨tag0, rfl⟩ : ∃ tag, t0 = some tag := by
    rcases hf _ (List.mem_cons_self ..) with h | ⟨_, _, tag, _, _, _, _, e, _⟩
    · rcases h with ⟨x, e⟩ | ⟨⟨n, e⟩, _⟩ | ⟨⟨s, e⟩, _⟩ <;> cases e
    · cases e; exact ⟨tag, rfl⟩
  obtain ⟨raw, σ3, o⟩ := opened hty (names := names) rfl hf hfr
  generalize harms : MPat.adt (some tag0) args0 :: arms' = arms at *
  unfold compile at hc
  revert hc
  cases hh : compileRows U ((arms.map MPat.size).sum + 2) (List.range arms.length)
    (intoRows target arms names) with
  | error e => intro hc; cases hc
  | ok q =>
  obtain ⟨t, σ'⟩ := q
  intro hc
  cases hc
  obtain ⟨ts, hcc, rfl⟩ := o.back hh
  have hshape : ∀ c ∈ raw, ∀ q ∈ c.2.2, q < σ3.nRows ∧ σ3.cols q = σ3.cols q := by
    intro c hc q hq
    obtain ⟨j, hj⟩ := List.mem_iff_getElem?.1 hc
    obtain ⟨_, _, _, _, _, _, rfl, hb, _⟩ := o.case j c hj
    exact ⟨hb q hq, rfl⟩
  have htr := compileCases_each (compileRows_fr U ((arms.map MPat.size).sum + 1)) raw o.wf hshape
    o.pairwise hcc
  have hnf : casesFail ts = false := by
    refine htr.fail fun c hc t ht => ?_
    obtain ⟨j, hj⟩ := List.mem_iff_getElem?.1 hc
    obtain ⟨name, tys, n, l, hu, _, rfl, hb, hview⟩ := o.case j c hj
    obtain ⟨σa, σb, wa, hqa, hgo⟩ := ht
    obtain ⟨vs, hvs⟩ := hins _ (List.mem_of_getElem? hu)
    have hv : HasTy U (.variant j (vs.map (away (arms.map armBound).sum))) target.ty := by
      rw [hty]; exact .variant hu (away_tys hvs)
    obtain ⟨r, p, hp, hm⟩ := firstMatch_some (hall _ hv)
    have hr : r ∈ List.range arms.length := List.mem_range.2 (List.getElem?_eq_some_iff.1 hp).1
    -- the row of that arm tests nothing
    have hrow : r ∈ (List.range arms.length).filter (goes (askOf arms) j) ∧
        AllNames (caseCols (mkVars n l tys) (askOf arms r)) := by
      rcases hf p (List.mem_of_getElem? hp) with h | ⟨m', u', tag, args, name', tys', et, e, hu', hsub⟩
      · have hb : ∃ x, p = .bind x := by
          rcases h with h | ⟨_, e⟩ | ⟨_, e⟩
          · exact h
          · cases e
          · cases e
        obtain ⟨x, rfl⟩ := hb
        have ha : askOf arms r = none := by unfold askOf; rw [hp]
        exact ⟨List.mem_filter.2 ⟨hr, by simp [goes, ha]⟩, by
          rw [ha]; exact fun c hc => (List.not_mem_nil hc).elim⟩
      · cases et
        subst e
        have ha : askOf arms r = some (tag, args) := by unfold askOf; rw [hp]
        have htag : j = tag := by
          by_cases e : j = tag
          · exact e
          · simp [matchPat, e] at hm
        subst htag
        rw [hu] at hu'
        cases hu'
        refine ⟨List.mem_filter.2 ⟨hr, by simp [goes, ha]⟩, ?_⟩
        have hb := away_subs hsub (N := (arms.map armBound).sum) (fun p' hp' =>
          Nat.le_trans (le_sum subBound hp') (le_sum armBound (List.mem_of_getElem? hp))) hvs
          (by simpa [matchPat] using hm)
        rw [ha]
        intro c hc
        obtain ⟨⟨v, p'⟩, hvp, rfl⟩ := List.mem_map.1 hc
        exact hb p' (List.of_mem_zip hvp).2
    have : (r, caseCols (mkVars n l tys) (askOf arms r)) ∈
        ((List.range arms.length).filter (goes (askOf arms) j)).map
          fun r => (r, caseCols (mkVars n l tys) (askOf arms r)) := List.mem_map.2 ⟨r, hrow.1, rfl⟩
    rw [← hview] at this
    obtain ⟨q, hq, e⟩ := List.mem_map.1 this
    have e2 := (Prod.mk.inj e).2
    exact compileRows_safe U _ wa (fun q hq => (hqa q hq).1) hq
      (by rw [(hqa q hq).2, e2]; exact hrow.2) hgo
  rw [compileRows_missing U _ hh]
  simp [MTree.hasFail, hnf]
  rfl

/-- Rejected arms on any target leave out a value. -/
theorem missing_unmatched {U : Unions} {target : MVar} {arms : List MPat}
    (hf : ∀ p ∈ arms, FlatArm U target.ty p) {names : List String} (hfr : Fresh names) {mt : Match}
    (hin : ∃ v, HasTy U v target.ty)
    (hins : ∀ m u, target.ty = .uniao m u → ∀ nt ∈ U m u, ∃ vs, HasTys U vs nt.2)
    (hc : compile U target arms names = .ok mt) (hm : mt.missing = true) :
    ∃ v, HasTy U v target.ty ∧ firstMatch arms 0 v = none := by
  apply Classical.byContradiction
  intro hno
  have hall : ∀ v, HasTy U v target.ty → (firstMatch arms 0 v).isSome = true := by
    intro v hv
    cases hh : firstMatch arms 0 v with
    | none => exact absurd ⟨v, hv, hh⟩ hno
    | some _ => rfl
  have : mt.missing = false := by
    by_cases h : ∃ m u, target.ty = .uniao m u
    · obtain ⟨m, u, h⟩ := h
      exact union_covered h (h ▸ hf) hfr hin (hins m u h) hc hall
    · refine flat_covered (fun p hp => ?_) hin hc hall
      rcases hf p hp with h' | ⟨m, u, _, _, _, _, e, _⟩
      · exact h'
      · exact absurd ⟨m, u, e⟩ h
  rw [this] at hm
  cases hm

/-! ## The patterns listed -/

/-- A variant as a pattern with `_` for each part. -/
def wildPattern (name : String) : Nat → String
  | 0 => name
  | n + 1 => name ++ "(" ++ String.intercalate ", " (List.replicate (n + 1) "_") ++ ")"

/-- Arms that test only which variant a value is. -/
def TagArm (p : MPat) : Prop :=
  (∃ x, p = .bind x) ∨ ∃ tag args, p = .adt (some tag) args ∧ ∀ q ∈ args, ∃ x, q = .bind x

theorem tagRows_names (tag : Nat) : ∀ {arms : List MPat}, (∀ p ∈ arms, TagArm p) →
    ∀ r ∈ tagRows tag arms, r = []
  | [], _, r, hr => by cases hr
  | p :: arms, h, r, hr => by
    have ih := tagRows_names tag (arms := arms) fun q hq => h q (List.mem_cons_of_mem _ hq)
    rcases h p (List.mem_cons_self ..) with ⟨x, rfl⟩ | ⟨t, args, rfl, ha⟩
    · rcases List.mem_cons.1 hr with rfl | hr
      · rfl
      · exact ih r hr
    · have hl : ∀ (args : List MPat) (i : Nat), (∀ q ∈ args, ∃ x, q = .bind x) → litArgs i args = [] := by
        intro args
        induction args with
        | nil => intro _ _; rfl
        | cons q args ih =>
          intro i h
          obtain ⟨x, rfl⟩ := h q (List.mem_cons_self ..)
          exact ih (i + 1) fun q hq => h q (List.mem_cons_of_mem _ hq)
      unfold tagRows at hr
      by_cases e : t = tag
      · rw [if_pos e] at hr
        rcases List.mem_cons.1 hr with rfl | hr
        · exact hl args 0 ha
        · exact ih r hr
      · rw [if_neg e] at hr
        exact ih r hr

/-- Arms that test only the variant are tame. -/
theorem tame_tags (tag : Nat) {arms : List MPat} (h : ∀ p ∈ arms, TagArm p) :
    Tame (tagRows tag arms) := by
  have := tagRows_names tag h
  revert this
  cases tagRows tag arms with
  | nil => exact fun _ => .nil
  | cons r rs =>
    intro h
    rw [h r (List.mem_cons_self ..)]
    exact .leaf

theorem termIdx_one {t : Term} {id : Nat} (h : t.v.id ≠ id) : termIdx [t] id = none := by
  simp [termIdx, termIdx.go, h]

theorem mapM_wild {f : MVar → Except PyErr String} : ∀ (l : List MVar), (∀ a ∈ l, f a = .ok "_") →
    l.mapM f = .ok (List.replicate l.length "_")
  | [], _ => rfl
  | a :: l, h => by
    rw [List.mapM_cons, h a (List.mem_cons_self ..), mapM_wild l fun b hb => h b (List.mem_cons_of_mem _ hb)]
    rfl

theorem mkVars_length : ∀ (tys : List Ty) (n l : Nat), (mkVars n l tys).length = tys.length
  | [], _, _ => rfl
  | _ :: tys, n, l => by simp [mkVars, mkVars_length tys]

/-- The name of a missing variant. -/
theorem pattern_wild {target : MVar} {name : String} {tys : List Ty} {n l : Nat} (h : target.id < n) :
    missingNames .fail [⟨target, name, mkVars n l tys⟩] = .ok [wildPattern name tys.length] := by
  unfold missingNames
  simp only [List.length_singleton]
  unfold patternName
  cases tys with
  | nil => rfl
  | cons t tys =>
    rw [if_neg (by simp [mkVars])]
    rw [mapM_wild]
    · simp only [mkVars_length, List.length_cons]
      rfl
    · intro a ha
      obtain ⟨i, t', _, rfl⟩ := mkVars_mem ha
      rw [termIdx_one (by show target.id ≠ n + i; omega)]

/-- The names listed for cases that are each decided or missing as a whole. -/
theorem missingCases_tags {target : MVar} {Q : RawCase → MTree → Prop} : ∀ {raw ts}, Trees Q raw ts →
    (∀ c ∈ raw, ∀ t, Q c t → (∃ j name tys n l, c.1 = .variant j name ∧ c.2.1 = mkVars n l tys ∧
      target.id < n) ∧ (c.2.2 = [] → t = .fail) ∧ (c.2.2 ≠ [] → ∃ a, t = .success a)) →
    ∃ ss, missingCases target ts [] = .ok ss ∧ ∀ s, s ∈ ss ↔ ∃ c ∈ raw, c.2.2 = [] ∧
      ∃ j name, c.1 = .variant j name ∧ s = wildPattern name c.2.1.length
  | _, _, .nil, _ => ⟨[], rfl, by simp⟩
  | _, _, .cons (c := c) (t := t) (raw := raw) (ts := ts) hq h, hh => by
    obtain ⟨ss, h1, h2⟩ := missingCases_tags h fun c hc => hh c (List.mem_cons_of_mem _ hc)
    obtain ⟨⟨j, name, tys, n, l, e1, e2, hn⟩, ha, hb⟩ := hh c (List.mem_cons_self ..) t hq
    have key : missingCases target ((c.1, c.2.1, t) :: ts) [] =
        (missingNames t [⟨target, name, mkVars n l tys⟩]).bind fun a => .ok (a ++ ss) := by
      unfold missingCases
      rw [h1, e1, e2]
      rfl
    by_cases hc : c.2.2 = []
    · refine ⟨wildPattern name tys.length :: ss, ?_, fun s => ?_⟩
      · rw [key, ha hc, pattern_wild hn]; rfl
      · rw [List.mem_cons, h2]
        constructor
        · rintro (rfl | ⟨d, hd, h⟩)
          · exact ⟨c, List.mem_cons_self .., hc, j, name, e1, by rw [e2, mkVars_length]⟩
          · exact ⟨d, List.mem_cons_of_mem _ hd, h⟩
        · rintro ⟨d, hd, hd2, j', name', e3, e4⟩
          rcases List.mem_cons.1 hd with rfl | hd
          · left
            rw [e1] at e3
            cases e3
            rw [e4, e2, mkVars_length]
          · exact .inr ⟨d, hd, hd2, j', name', e3, e4⟩
    · refine ⟨ss, ?_, fun s => ?_⟩
      · obtain ⟨a, rfl⟩ := hb hc
        rw [key]; rfl
      · rw [h2]
        constructor
        · rintro ⟨d, hd, h⟩
          exact ⟨d, List.mem_cons_of_mem _ hd, h⟩
        · rintro ⟨d, hd, hd2, h⟩
          rcases List.mem_cons.1 hd with rfl | hd
          · exact absurd hd2 hc
          · exact ⟨d, hd, hd2, h⟩

/-- A variant that no arm matches, whatever its parts. -/
def Uncovered (U : Unions) (m u : String) (arms : List MPat) (tag : Nat) (s : String) : Prop :=
  ∃ name tys, (U m u)[tag]? = some (name, tys) ∧ s = wildPattern name tys.length ∧
    ∀ vs, vs.length = tys.length → firstMatch arms 0 (.variant tag vs) = none

theorem matchArgs_names : ∀ {args : List MPat} {vs : List V}, (∀ q ∈ args, ∃ x, q = .bind x) →
    vs.length = args.length → (matchArgs args vs).isSome = true
  | [], [], _, _ => rfl
  | q :: args, v :: vs, h, hl => by
    obtain ⟨x, rfl⟩ := h q (List.mem_cons_self ..)
    have := matchArgs_names (args := args) (vs := vs) (fun q hq => h q (List.mem_cons_of_mem _ hq))
      (by simpa using hl)
    unfold matchArgs
    simp only [matchPat]
    revert this
    cases matchArgs args vs <;> simp

theorem firstMatch_tags {U : Unions} {m u : String} {tag : Nat} {name : String} {tys : List Ty}
    (hu : (U m u)[tag]? = some (name, tys)) {vs : List V} (hvs : vs.length = tys.length) :
    ∀ {arms : List MPat} (i : Nat), (∀ p ∈ arms, TagArm p) → (∀ p ∈ arms, FlatArm U (.uniao m u) p) →
    (firstMatch arms i (.variant tag vs) = none ↔ tagRows tag arms = [])
  | [], _, _, _ => by simp [firstMatch, tagRows]
  | p :: arms, i, h, hf => by
    have ih := firstMatch_tags hu hvs (arms := arms) (i + 1) (fun q hq => h q (List.mem_cons_of_mem _ hq))
      (fun q hq => hf q (List.mem_cons_of_mem _ hq))
    rcases h p (List.mem_cons_self ..) with ⟨x, rfl⟩ | ⟨t, args, rfl, ha⟩
    · simp [firstMatch, matchPat, tagRows]
    · unfold firstMatch tagRows
      by_cases e : t = tag
      · subst e
        have hl : vs.length = args.length := by
          rcases hf _ (List.mem_cons_self ..) with h | ⟨_, _, _, _, _, tys', et, e, hu', hs⟩
          · rcases h with ⟨x, e⟩ | ⟨⟨n, e⟩, _⟩ | ⟨⟨s, e⟩, _⟩ <;> cases e
          · cases et; cases e
            rw [hu] at hu'
            cases hu'
            rw [hvs]
            clear hvs hu ih hf h ha
            induction hs with
            | nil => rfl
            | cons _ _ ih => simp [ih]
        have := matchArgs_names ha hl
        revert this
        simp only [matchPat, if_true]
        cases matchArgs args vs <;> simp
      · simp only [matchPat, if_neg e, if_neg (Ne.symm e)]
        exact ih

theorem newIds_nil {arms : List MPat} {j : Nat} : ∀ (ps : List MPat) (i n : Nat),
    (∀ k, ps[k]? = arms[i + k]?) → (∀ p ∈ ps, TagArm p) →
    (newIds (askOf arms) j (List.range' i ps.length) n = [] ↔ tagRows j ps = [])
  | [], i, n, _, _ => by simp [newIds, tagRows]
  | p :: ps, i, n, hj, ht => by
    have ih := fun n => newIds_nil (arms := arms) (j := j) ps (i + 1) n (fun k => by
      have := hj (k + 1)
      rw [List.getElem?_cons_succ] at this
      rw [this]; congr 1; omega) (fun q hq => ht q (List.mem_cons_of_mem _ hq))
    have h0 : arms[i]? = some p := by simpa using (hj 0).symm
    rw [List.length_cons, List.range'_succ]
    rcases ht p (List.mem_cons_self ..) with ⟨x, rfl⟩ | ⟨t, args, rfl, ha⟩
    · have : askOf arms i = none := by unfold askOf; rw [h0]
      simp [newIds, this, tagRows]
    · have : askOf arms i = some (t, args) := by unfold askOf; rw [h0]
      unfold newIds tagRows
      rw [this]
      by_cases e : t = j
      · simp [e]
      · simp only [if_neg e]
        exact ih (n + 1)

/-- For arms that test only the variant, exactly the variants that no arm matches are listed. -/
theorem listed_tags {U : Unions} {target : MVar} {m u : String} (hty : target.ty = .uniao m u)
    {arms : List MPat} (hne : arms ≠ []) (hf : ∀ p ∈ arms, FlatArm U (.uniao m u) p)
    (ht : ∀ p ∈ arms, TagArm p)
    {names : List String} (hfr : Fresh names) {mt : Match}
    (hc : compile U target arms names = .ok mt) :
    ∃ ss, mt.missingPatterns = .ok ss ∧
      ∀ s, s ∈ ss ↔ ∃ tag, Uncovered U m u arms tag s := by
  cases arms with
  | nil => exact absurd rfl hne
  | cons p0 arms' =>
  rcases ht p0 (List.mem_cons_self ..) with ⟨x, rfl⟩ | ⟨tag0, args0, rfl, _⟩
  · obtain ⟨mt', h1, h2, _⟩ := compile_name U target x arms' names
    rw [h1] at hc
    cases hc
    refine ⟨[], ?_, fun s => ⟨fun h => (List.not_mem_nil h).elim, ?_⟩⟩
    · unfold Match.missingPatterns
      rw [h2]
      rfl
    · rintro ⟨tag, name, tys, hu, _, h⟩
      have := h (List.replicate tys.length .other) (by simp)
      simp [firstMatch, matchPat] at this
  obtain ⟨raw, σ3, o⟩ := opened hty (names := names) rfl hf hfr
  generalize harms : MPat.adt (some tag0) args0 :: arms' = arms at *
  unfold compile at hc
  revert hc
  cases hh : compileRows U ((arms.map MPat.size).sum + 2) (List.range arms.length)
    (intoRows target arms names) with
  | error e => intro hc; cases hc
  | ok q =>
  obtain ⟨t, σ'⟩ := q
  intro hc
  cases hc
  obtain ⟨ts, hcc, rfl⟩ := o.back hh
  have hshape : ∀ c ∈ raw, ∀ q ∈ c.2.2, q < σ3.nRows ∧ σ3.cols q = σ3.cols q := by
    intro c hc q hq
    obtain ⟨j, hj⟩ := List.mem_iff_getElem?.1 hc
    obtain ⟨_, _, _, _, _, _, rfl, hb, _⟩ := o.case j c hj
    exact ⟨hb q hq, rfl⟩
  have htr := compileCases_each (compileRows_fr U ((arms.map MPat.size).sum + 1)) raw o.wf hshape
    o.pairwise hcc
  obtain ⟨ss, h1, h2⟩ := missingCases_tags (target := target) htr (by
    intro c hc t hq
    obtain ⟨j, hj⟩ := List.mem_iff_getElem?.1 hc
    obtain ⟨name, tys, n, l, hu, hn, rfl, hb, hview⟩ := o.case j c hj
    refine ⟨⟨j, name, tys, n, l, rfl, rfl, hn⟩, ?_, ?_⟩
    · intro he
      obtain ⟨σa, σb, _, _, hgo⟩ := hq
      simp only at he hgo
      rw [he] at hgo
      cases hgo
      rfl
    · intro he
      obtain ⟨σa, σb, wa, hqa, hgo⟩ := hq
      simp only at he hgo hqa
      have hnd : (newIds (askOf arms) j (List.range arms.length) arms.length).Nodup :=
        newIds_nodup List.nodup_range (fun r => List.mem_range.1)
      revert he hgo hqa hnd hview
      cases newIds (askOf arms) j (List.range arms.length) arms.length with
      | nil => exact fun _ h _ => absurd rfl h
      | cons r rs =>
        intro hview _ hqa hgo hnd
        obtain ⟨x, y⟩ := hqa r (List.mem_cons_self ..)
        have hmem : ((σ3.row r).arm, σ3.cols r) ∈
            (r :: rs).map (fun q => ((σ3.row q).arm, σ3.cols q)) := List.mem_cons_self ..
        rw [hview] at hmem
        obtain ⟨i, hi, e⟩ := List.mem_map.1 hmem
        have e2 := (Prod.mk.inj e).2
        have hnames : AllNames (σa.cols r) := by
          rw [y, ← e2]
          cases ha : askOf arms i with
          | none => exact fun c hc => (List.not_mem_nil hc).elim
          | some q =>
            obtain ⟨tg, args⟩ := q
            intro c hc
            obtain ⟨⟨v, p'⟩, hvp, rfl⟩ := List.mem_map.1 hc
            unfold askOf at ha
            cases hp : arms[i]? with
            | none => rw [hp] at ha; cases ha
            | some p =>
              rw [hp] at ha
              rcases ht p (List.mem_of_getElem? hp) with ⟨x, rfl⟩ | ⟨tg', args', rfl, h⟩
              · cases ha
              · cases ha
                exact h p' (List.of_mem_zip hvp).2
        obtain ⟨σ', hl, _⟩ := leaf_ok (U := U) (fuel := (arms.map MPat.size).sum) wa hnd
          (fun q hq => (hqa q hq).1) (splitCols_names hnames)
        rw [hl] at hgo
        exact ⟨_, (Prod.mk.inj (Except.ok.inj hgo)).1.symm⟩)
  refine ⟨ss, h1, fun s => ?_⟩
  rw [h2]
  have hnil : ∀ j, newIds (askOf arms) j (List.range arms.length) arms.length = [] ↔
      tagRows j arms = [] := by
    intro j
    rw [List.range_eq_range']
    exact newIds_nil arms 0 _ (by simp) ht
  constructor
  · rintro ⟨c, hc, he, j', name', e1, e2⟩
    obtain ⟨j, hj⟩ := List.mem_iff_getElem?.1 hc
    obtain ⟨name, tys, n, l, hu, hn, rfl, hb, hview⟩ := o.case j c hj
    simp only at e1 e2 he
    obtain ⟨rfl, rfl⟩ := Cons.variant.inj e1
    refine ⟨j, name, tys, hu, by rw [e2, mkVars_length], fun vs hvs => ?_⟩
    exact (firstMatch_tags hu hvs 0 ht hf).2 ((hnil j).1 he)
  · rintro ⟨tag, name, tys, hu, rfl, hno⟩
    have hlt : tag < raw.length := by
      rw [o.len]; exact (List.getElem?_eq_some_iff.1 hu).1
    have hj := List.getElem?_eq_getElem hlt
    refine ⟨raw[tag], List.getElem_mem hlt, ?_⟩
    obtain ⟨name', tys', n, l, hu', hn, e, hb, hview⟩ := o.case tag _ hj
    rw [hu] at hu'
    cases hu'
    rw [e]
    refine ⟨?_, tag, name, rfl, by simp [mkVars_length]⟩
    refine (hnil tag).2 ((firstMatch_tags hu (vs := List.replicate tys.length .other) (by simp) 0 ht hf).1
      (hno _ (by simp)))

end Amanda.Iguala

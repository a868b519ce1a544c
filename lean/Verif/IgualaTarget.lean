import Verif.IgualaMain

/-!
# `iguala` on numbers and texts, and the arms for which the pattern compiler is right
-/

namespace Amanda.Iguala

/-- The tests of arms on a number or a text; the value itself is place 0. -/
def topRows (arms : List MPat) : List LRow := arms.map fun p => litArgs 0 [p]

/-- The arms on a type that the pattern compiler treats rightly: for a union, those for each
variant; for other types the arms as they are. -/
def TameArms : Ty → List MPat → Prop
  | .uniao _ _, arms => ∀ tag, Tame (tagRows tag arms)
  | _, arms => Tame (topRows arms)

theorem splitCols_flat {target : MVar} {p : MPat} (h : FlatSub p target.ty) :
    LitCols (· = target) (splitCols [⟨target, p⟩]).1 ∧
    (splitCols [⟨target, p⟩]).1.map litKey = shift (target.id + ·) (litArgs 0 [p]) := by
  rcases h with ⟨x, rfl⟩ | ⟨⟨n, rfl⟩, ht⟩ | ⟨⟨s, rfl⟩, ht⟩
  · exact ⟨fun c hc => (List.not_mem_nil hc).elim, rfl⟩
  · refine ⟨fun c hc => ?_, rfl⟩
    obtain rfl : c = ⟨target, .int n⟩ := by simpa [splitCols] using hc
    exact ⟨rfl, rfl, by show litTy target.ty = true; rw [ht]; rfl⟩
  · refine ⟨fun c hc => ?_, rfl⟩
    obtain rfl : c = ⟨target, .str s⟩ := by simpa [splitCols] using hc
    exact ⟨rfl, rfl, by show litTy target.ty = true; rw [ht]; rfl⟩

/-- The first row whose tests hold is the first arm that matches. -/
theorem first_flat {target : MVar} {env : Env} {v : V} (he : env target.id = some v) :
    ∀ (arms : List MPat) (i : Nat), (∀ p ∈ arms, FlatSub p target.ty) →
    match firstSat env ((List.range' i arms.length).zip (arms.map fun p =>
      shift (target.id + ·) (litArgs 0 [p]))) with
    | none => firstMatch arms i v = none
    | some a => ∃ p bs, i ≤ a ∧ arms[a - i]? = some p ∧ firstMatch arms i v = some (a, bs) ∧
        nameValues env (splitCols [⟨target, p⟩]).2 = some bs
  | [], i, _ => by simp [firstSat, firstMatch]
  | p :: ps, i, hf => by
    have ih := first_flat he ps (i + 1) fun q hq => hf q (List.mem_cons_of_mem _ hq)
    have hm : matchPat p v = if sat env (shift (target.id + ·) (litArgs 0 [p]))
        then nameValues env (splitCols [⟨target, p⟩]).2 else none := by
      rcases hf p (List.mem_cons_self ..) with ⟨x, rfl⟩ | ⟨⟨n, rfl⟩, ht⟩ | ⟨⟨s, rfl⟩, ht⟩
      · simp [matchPat, sat, shift, litArgs, litCons, splitCols, nameValues, he]
      · cases v <;> simp [matchPat, sat, shift, litArgs, litCons, splitCols, nameValues, he, holds,
          fits, parts, apply_ite]
      · cases v <;> simp [matchPat, sat, shift, litArgs, litCons, splitCols, nameValues, he, holds,
          fits, parts, apply_ite]
    have hsome : ∃ bs, nameValues env (splitCols [⟨target, p⟩]).2 = some bs := by
      cases p <;> simp [splitCols, nameValues, he]
    obtain ⟨bs, hbs⟩ := hsome
    rw [List.length_cons, List.range'_succ, List.map_cons, List.zip_cons_cons]
    unfold firstSat
    by_cases hs : sat env (shift (target.id + ·) (litArgs 0 [p])) = true
    · rw [if_pos hs]
      rw [if_pos hs] at hm
      exact ⟨p, bs, Nat.le_refl _, by simp, by simp [firstMatch, hm, hbs], hbs⟩
    · rw [if_neg hs]
      rw [if_neg hs] at hm
      simp only [firstMatch, hm]
      revert ih
      cases firstSat env ((List.range' (i + 1) ps.length).zip (ps.map fun p =>
        shift (target.id + ·) (litArgs 0 [p]))) with
      | none => exact id
      | some a =>
        rintro ⟨q, bs, h1, h2, h3, h4⟩
        refine ⟨q, bs, by omega, ?_, h3, h4⟩
        rw [show a - i = (a - (i + 1)) + 1 by omega, List.getElem?_cons_succ]
        exact h2

theorem zip_range_map {α : Type} : ∀ (l : List α) (i : Nat) (f : Nat → α),
    (∀ j a, l[j]? = some a → f (i + j) = a) →
    (List.range' i l.length).map (fun r => (r, f r)) = (List.range' i l.length).zip l
  | [], _, _, _ => rfl
  | a :: l, i, f, h => by
    rw [List.length_cons, List.range'_succ, List.map_cons, List.zip_cons_cons,
      zip_range_map l (i + 1) f (fun j b hb => by
        rw [show i + 1 + j = i + (j + 1) by omega]; exact h (j + 1) b (by simpa using hb))]
    rw [show f i = a from h 0 a rfl]

theorem zip_range_snd {α β : Type} : ∀ (l : List α) (i : Nat) (f : Nat → β) (g : α → β),
    (∀ j a, l[j]? = some a → f (i + j) = g a) → (List.range' i l.length).map f = l.map g
  | [], _, _, _, _ => rfl
  | a :: l, i, f, g, h => by
    rw [List.length_cons, List.range'_succ, List.map_cons, List.map_cons,
      zip_range_snd l (i + 1) f g (fun j b hb => by
        rw [show i + 1 + j = i + (j + 1) by omega]; exact h (j + 1) b (by simpa using hb))]
    rw [show f i = g a from h 0 a rfl]

theorem total_topRows {ty : Ty} : ∀ {arms : List MPat}, total (topRows arms) ≤ (arms.map MPat.size).sum
  | [] => Nat.le_refl _
  | p :: arms => by
    have ih := total_topRows (ty := ty) (arms := arms)
    have h1 : (litArgs 0 [p]).length ≤ p.size := by
      cases p <;> simp [litArgs, litCons, MPat.size]
    simp only [total, topRows, List.map_cons, List.sum_cons] at ih ⊢
    omega

/-- An `iguala` whose arms are names, numbers and texts. -/
theorem correct_flat {U : Unions} {target : MVar} {arms : List MPat}
    (hf : ∀ p ∈ arms, FlatSub p target.ty) (ht : Tame (topRows arms)) (names : List String) :
    ∃ mt, compile U target arms names = .ok mt ∧ Correct U target arms mt := by
  have s := start target arms names
  have w := into_wf target arms names
  have hcol : ∀ r ∈ List.range arms.length, ∃ p, p ∈ arms ∧ arms[r]? = some p ∧
      (intoRows target arms names).cols r = [⟨target, p⟩] := by
    intro r hr
    have hlt := List.mem_range.1 hr
    have hp := List.getElem?_eq_getElem hlt
    exact ⟨_, List.getElem_mem hlt, hp, into_cols hp⟩
  obtain ⟨t, σ', g1, g2, g3⟩ := lits_ok U (VS := (· = target))
    (fun a b ha hb => by subst ha; subst hb; simp [MVar.same])
    (ht.shift (f := (target.id + ·)) (fun a b h => by simpa using h))
    ((arms.map MPat.size).sum + 2) (List.range arms.length) (intoRows target arms names) w
    List.nodup_range (fun r h => List.mem_range.1 h)
    (fun r hr => by
      obtain ⟨p, hm, _, e⟩ := hcol r hr
      rw [e]; exact (splitCols_flat (hf p hm)).1)
    (by
      rw [List.range_eq_range']
      unfold topRows
      rw [List.map_map]
      apply zip_range_snd
      intro j p hp
      rw [Nat.zero_add, into_cols hp, (splitCols_flat (hf p (List.mem_of_getElem? hp))).2]
      rfl)
    (by
      have h1 := total_topRows (ty := target.ty) (arms := arms)
      have h2 : total ((topRows arms).map (shift (target.id + ·))) = total (topRows arms) := by
        simp [total, List.map_map, Function.comp_def, shift]
      omega)
  have hmiss := compileRows_missing U _ g1
  unfold compile
  rw [g1]
  refine ⟨_, rfl, ?_⟩
  have main : ∀ v, selects target ⟨t, σ'.bindings, σ'.missing, σ'.reachable, σ'.names⟩ v =
        firstMatch arms 0 v ∧
      (σ'.missing = false → (firstMatch arms 0 v).isSome = true) := by
    intro v
    let env : Env := fun i => if i = target.id then some v else none
    have henv : env target.id = some v := by simp [env]
    have hans := g3 env (fun a ha => ⟨v, by rw [ha]; exact henv⟩)
    have hfv := first_flat henv arms 0 hf
    have hrows : (List.range arms.length).map (fun r => (((intoRows target arms names).row r).arm,
        (splitCols ((intoRows target arms names).cols r)).1.map litKey)) =
        (List.range' 0 arms.length).zip (arms.map fun p => shift (target.id + ·) (litArgs 0 [p])) := by
      rw [List.range_eq_range']
      have := zip_range_map (arms.map fun p => shift (target.id + ·) (litArgs 0 [p])) 0
        (fun r => (splitCols ((intoRows target arms names).cols r)).1.map litKey) (by
          intro j a ha
          rw [List.getElem?_map, Option.map_eq_some_iff] at ha
          obtain ⟨p, hp, rfl⟩ := ha
          rw [Nat.zero_add, into_cols hp, (splitCols_flat (hf p (List.mem_of_getElem? hp))).2])
      rw [List.length_map] at this
      rw [← this]
      rfl
    rw [hrows] at hans
    revert hans hfv
    generalize firstSat env ((List.range' 0 arms.length).zip (arms.map fun p =>
      shift (target.id + ·) (litArgs 0 [p]))) = o
    intro hans hfv
    have hfl : σ'.missing = false → o.isSome = true := by
      intro h
      rw [hmiss] at h
      exact hans.2 (by
        cases hh : t.hasFail with
        | false => rfl
        | true => rw [hh] at h; simp at h)
    unfold selects
    show (match run env _ with | none => none | some (arm, env) => _) = _ ∧ _
    rw [hans.1]
    cases o with
    | none =>
      simp only at hfv
      refine ⟨by rw [hfv]; rfl, fun h => by cases hfl h⟩
    | some a =>
      obtain ⟨p, bs, _, hp, hm, hn⟩ := hfv
      rw [hm]
      refine ⟨?_, fun _ => rfl⟩
      simp only [Option.map_some]
      rw [g2, s.binds a p (by simpa using hp), hn]
      rfl
  exact ⟨fun v _ => (main v).1, fun h v _ => (main v).2 h⟩

/-- The pattern compiler treats tame arms rightly, on a target of any type. -/
theorem correct_tame {U : Unions} {target : MVar} {arms : List MPat}
    (hf : ∀ p ∈ arms, FlatArm U target.ty p) (ht : TameArms target.ty arms) {names : List String}
    (hfr : Fresh names) :
    ∃ mt, compile U target arms names = .ok mt ∧ Correct U target arms mt := by
  by_cases h : ∃ m u, target.ty = .uniao m u
  · obtain ⟨m, u, h⟩ := h
    rw [h] at hf ht
    exact correct_union h hf ht hfr
  · have hf' : ∀ p ∈ arms, FlatSub p target.ty := by
      intro p hp
      rcases hf p hp with h' | ⟨m, u, _, _, _, _, e, _⟩
      · exact h'
      · exact absurd ⟨m, u, e⟩ h
    have ht' : Tame (topRows arms) := by
      unfold TameArms at ht
      split at ht
      · rename_i m u e; exact absurd ⟨m, u, e⟩ h
      · exact ht
    exact correct_flat hf' ht' names

end Amanda.Iguala

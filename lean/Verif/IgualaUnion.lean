import Verif.IgualaTop

/-!
# An `iguala` on a union, a number or a text
-/

namespace Amanda.Iguala

/-! ## Bindings -/

/-- The bindings made for an arm by moving rows with columns `C`. -/
def made (C : Nat → List Col) (A : Nat → Nat) (ids : List Nat) (i : Nat) : List (String × MVar) :=
  (ids.filter fun r => A r == i).flatMap fun r => (splitCols (C r)).2

theorem made_congr {C C' : Nat → List Col} {A A' : Nat → Nat} {ids : List Nat}
    (h : ∀ r ∈ ids, C r = C' r ∧ A r = A' r) (i : Nat) : made C A ids i = made C' A' ids i := by
  unfold made
  have : (ids.filter fun r => A r == i) = ids.filter fun r => A' r == i :=
    List.filter_congr fun r hr => by rw [(h r hr).2]
  rw [this]
  have : ∀ l : List Nat, (∀ r ∈ l, r ∈ ids) →
      l.flatMap (fun r => (splitCols (C r)).2) = l.flatMap fun r => (splitCols (C' r)).2 := by
    intro l
    induction l with
    | nil => intro _; rfl
    | cons a l ih =>
      intro hl
      rw [List.flatMap_cons, List.flatMap_cons, (h a (hl a (List.mem_cons_self ..))).1,
        ih fun r hr => hl r (List.mem_cons_of_mem _ hr)]
  exact this _ fun r hr => (List.mem_filter.1 hr).1

theorem moveAll_bind : ∀ (ids : List Nat) {σ : PState}, σ.Wf → ids.Nodup →
    (∀ r ∈ ids, r < σ.nRows) → ∀ i, (moveAll σ ids).bindings i =
      σ.bindings i ++ made σ.cols (fun r => (σ.row r).arm) ids i
  | [], σ, _, _, _, i => by simp [moveAll, made]
  | r :: rs, σ, w, hn, hr, i => by
    rw [List.nodup_cons] at hn
    have a := moveVars_fr w r (hr r (List.mem_cons_self ..))
    have ih := moveAll_bind rs a.wf hn.2 (fun q hq => hr q (List.mem_cons_of_mem _ hq)) i
    have ih' : (moveAll σ (r :: rs)).bindings i = _ := ih
    rw [ih', made_congr (C' := σ.cols) (A' := fun r => (σ.row r).arm) (fun q hq => by
      have hq' := hr q (List.mem_cons_of_mem _ hq)
      exact ⟨a.cols hq' (fun e => hn.1 (e ▸ hq)) (w q hq'), a.arm q hq'⟩)]
    have hb : (moveVars σ r).bindings i = σ.bindings i ++
        if (σ.row r).arm == i then (splitCols (σ.cols r)).2 else [] := by
      show upd σ.bindings (σ.row r).arm (σ.bindings (σ.row r).arm ++ (splitCols (σ.cols r)).2) i = _
      by_cases e : i = (σ.row r).arm
      · subst e; rw [upd_same]; simp
      · rw [upd_ne _ _ e, if_neg (by simpa using fun h => e h.symm)]; simp
    rw [hb, List.append_assoc]
    congr 1
    unfold made
    by_cases e : ((σ.row r).arm == i) = true
    · simp only [List.filter_cons, e, if_true, List.flatMap_cons]
    · simp only [List.filter_cons, if_neg e, List.nil_append]

theorem foldl_made {C : Nat → List Col} {A : Nat → Nat} : ∀ (raw : List RawCase)
    (b : Nat → List (String × MVar)) (i : Nat),
    raw.foldl (fun b c => fun i => b i ++ made C A c.2.2 i) b i =
      b i ++ raw.flatMap fun c => made C A c.2.2 i
  | [], b, i => by simp
  | c :: raw, b, i => by
    rw [List.foldl_cons, foldl_made raw, List.flatMap_cons, List.append_assoc]

theorem flatMap_none {α β : Type} {f : α → List β} : ∀ {l : List α}, (∀ a ∈ l, f a = []) →
    l.flatMap f = []
  | [], _ => rfl
  | a :: l, h => by
    rw [List.flatMap_cons, h a (List.mem_cons_self ..),
      flatMap_none fun b hb => h b (List.mem_cons_of_mem _ hb)]
    rfl

theorem flatMap_only {α β : Type} {f : α → List β} : ∀ {l : List α} {T : Nat} {x : α},
    l[T]? = some x → (∀ j a, l[j]? = some a → j ≠ T → f a = []) → l.flatMap f = f x
  | [], _, _, h, _ => by simp at h
  | a :: l, 0, x, h, ho => by
    cases h
    rw [List.flatMap_cons, flatMap_none, List.append_nil]
    intro b hb
    obtain ⟨j, hj⟩ := List.mem_iff_getElem?.1 hb
    exact ho (j + 1) b (by simpa using hj) (by simp)
  | a :: l, T + 1, x, h, ho => by
    rw [List.flatMap_cons, ho 0 a rfl (by simp), List.nil_append]
    exact flatMap_only (by simpa using h) fun j b hj hne => ho (j + 1) b (by simpa using hj) (by omega)

/-- Bindings made, from the list of arms and columns of the rows. -/
theorem made_view {C : Nat → List Col} {A : Nat → Nat} : ∀ {ids : List Nat}
    {view : List (Nat × List Col)}, ids.map (fun q => (A q, C q)) = view → ∀ i,
    made C A ids i = (view.filter fun a => a.1 == i).flatMap fun a => (splitCols a.2).2
  | [], [], _, i => rfl
  | q :: ids, (a, c) :: view, h, i => by
    simp only [List.map_cons, List.cons.injEq, Prod.mk.injEq] at h
    have ih := made_view h.2 i
    unfold made at ih ⊢
    obtain ⟨⟨rfl, rfl⟩, _⟩ := h
    by_cases e : (A q == i) = true
    · simp only [List.filter_cons, e, if_true, List.flatMap_cons, ih]
    · simp only [List.filter_cons, if_neg e, ih]
  | [], _ :: _, h, _ => by cases h
  | _ :: _, [], h, _ => by cases h

/-- The part of a list of distinct numbers with a given number. -/
theorem filter_one {p : Nat → Bool} {f : Nat → List Col} : ∀ {rs : List Nat}, rs.Nodup → ∀ i ∈ rs,
    (((rs.filter p).map fun r => (r, f r)).filter fun a => a.1 == i) =
      if p i then [(i, f i)] else []
  | r :: rs, hn, i, hi => by
    rw [List.nodup_cons] at hn
    have hno : ∀ {l : List Nat}, i ∉ l → ((l.filter p).map fun r => (r, f r)).filter
        (fun a => a.1 == i) = [] := by
      intro l hl
      apply List.filter_eq_nil_iff.2
      intro a ha
      obtain ⟨r, hr, rfl⟩ := List.mem_map.1 ha
      simp only [beq_iff_eq]
      intro e
      subst e
      exact hl (List.mem_filter.1 hr).1
    rcases List.mem_cons.1 hi with e | e
    · subst e
      by_cases h : p i = true
      · rw [List.filter_cons_of_pos h, List.map_cons, List.filter_cons_of_pos (by simp), hno hn.1,
          if_pos h]
      · rw [List.filter_cons_of_neg h, hno hn.1, if_neg h]
    · have hne : r ≠ i := fun h => hn.1 (h ▸ e)
      have ih := filter_one (p := p) (f := f) hn.2 i e
      by_cases h : p r = true
      · rw [List.filter_cons_of_pos h, List.map_cons, List.filter_cons_of_neg (by simpa using hne), ih]
      · rw [List.filter_cons_of_neg h, ih]

/-! ## Which arms there are -/

/-- Arms that `check_pattern` admits, with the right number of patterns inside a variant, and
numbers and texts only for parts of these types. -/
def FlatArm (U : Unions) (ty : Ty) (p : MPat) : Prop :=
  FlatSub p ty ∨ ∃ m u tag args name tys, ty = .uniao m u ∧ p = .adt (some tag) args ∧
    (U m u)[tag]? = some (name, tys) ∧ FlatSubs args tys

/-- The tests of the arms that may match a variant, in order. -/
def tagRows (tag : Nat) : List MPat → List LRow
  | [] => []
  | .bind _ :: arms => [] :: tagRows tag arms
  | .adt (some t) args :: arms => if t = tag then litArgs 0 args :: tagRows tag arms else tagRows tag arms
  | _ :: arms => tagRows tag arms

/-- What arm `i` asks of a union. -/
def askOf (arms : List MPat) : Ask := fun i =>
  match arms[i]? with
  | some (.adt (some tag) args) => some (tag, args)
  | _ => none

theorem subs_size : ∀ {args : List MPat} {tys : List Ty} (i : Nat), FlatSubs args tys →
    (litArgs i args).length ≤ (args.map MPat.size).sum
  | [], [], i, .nil => Nat.zero_le _
  | p :: ps, t :: ts, i, .cons hp hps => by
    have ih := subs_size (i + 1) hps
    have h1 : 1 ≤ p.size := by cases p <;> simp [MPat.size]
    simp only [List.map_cons, List.sum_cons]
    unfold litArgs
    cases litCons p with
    | none => simp only; omega
    | some k => simp only [List.length_cons]; omega

theorem size_adt (tag : Option Nat) (args : List MPat) :
    (MPat.adt tag args).size = 1 + (args.map MPat.size).sum := by
  have : ∀ l, sizes l = (l.map MPat.size).sum := by
    intro l
    induction l with
    | nil => rfl
    | cons p l ih => simp [sizes, ih]
  rw [MPat.size, this]

theorem total_tagRows {U ty} (tag : Nat) : ∀ {arms : List MPat}, (∀ p ∈ arms, FlatArm U ty p) →
    total (tagRows tag arms) ≤ (arms.map MPat.size).sum
  | [], _ => Nat.le_refl _
  | p :: arms, h => by
    have ih := total_tagRows (U := U) (ty := ty) tag (arms := arms)
      fun q hq => h q (List.mem_cons_of_mem _ hq)
    have hp := h p (List.mem_cons_self ..)
    simp only [List.map_cons, List.sum_cons]
    cases p with
    | bind x =>
      simp only [tagRows, total, List.map_cons, List.sum_cons, List.length_nil] at ih ⊢
      omega
    | int n => simp only [tagRows]; omega
    | str n => simp only [tagRows]; omega
    | adt t args =>
      cases t with
      | none => simp only [tagRows]; omega
      | some t =>
        rcases hp with h | ⟨m, u, tag', args', name, tys, _, e, _, hs⟩
        · rcases h with ⟨x, e⟩ | ⟨⟨n, e⟩, _⟩ | ⟨⟨s, e⟩, _⟩ <;> cases e
        · cases e
          have := subs_size 0 hs
          rw [size_adt]
          unfold tagRows
          by_cases e : t = tag
          · rw [if_pos e]
            simp only [total, List.map_cons, List.sum_cons] at ih ⊢
            omega
          · rw [if_neg e]; omega

/-- The tests of the rows of a case, by arms. -/
theorem view_tests {U m u} {tag n l : Nat} {name : String} {tys : List Ty}
    (hu : (U m u)[tag]? = some (name, tys)) (arms : List MPat) : ∀ (ps : List MPat) (i : Nat),
    (∀ j, ps[j]? = arms[i + j]?) → (∀ p ∈ ps, FlatArm U (.uniao m u) p) →
    (((List.range' i ps.length).filter (goes (askOf arms) tag)).map fun r =>
        (splitCols (caseCols (mkVars n l tys) (askOf arms r))).1.map litKey) =
      (tagRows tag ps).map (shift (n + ·)) ∧
    (∀ r ∈ (List.range' i ps.length).filter (goes (askOf arms) tag),
      LitCols (· ∈ mkVars n l tys) (splitCols (caseCols (mkVars n l tys) (askOf arms r))).1)
  | [], i, _, _ => by simp [tagRows]
  | p :: ps, i, hj, hf => by
    have ih := view_tests (n := n) (l := l) hu arms ps (i + 1) (fun j => by
      have := hj (j + 1)
      rw [List.getElem?_cons_succ] at this
      rw [this]; congr 1; omega) (fun q hq => hf q (List.mem_cons_of_mem _ hq))
    have hp := hf p (List.mem_cons_self ..)
    have hi : arms[i]? = some p := by have := hj 0; simpa using this.symm
    rw [List.length_cons, List.range'_succ]
    cases p with
    | bind x =>
      have ha : askOf arms i = none := by unfold askOf; rw [hi]
      rw [List.filter_cons_of_pos (by simp [goes, ha])]
      refine ⟨?_, ?_⟩
      · rw [List.map_cons, ih.1, ha]; rfl
      · intro r hr
        rcases List.mem_cons.1 hr with e | e
        · subst e; rw [ha]; intro c hc; cases hc
        · exact ih.2 r e
    | int k =>
      rcases hp with h | ⟨_, _, _, _, _, _, _, e, _⟩
      · rcases h with ⟨x, e⟩ | ⟨_, e⟩ | ⟨⟨s, e⟩, _⟩ <;> cases e
      · cases e
    | str k =>
      rcases hp with h | ⟨_, _, _, _, _, _, _, e, _⟩
      · rcases h with ⟨x, e⟩ | ⟨⟨s, e⟩, _⟩ | ⟨_, e⟩ <;> cases e
      · cases e
    | adt t args =>
      rcases hp with h | ⟨m', u', tag', args', name', tys', et, e, hu', hs⟩
      · rcases h with ⟨x, e⟩ | ⟨⟨n, e⟩, _⟩ | ⟨⟨s, e⟩, _⟩ <;> cases e
      cases e
      cases et
      have ha : askOf arms i = some (tag', args) := by unfold askOf; rw [hi]
      by_cases e : tag' = tag
      · subst e
        rw [hu] at hu'
        cases hu'
        obtain ⟨s1, s2⟩ := split_args hs n l 0 n rfl
        rw [List.filter_cons_of_pos (by simp [goes, ha])]
        refine ⟨?_, ?_⟩
        · rw [List.map_cons, ih.1, ha]
          show (splitCols (argCols (mkVars n l tys) args)).1.map litKey :: _ = _
          rw [s1]
          simp [tagRows]
        · intro r hr
          rcases List.mem_cons.1 hr with e | e
          · subst e; rw [ha]; exact s2
          · exact ih.2 r e
      · rw [List.filter_cons_of_neg (by simp [goes, ha, e])]
        refine ⟨?_, ih.2⟩
        rw [ih.1]
        simp [tagRows, e]

/-- The names of arm `i` and the variables they stand for, in the case with variables `vs`. -/
def bindsOf (target : MVar) (vs : List MVar) (arms : List MPat) (i : Nat) : List (String × MVar) :=
  match arms[i]? with
  | some (.bind x) => [(x, target)]
  | some (.adt _ args) => (splitCols (argCols vs args)).2
  | _ => []

/-- The first row whose tests hold is the first arm that matches. -/
theorem first_view {U m u} {target : MVar} {tag n l : Nat} {name : String} {tys : List Ty}
    (hu : (U m u)[tag]? = some (name, tys)) {vs : List V} (hvs : vs.length = tys.length)
    {env : Env} (ht : env target.id = some (.variant tag vs)) (hn : target.id < n)
    (arms : List MPat) : ∀ (ps : List MPat) (i : Nat),
    (∀ j, ps[j]? = arms[i + j]?) → (∀ p ∈ ps, FlatArm U (.uniao m u) p) →
    match firstSat (setArgs env (mkVars n l tys) vs)
      (((List.range' i ps.length).filter (goes (askOf arms) tag)).map fun r =>
        (r, (splitCols (caseCols (mkVars n l tys) (askOf arms r))).1.map litKey)) with
    | none => firstMatch ps i (.variant tag vs) = none
    | some a => (i ≤ a ∧ a < i + ps.length ∧ goes (askOf arms) tag a = true) ∧
        ∃ bs, firstMatch ps i (.variant tag vs) = some (a, bs) ∧
        nameValues (setArgs env (mkVars n l tys) vs) (bindsOf target (mkVars n l tys) arms a) = some bs
  | [], i, _, _ => by simp [firstSat, firstMatch]
  | p :: ps, i, hj, hf => by
    have ih := first_view (l := l) hu hvs ht hn arms ps (i + 1) (fun j => by
      have := hj (j + 1)
      rw [List.getElem?_cons_succ] at this
      rw [this]; congr 1; omega) (fun q hq => hf q (List.mem_cons_of_mem _ hq))
    have hp := hf p (List.mem_cons_self ..)
    have hi : arms[i]? = some p := by have := hj 0; simpa using this.symm
    have weak : ∀ {o : Option Nat}, (match o with
        | none => firstMatch ps (i + 1) (.variant tag vs) = none
        | some a => (i + 1 ≤ a ∧ a < i + 1 + ps.length ∧ goes (askOf arms) tag a = true) ∧
          ∃ bs, firstMatch ps (i + 1) (.variant tag vs) = some (a, bs) ∧
          nameValues (setArgs env (mkVars n l tys) vs) (bindsOf target (mkVars n l tys) arms a) =
            some bs) → matchPat p (.variant tag vs) = none →
        match o with
        | none => firstMatch (p :: ps) i (.variant tag vs) = none
        | some a => (i ≤ a ∧ a < i + (p :: ps).length ∧ goes (askOf arms) tag a = true) ∧
          ∃ bs, firstMatch (p :: ps) i (.variant tag vs) = some (a, bs) ∧
          nameValues (setArgs env (mkVars n l tys) vs) (bindsOf target (mkVars n l tys) arms a) =
            some bs := by
      intro o h hm
      have e : firstMatch (p :: ps) i (.variant tag vs) = firstMatch ps (i + 1) (.variant tag vs) := by
        conv => lhs; unfold firstMatch
        rw [hm]
      rw [e]
      cases o with
      | none => exact h
      | some a =>
        obtain ⟨⟨a1, a2, a3⟩, h⟩ := h
        refine ⟨⟨by omega, ?_, a3⟩, h⟩
        simp only [List.length_cons]
        omega
    rw [List.length_cons, List.range'_succ]
    cases p with
    | bind x =>
      have ha : askOf arms i = none := by unfold askOf; rw [hi]
      have hg : goes (askOf arms) tag i = true := by simp [goes, ha]
      rw [List.filter_cons_of_pos hg, List.map_cons, ha]
      simp only [caseCols, splitCols_nil, List.map_nil, firstSat, sat, List.all_nil, if_true]
      refine ⟨⟨Nat.le_refl _, by simp, hg⟩, [(x, .variant tag vs)], by simp [firstMatch, matchPat], ?_⟩
      unfold bindsOf
      rw [hi]
      simp only [nameValues, setArgs_lt env target.id hn, ht]
    | int k =>
      rcases hp with h | ⟨_, _, _, _, _, _, _, e, _⟩
      · rcases h with ⟨x, e⟩ | ⟨_, e⟩ | ⟨⟨s, e⟩, _⟩ <;> cases e
      · cases e
    | str k =>
      rcases hp with h | ⟨_, _, _, _, _, _, _, e, _⟩
      · rcases h with ⟨x, e⟩ | ⟨⟨s, e⟩, _⟩ | ⟨_, e⟩ <;> cases e
      · cases e
    | adt t args =>
      rcases hp with h | ⟨m', u', tag', args', name', tys', et, e, hu', hs⟩
      · rcases h with ⟨x, e⟩ | ⟨⟨n, e⟩, _⟩ | ⟨⟨s, e⟩, _⟩ <;> cases e
      cases e
      cases et
      have ha : askOf arms i = some (tag', args) := by unfold askOf; rw [hi]
      by_cases e : tag' = tag
      · subst e
        rw [hu] at hu'
        cases hu'
        obtain ⟨bs, b1, b2⟩ := match_args hs n l env hvs
        have hg : goes (askOf arms) tag' i = true := by simp [goes, ha]
        rw [List.filter_cons_of_pos hg, List.map_cons, ha]
        have hm : matchPat (.adt (some tag') args) (.variant tag' vs) = matchArgs args vs := by
          simp [matchPat]
        by_cases hsat : sat (setArgs env (mkVars n l tys) vs)
            ((splitCols (argCols (mkVars n l tys) args)).1.map litKey) = true
        · rw [if_pos hsat] at b2
          have : firstSat (setArgs env (mkVars n l tys) vs) ((i, (splitCols (caseCols (mkVars n l tys)
              (some (tag', args)))).1.map litKey) :: (((List.range' (i + 1) ps.length).filter
              (goes (askOf arms) tag')).map fun r =>
              (r, (splitCols (caseCols (mkVars n l tys) (askOf arms r))).1.map litKey))) = some i := by
            unfold firstSat
            exact if_pos hsat
          rw [this]
          refine ⟨⟨Nat.le_refl _, by simp, hg⟩, bs, ?_, ?_⟩
          · unfold firstMatch; rw [hm, b2]
          · unfold bindsOf; rw [hi]; exact b1
        · rw [if_neg hsat] at b2
          have : firstSat (setArgs env (mkVars n l tys) vs) ((i, (splitCols (caseCols (mkVars n l tys)
              (some (tag', args)))).1.map litKey) :: (((List.range' (i + 1) ps.length).filter
              (goes (askOf arms) tag')).map fun r =>
              (r, (splitCols (caseCols (mkVars n l tys) (askOf arms r))).1.map litKey))) =
            firstSat (setArgs env (mkVars n l tys) vs) (((List.range' (i + 1) ps.length).filter
              (goes (askOf arms) tag')).map fun r =>
              (r, (splitCols (caseCols (mkVars n l tys) (askOf arms r))).1.map litKey)) := by
            conv => lhs; unfold firstSat
            exact if_neg hsat
          rw [this]
          exact weak ih (by rw [hm, b2])
      · rw [List.filter_cons_of_neg (by simp [goes, ha, e])]
        exact weak ih (by simp only [matchPat]; rw [if_neg fun h => e h.symm])

end Amanda.Iguala

import Verif.IgualaUnion

/-!
# What the pattern compiler gives for whole lists of arms
-/

namespace Amanda.Iguala

theorem moveAll_scope : ∀ (ids : List Nat) (σ : PState), (moveAll σ ids).names = σ.names ∧
    (moveAll σ ids).nVars = σ.nVars
  | [], _ => ⟨rfl, rfl⟩
  | r :: rs, σ => moveAll_scope rs (moveVars σ r)

/-- The state after the rows of all arms have been moved. -/
structure Start (target : MVar) (arms : List MPat) (names : List String) (τ : PState) : Prop where
  wf : τ.Wf
  nRows : τ.nRows = arms.length
  sep : ∀ q ∈ List.range arms.length, ∀ r ∈ List.range arms.length,
    (τ.row q).list = (τ.row r).list → q = r
  arm : ∀ r < arms.length, (τ.row r).arm = r
  cols : ∀ r p, arms[r]? = some p → τ.cols r = (splitCols [⟨target, p⟩]).1
  binds : ∀ r p, arms[r]? = some p → τ.bindings r = (splitCols [⟨target, p⟩]).2
  names : τ.names = names
  nVars : τ.nVars = target.id + 1
  missing : τ.missing = false

theorem moveAll_nRows : ∀ (ids : List Nat) (σ : PState), (moveAll σ ids).nRows = σ.nRows
  | [], _ => rfl
  | r :: rs, σ => moveAll_nRows rs (moveVars σ r)

theorem into_wf (target : MVar) (arms : List MPat) (names : List String) :
    (intoRows target arms names).Wf := fun _ h => h

theorem into_cols {target : MVar} {arms : List MPat} {names : List String} {r : Nat} {p : MPat}
    (h : arms[r]? = some p) : (intoRows target arms names).cols r = [⟨target, p⟩] := by
  show (match arms[r]? with | some p => [Col.mk target p] | none => []) = _
  rw [h]

theorem start (target : MVar) (arms : List MPat) (names : List String) :
    Start target arms names (moveAll (intoRows target arms names) (List.range arms.length)) := by
  have w := into_wf target arms names
  have hn : (List.range arms.length).Nodup := List.nodup_range
  have hr : ∀ r ∈ List.range arms.length, r < (intoRows target arms names).nRows :=
    fun r h => List.mem_range.1 h
  have a := moveAll_fr _ w hr
  refine ⟨a.wf, moveAll_nRows _ _, moveAll_sep _ w hn hr, fun r h => a.arm r h, ?_, ?_,
    (moveAll_scope _ _).1, (moveAll_scope _ _).2, moveAll_missing _ _⟩
  · intro r p h
    have hlt : r < arms.length := (List.getElem?_eq_some_iff.1 h).1
    rw [moveAll_cols _ w hn hr r hlt, if_pos (List.mem_range.2 hlt), into_cols h]
  · intro r p h
    have hlt : r < arms.length := (List.getElem?_eq_some_iff.1 h).1
    rw [moveAll_bind _ w hn hr r]
    show [] ++ ((List.range arms.length).filter fun q => q == r).flatMap _ = _
    have hf : ((List.range arms.length).filter fun q => q == r) = [r] := by
      have : ∀ {l : List Nat}, l.Nodup → r ∈ l → l.filter (fun q => q == r) = [r] := by
        intro l hl hm
        induction l with
        | nil => cases hm
        | cons b l ih =>
          rw [List.nodup_cons] at hl
          by_cases e : b = r
          · subst e
            have : l.filter (fun q => q == b) = [] := by
              apply List.filter_eq_nil_iff.2
              intro a ha
              simp only [beq_iff_eq]
              intro e
              subst e
              exact hl.1 ha
            simp [this]
          · rcases List.mem_cons.1 hm with h | h
            · exact absurd h.symm e
            · simp [e, ih hl.2 h]
      exact this hn (List.mem_range.2 hlt)
    rw [hf]
    simp only [List.nil_append, List.flatMap_cons, List.flatMap_nil, List.append_nil]
    rw [into_cols h]

/-- What is proved of a compiled `iguala`: it selects the first arm that matches, and if no pattern
is reported missing some arm matches. -/
def Correct (U : Unions) (target : MVar) (arms : List MPat) (m : Match) : Prop :=
  (∀ v, HasTy U v target.ty → selects target m v = firstMatch arms 0 v) ∧
  (m.missing = false → ∀ v, HasTy U v target.ty → (firstMatch arms 0 v).isSome = true)

theorem correct_nil (U : Unions) (target : MVar) (names : List String) :
    ∃ m, compile U target [] names = .ok m ∧ Correct U target [] m :=
  ⟨_, rfl, fun v _ => by simp [selects, run, firstMatch], fun h => by cases h⟩

/-- A first arm that is a name is always selected. -/
theorem compile_name (U : Unions) (target : MVar) (x : String) (arms : List MPat)
    (names : List String) :
    ∃ m, compile U target (.bind x :: arms) names = .ok m ∧ m.tree = .success 0 ∧
      Correct U target (.bind x :: arms) m := by
  have s := start target (.bind x :: arms) names
  have hc : compileRows U (((MPat.bind x :: arms).map MPat.size).sum + 2)
      (List.range (MPat.bind x :: arms).length) (intoRows target (.bind x :: arms) names) =
      .ok (.success 0, { moveAll (intoRows target (.bind x :: arms) names)
        (List.range (MPat.bind x :: arms).length) with
        reachable := (moveAll (intoRows target (.bind x :: arms) names)
          (List.range (MPat.bind x :: arms).length)).reachable ++ [0] }) := by
    generalize hτ : moveAll (intoRows target (.bind x :: arms) names)
      (List.range (MPat.bind x :: arms).length) = τ at s
    have hids : List.range (MPat.bind x :: arms).length = 0 :: List.range' 1 arms.length := by
      rw [List.range_eq_range', List.length_cons, List.range'_succ]
    rw [hids] at hτ ⊢
    show branch U _ 0 _ (moveAll _ _) = _
    rw [hτ]
    unfold branch
    rw [s.cols 0 (.bind x) rfl, show (splitCols [⟨target, .bind x⟩]).1 = [] from rfl]
    simp only [s.arm 0 (by simp)]
  unfold compile
  rw [hc]
  refine ⟨_, rfl, rfl, fun v _ => ?_, fun _ v _ => by simp [firstMatch, matchPat]⟩
  simp only [selects, run, firstMatch, matchPat]
  rw [s.binds 0 (.bind x) rfl]
  simp [splitCols, nameValues]

theorem correct_name (U : Unions) (target : MVar) (x : String) (arms : List MPat)
    (names : List String) :
    ∃ m, compile U target (.bind x :: arms) names = .ok m ∧ Correct U target (.bind x :: arms) m :=
  let ⟨m, h, _, h'⟩ := compile_name U target x arms names
  ⟨m, h, h'⟩

theorem hasTys_length {U : Unions} : ∀ {vs : List V} {ts : List Ty}, HasTys U vs ts →
    vs.length = ts.length
  | [], [], _ => rfl
  | _ :: vs, _ :: ts, .cons _ h => by simp [hasTys_length h]

/-- What compiling an `iguala` on a union comes to when the first arm is a variant: the cases `raw`
are compiled in the state `σ`. -/
structure Opened (U : Unions) (target : MVar) (m u : String) (arms : List MPat)
    (names : List String) (raw : List RawCase) (σ3 : PState) : Prop where
  run : ∀ {ts σ4}, compileCases (compileRows U ((arms.map MPat.size).sum + 1)) raw σ3 = .ok (ts, σ4) →
    compileRows U ((arms.map MPat.size).sum + 2) (List.range arms.length)
      (intoRows target arms names) = .ok (.switch target ts none, σ4)
  back : ∀ {t σ4}, compileRows U ((arms.map MPat.size).sum + 2) (List.range arms.length)
      (intoRows target arms names) = .ok (t, σ4) →
    ∃ ts, compileCases (compileRows U ((arms.map MPat.size).sum + 1)) raw σ3 = .ok (ts, σ4) ∧
      t = .switch target ts none
  wf : σ3.Wf
  binds : ∀ r p, arms[r]? = some p → σ3.bindings r = (splitCols [⟨target, p⟩]).2
  none : ∀ q ∈ List.range arms.length, askOf arms q = none → σ3.cols q = []
  len : raw.length = (U m u).length
  case : ∀ (j : Nat) (c : RawCase), raw[j]? = some c → ∃ name tys n l,
      (U m u)[j]? = some (name, tys) ∧
      target.id < n ∧ c = (Cons.variant j name, mkVars n l tys,
        newIds (askOf arms) j (List.range arms.length) arms.length) ∧
      (∀ q ∈ newIds (askOf arms) j (List.range arms.length) arms.length, q < σ3.nRows) ∧
      (newIds (askOf arms) j (List.range arms.length) arms.length).map
          (fun q => ((σ3.row q).arm, σ3.cols q)) =
        ((List.range arms.length).filter (goes (askOf arms) j)).map
          fun r => (r, caseCols (mkVars n l tys) (askOf arms r))

/-- What the rows of flat arms ask. -/
theorem ask_flat {U : Unions} {m u : String} {arms : List MPat}
    (hf : ∀ p ∈ arms, FlatArm U (.uniao m u) p) (target : MVar) : ∀ r < arms.length,
    ∃ p, arms[r]? = some p ∧ (splitCols [⟨target, p⟩]).1 = askCols target (askOf arms r) ∧
      (askOf arms r = none → ∃ x, p = .bind x) ∧
      (∀ tag args, askOf arms r = some (tag, args) → tag < (U m u).length) := by
  intro r hr
  obtain ⟨p, hp⟩ : ∃ p, arms[r]? = some p := ⟨_, List.getElem?_eq_getElem hr⟩
  refine ⟨p, hp, ?_⟩
  rcases hf p (List.mem_of_getElem? hp) with h | ⟨m', u', tag, args, name, tys, et, e, hu, _⟩
  · rcases h with ⟨x, rfl⟩ | ⟨_, e⟩ | ⟨_, e⟩
    · have : askOf arms r = none := by unfold askOf; rw [hp]
      rw [this]
      exact ⟨rfl, fun _ => ⟨x, rfl⟩, fun _ _ h => by cases h⟩
    · cases e
    · cases e
  · subst e
    cases et
    have : askOf arms r = some (tag, args) := by unfold askOf; rw [hp]
    rw [this]
    refine ⟨rfl, (fun h => by cases h), fun tag' args' h => ?_⟩
    cases h
    exact (List.getElem?_eq_some_iff.1 hu).1

theorem opened {U : Unions} {target : MVar} {m u : String} (hty : target.ty = .uniao m u)
    {arms arms' : List MPat} {tag0 : Nat} {args0 : List MPat}
    (harms : MPat.adt (some tag0) args0 :: arms' = arms)
    (hf : ∀ p ∈ arms, FlatArm U (.uniao m u) p) {names : List String} (hfr : Fresh names) :
    ∃ raw σ3, Opened U target m u arms names raw σ3 := by
  have hlen : arms.length = arms'.length + 1 := by rw [← harms]; rfl
  have h0 : arms[0]? = some (.adt (some tag0) args0) := by rw [← harms]; rfl
  have s := start target arms names
  generalize hτ : moveAll (intoRows target arms names) (List.range arms.length) = τ at s
  have hids : List.range arms.length = 0 :: List.range' 1 arms'.length := by
    rw [List.range_eq_range', hlen, List.range'_succ]
  have hask : ∀ r < arms.length, ∃ p, arms[r]? = some p ∧ τ.cols r = askCols target (askOf arms r) ∧
      (askOf arms r = none → ∃ x, p = .bind x) ∧
      (∀ tag args, askOf arms r = some (tag, args) → tag < (U m u).length) := by
    intro r hr
    obtain ⟨p, hp, h⟩ := ask_flat hf target r hr
    exact ⟨p, hp, by rw [s.cols r p hp]; exact h⟩
  have hask0 : askOf arms 0 = some (tag0, args0) := by unfold askOf; rw [h0]
  have hc0 : τ.cols 0 = [⟨target, .adt (some tag0) args0⟩] := by
    obtain ⟨_, _, h, _⟩ := hask 0 (by omega)
    rw [h, hask0]; rfl
  -- the cases
  have hfin : finite target.ty = true := by rw [hty]; rfl
  have hks : constructors U target.ty = variantCons 0 (U m u) := by rw [hty]; rfl
  obtain ⟨ns, nv, _, heq⟩ := openCases_eq (constructors U target.ty) τ
  have hrow : (openCases τ (constructors U target.ty)).2.row = τ.row := by rw [heq]
  have hlist : (openCases τ (constructors U target.ty)).2.list = τ.list := by rw [heq]
  have hnr : (openCases τ (constructors U target.ty)).2.nRows = τ.nRows := by rw [heq]
  have hbb : (openCases τ (constructors U target.ty)).2.bindings = τ.bindings := by rw [heq]
  have w2 : (openCases τ (constructors U target.ty)).2.Wf :=
    (openCases_fr (L := 0) (S := fun _ => False) (constructors U target.ty) s.wf).wf
  have hopen := fun (j : Nat) (k : Cons) (tys : List Ty) => openCases_fresh
    (constructors U target.ty) (σ := τ) (by rw [s.names]; exact hfr) (j := j) (k := k) (tys := tys)
  have hclen := openCases_length (constructors U target.ty) τ
  rw [hks, variantCons_length, ← hks] at hclen
  generalize hoc : openCases τ (constructors U target.ty) = oc at *
  obtain ⟨cases0, σ2⟩ := oc
  simp only at hrow hlist hnr hbb w2 hopen hclen
  have hcols2 : ∀ q, σ2.cols q = τ.cols q := fun q => by
    show σ2.list (σ2.row q).list = _
    rw [hrow, hlist]; rfl
  have hvar : ∀ (j : Nat) (name : String) (tys : List Ty), (U m u)[j]? = some (name, tys) → ∃ n l, target.id < n ∧
      cases0[j]? = some (Cons.variant j name, mkVars n l tys, []) := by
    intro (j : Nat) name tys h
    obtain ⟨n, l, h1, h2⟩ := hopen j (.variant j name) tys (by
      rw [hks, variantCons_get, h]; simp)
    rw [s.nVars] at h1
    exact ⟨n, l, h1, h2⟩
  obtain ⟨raw, σ3, hsp, hb3, w3, hnr3, hrow3, _, hnone3, hrl, hcase⟩ := spread_ask (v := target)
    (ask := askOf arms) (List.range arms.length) (cases := cases0) (σ := σ2) w2 List.nodup_range
    (fun r hr => by rw [hnr, s.nRows]; exact List.mem_range.1 hr)
    (by rw [hrow]; exact s.sep)
    (fun r hr => by
      obtain ⟨_, _, h, _⟩ := hask r (List.mem_range.1 hr)
      rw [hcols2]; exact h)
    (fun r hr tag args h => by
      obtain ⟨_, _, _, _, h'⟩ := hask r (List.mem_range.1 hr)
      rw [hclen]; exact h' tag args h)
  have hn2 : σ2.nRows = arms.length := by rw [hnr, s.nRows]
  rw [hn2] at hcase hnr3 hrow3
  -- every case
  have hcases : ∀ j, j < (U m u).length → ∃ name tys n l, (U m u)[j]? = some (name, tys) ∧
      target.id < n ∧
      raw[j]? = some (Cons.variant j name, mkVars n l tys, newIds (askOf arms) j (List.range arms.length) arms.length) ∧
      (∀ q ∈ newIds (askOf arms) j (List.range arms.length) arms.length, q < σ3.nRows) ∧
      (newIds (askOf arms) j (List.range arms.length) arms.length).map
          (fun q => ((σ3.row q).arm, σ3.cols q)) =
        ((List.range arms.length).filter (goes (askOf arms) j)).map
          fun r => (r, caseCols (mkVars n l tys) (askOf arms r)) := by
    intro j hj
    obtain ⟨⟨name, tys⟩, hu⟩ : ∃ a, (U m u)[j]? = some a := ⟨_, List.getElem?_eq_getElem hj⟩
    obtain ⟨n, l, h1, h2⟩ := hvar j name tys hu
    obtain ⟨a, b, c⟩ := hcase j _ _ _ h2
    refine ⟨name, tys, n, l, hu, h1, by simpa using a, b, ?_⟩
    rw [c]
    apply List.map_congr_left
    intro r hr
    rw [hrow, s.arm r (List.mem_range.1 (List.mem_filter.1 hr).1)]
  have hrawlen : raw.length = (U m u).length := hrl.trans hclen
  have hraw : ∀ (j : Nat) (c : RawCase), raw[j]? = some c → ∃ name tys n l, (U m u)[j]? = some (name, tys) ∧
      target.id < n ∧ c = (Cons.variant j name, mkVars n l tys,
        newIds (askOf arms) j (List.range arms.length) arms.length) ∧
      (∀ q ∈ newIds (askOf arms) j (List.range arms.length) arms.length, q < σ3.nRows) ∧
      (newIds (askOf arms) j (List.range arms.length) arms.length).map
          (fun q => ((σ3.row q).arm, σ3.cols q)) =
        ((List.range arms.length).filter (goes (askOf arms) j)).map
          fun r => (r, caseCols (mkVars n l tys) (askOf arms r)) := by
    intro j c h
    have hj : j < (U m u).length := by
      rw [← hrawlen]; exact (List.getElem?_eq_some_iff.1 h).1
    obtain ⟨name, tys, n, l, a, b, c', d, e⟩ := hcases j hj
    rw [h] at c'
    exact ⟨name, tys, n, l, a, b, Option.some.inj c', d, e⟩
  refine ⟨raw, σ3, ?_, ?_, w3, ?_, hnone3, hrawlen, hraw⟩
  · intro ts σ4 hcc
    rw [hids] at hτ hsp ⊢
    show branch U (compileRows U ((arms.map MPat.size).sum + 1)) 0 _ (moveAll _ _) = _
    rw [hτ]
    unfold branch
    rw [hc0]
    have hbv : branchVar τ (0 :: List.range' 1 arms'.length) ⟨target, .adt (some tag0) args0⟩ [] =
      target := rfl
    simp only [hbv]
    rw [if_pos hfin, hoc]
    simp only
    rw [hsp]
    simp only
    rw [hcc]
  · intro t σ4 h
    rw [hids] at hτ hsp h
    have h' : branch U (compileRows U ((arms.map MPat.size).sum + 1)) 0
      (List.range' 1 arms'.length) (moveAll _ _) = _ := h
    rw [hτ] at h'
    unfold branch at h'
    rw [hc0] at h'
    have hbv : branchVar τ (0 :: List.range' 1 arms'.length) ⟨target, .adt (some tag0) args0⟩ [] =
      target := rfl
    simp only [hbv] at h'
    rw [if_pos hfin, hoc] at h'
    simp only at h'
    rw [hsp] at h'
    simp only at h'
    cases hcc : compileCases (compileRows U ((arms.map MPat.size).sum + 1)) raw σ3 with
    | error e => rw [hcc] at h'; cases h'
    | ok q =>
      obtain ⟨ts, σ5⟩ := q
      rw [hcc] at h'
      cases h'
      exact ⟨ts, rfl, rfl⟩
  · intro r p hp
    rw [hb3, hbb]
    exact s.binds r p hp

/-- The rows of an earlier and a later case, as far as they are shared, have no columns. -/
theorem Opened.pairwise {U target m u arms names raw σ3} (o : Opened U target m u arms names raw σ3) :
    raw.Pairwise fun c d => ∀ r ∈ d.2.2, r ∉ c.2.2 ∨ σ3.cols r = [] := by
  rw [List.pairwise_iff_getElem]
  intro i j hi hj hij r hr
  obtain ⟨_, _, _, _, _, _, e1, _⟩ := o.case i raw[i] (List.getElem?_eq_getElem hi)
  obtain ⟨_, _, _, _, _, _, e2, _⟩ := o.case j raw[j] (List.getElem?_eq_getElem hj)
  rw [e2] at hr
  rw [e1]
  by_cases hm : r ∈ newIds (askOf arms) i (List.range arms.length) arms.length
  · obtain ⟨a, b⟩ := newIds_disjoint (Nat.ne_of_lt hij) (fun r => List.mem_range.1) hm hr
    exact .inr (o.none r a b)
  · exact .inl hm

/-- An `iguala` on a union whose arms are tame for every variant. -/
theorem correct_union {U : Unions} {target : MVar} {m u : String} (hty : target.ty = .uniao m u)
    {arms : List MPat} (hf : ∀ p ∈ arms, FlatArm U (.uniao m u) p)
    (ht : ∀ tag, Tame (tagRows tag arms)) {names : List String} (hfr : Fresh names) :
    ∃ mt, compile U target arms names = .ok mt ∧ Correct U target arms mt := by
  cases arms with
  | nil => exact correct_nil U target names
  | cons p0 arms' =>
  cases p0 with
  | bind x => exact correct_name U target x arms' names
  | int k =>
    rcases hf _ (List.mem_cons_self ..) with h | ⟨_, _, _, _, _, _, _, e, _⟩
    · rcases h with ⟨x, e⟩ | ⟨_, e⟩ | ⟨⟨s, e⟩, _⟩ <;> cases e
    · cases e
  | str k =>
    rcases hf _ (List.mem_cons_self ..) with h | ⟨_, _, _, _, _, _, _, e, _⟩
    · rcases h with ⟨x, e⟩ | ⟨⟨s, e⟩, _⟩ | ⟨_, e⟩ <;> cases e
    · cases e
  | adt t0 args0 =>
  obtain ⟨tag0, rfl⟩ : ∃ tag, t0 = some tag := by
    rcases hf _ (List.mem_cons_self ..) with h | ⟨_, _, tag, _, _, _, _, e, _⟩
    · rcases h with ⟨x, e⟩ | ⟨⟨n, e⟩, _⟩ | ⟨⟨s, e⟩, _⟩ <;> cases e
    · cases e; exact ⟨tag, rfl⟩
  obtain ⟨raw, σ3, o⟩ := opened hty (names := names) rfl hf hfr
  generalize harms : MPat.adt (some tag0) args0 :: arms' = arms at *
  have hraw := o.case
  have w3 := o.wf
  have hnone3 := o.none
  have hask := ask_flat hf target
  have hrawlen := o.len
  have hcases : ∀ j, j < (U m u).length → ∃ name tys n l, (U m u)[j]? = some (name, tys) ∧
      target.id < n ∧
      raw[j]? = some (Cons.variant j name, mkVars n l tys, newIds (askOf arms) j (List.range arms.length) arms.length) ∧
      (∀ q ∈ newIds (askOf arms) j (List.range arms.length) arms.length, q < σ3.nRows) ∧
      (newIds (askOf arms) j (List.range arms.length) arms.length).map
          (fun q => ((σ3.row q).arm, σ3.cols q)) =
        ((List.range arms.length).filter (goes (askOf arms) j)).map
          fun r => (r, caseCols (mkVars n l tys) (askOf arms r)) := by
    intro j hj
    rw [← hrawlen] at hj
    obtain ⟨name, tys, n, l, a, b, c', d, e⟩ := hraw j raw[j] (List.getElem?_eq_getElem hj)
    exact ⟨name, tys, n, l, a, b, by rw [List.getElem?_eq_getElem hj, c'], d, e⟩
  have hlt : ∀ r ∈ List.range arms.length, r < arms.length := fun r => List.mem_range.1
  have hP1 : raw.Pairwise (fun c d => ∀ r ∈ d.2.2,
      Keep (compileRows U ((arms.map MPat.size).sum + 1)) σ3.cols (fun r => (σ3.row r).arm) c.2.2 r) := by
    refine o.pairwise.imp fun h r hr => ?_
    exact Keep.of_fr (compileRows_fr U _) (h r hr)
  have hP3 : ∀ c ∈ raw, Has σ3.cols (fun r => (σ3.row r).arm) σ3 c.2.2 := by
    intro c hc r hr
    obtain ⟨j, hj⟩ := List.mem_iff_getElem?.1 hc
    obtain ⟨_, _, _, _, _, _, rfl, hb, _⟩ := hraw j c hj
    exact ⟨hb r hr, rfl, rfl⟩
  have hP2 : ∀ c ∈ raw, ∀ σ, σ.Wf → Has σ3.cols (fun r => (σ3.row r).arm) σ c.2.2 →
      ∃ t σ', compileRows U ((arms.map MPat.size).sum + 1) c.2.2 σ = .ok (t, σ') ∧
        σ'.bindings = (fun i => σ.bindings i ++ made σ3.cols (fun r => (σ3.row r).arm) c.2.2 i) ∧
        ∀ (n l : Nat) (tys : List Ty) (vs : List V) (env : Env),
          (∃ name, (U m u)[match c.1 with | .variant i _ => i | _ => 0]? = some (name, tys)) →
          c.2.1 = mkVars n l tys → vs.length = tys.length →
          Ans (setArgs env c.2.1 vs) t (firstSat (setArgs env c.2.1 vs) (c.2.2.map fun r =>
            ((σ3.row r).arm, (splitCols (σ3.cols r)).1.map litKey))) := by
    intro c hc σ w hh
    obtain ⟨j, hj⟩ := List.mem_iff_getElem?.1 hc
    obtain ⟨name, tys, n, l, hu, hnt, rfl, hb, hview⟩ := hraw j c hj
    obtain ⟨v1, v2⟩ := view_tests (n := n) (l := l) hu arms arms 0 (by simp) hf
    rw [← List.range_eq_range'] at v1 v2
    have hnd : (newIds (askOf arms) j (List.range arms.length) arms.length).Nodup :=
      newIds_nodup List.nodup_range hlt
    generalize newIds (askOf arms) j (List.range arms.length) arms.length = ids at *
    have hcolsIn : ∀ q ∈ ids, ∃ r ∈ (List.range arms.length).filter (goes (askOf arms) j),
        σ3.cols q = caseCols (mkVars n l tys) (askOf arms r) := by
      intro q hq
      have : ((σ3.row q).arm, σ3.cols q) ∈ ids.map (fun q => ((σ3.row q).arm, σ3.cols q)) :=
        List.mem_map.2 ⟨q, hq, rfl⟩
      rw [hview] at this
      obtain ⟨r, hr, e⟩ := List.mem_map.1 this
      exact ⟨r, hr, (Prod.mk.inj e).2.symm⟩
    have htests : ids.map (fun r => (splitCols (σ3.cols r)).1.map litKey) =
        (tagRows j arms).map (shift (n + ·)) := by
      rw [← v1]
      have := congrArg (List.map fun a : Nat × List Col => (splitCols a.2).1.map litKey) hview
      simpa [List.map_map, Function.comp_def] using this
    obtain ⟨t, σ', g1, g2, g3⟩ := lits_ok U (mkVars_apart n l tys)
      ((ht j).shift (f := (n + ·)) (fun a b h => by simpa using h))
      ((arms.map MPat.size).sum + 1) ids σ w hnd (fun r hr => (hh r hr).1)
      (fun r hr => by
        rw [(hh r hr).2.1]
        obtain ⟨r', hr', e⟩ := hcolsIn r hr
        rw [e]; exact v2 r' hr')
      (by
        rw [← htests]
        apply List.map_congr_left
        intro r hr
        rw [(hh r hr).2.1])
      (by
        have h1 := total_tagRows (U := U) (ty := .uniao m u) j hf
        have h2 : total ((tagRows j arms).map (shift (n + ·))) = total (tagRows j arms) := by
          simp [total, List.map_map, Function.comp_def, shift]
        omega)
    refine ⟨t, σ', g1, ?_, ?_⟩
    · rw [g2]
      funext i
      rw [moveAll_bind ids w hnd (fun r hr => (hh r hr).1) i]
      congr 1
      exact made_congr (fun r hr => ⟨(hh r hr).2.1, (hh r hr).2.2⟩) i
    · intro n' l' tys' vs env hname hvs hlen'
      obtain ⟨name', e2⟩ := hname
      simp only at e2 hvs ⊢
      rw [hu] at e2
      cases e2
      have := g3 (setArgs env (mkVars n l tys) vs) (setArgs_def env hlen')
      rw [show (ids.map fun r => ((σ.row r).arm, (splitCols (σ.cols r)).1.map litKey)) =
        ids.map fun r => ((σ3.row r).arm, (splitCols (σ3.cols r)).1.map litKey) from
        List.map_congr_left fun r hr => by rw [(hh r hr).2.1, (hh r hr).2.2]] at this
      exact this
  obtain ⟨ts, σ4, hcc, hb4, _, htrees, _⟩ := compileCases_ok
    (compileRows_fr U ((arms.map MPat.size).sum + 1)) σ3.cols (fun r => (σ3.row r).arm)
    (fun c b => fun i => b i ++ made σ3.cols (fun r => (σ3.row r).arm) c.2.2 i)
    (fun c t => ∀ (n l : Nat) (tys : List Ty) (vs : List V) (env : Env),
          (∃ name, (U m u)[match c.1 with | .variant i _ => i | _ => 0]? = some (name, tys)) →
          c.2.1 = mkVars n l tys → vs.length = tys.length →
          Ans (setArgs env c.2.1 vs) t (firstSat (setArgs env c.2.1 vs) (c.2.2.map fun r =>
            ((σ3.row r).arm, (splitCols (σ3.cols r)).1.map litKey))))
    raw hP1 hP2 (σ := σ3) w3 hP3
  have hres := o.run hcc
  have hmiss := compileRows_missing U _ hres
  unfold compile
  rw [hres]
  refine ⟨_, rfl, ?_⟩
  -- the selection
  have hbinds : ∀ i < arms.length, ∀ (j : Nat) (name : String) (tys : List Ty) (n l : Nat), goes (askOf arms) j i = true →
      (U m u)[j]? = some (name, tys) → raw[j]? = some (Cons.variant j name, mkVars n l tys,
        newIds (askOf arms) j (List.range arms.length) arms.length) →
      σ4.bindings i = bindsOf target (mkVars n l tys) arms i := by
    intro i hi j name tys n l hg hu hrj
    rw [hb4, foldl_made]
    obtain ⟨p, hp, _, hpn, _⟩ := hask i hi
    rw [o.binds i p hp]
    have hmade : ∀ (j : Nat) (c : RawCase), raw[j]? = some c → ∀ n l tys name,
        c.2.1 = mkVars n l tys → (U m u)[j]? = some (name, tys) →
        made σ3.cols (fun r => (σ3.row r).arm) c.2.2 i =
          if goes (askOf arms) j i then (splitCols (caseCols c.2.1 (askOf arms i))).2 else [] := by
      intro j c hj n l tys name _ _
      obtain ⟨name', tys', n', l', _, _, rfl, _, hview⟩ := hraw j c hj
      rw [made_view hview, filter_one List.nodup_range i (List.mem_range.2 hi)]
      by_cases hgg : goes (askOf arms) j i = true
      · rw [if_pos hgg, if_pos hgg]; simp
      · rw [if_neg hgg, if_neg hgg]; rfl
    have hmade' : ∀ (j : Nat) (c : RawCase), raw[j]? = some c →
        made σ3.cols (fun r => (σ3.row r).arm) c.2.2 i =
          if goes (askOf arms) j i then (splitCols (caseCols c.2.1 (askOf arms i))).2 else [] := by
      intro j c hj
      obtain ⟨name', tys', n', l', h1, _, h2, _⟩ := hraw j c hj
      exact hmade j c hj n' l' tys' name' (by rw [h2]) h1
    cases ha : askOf arms i with
    | none =>
      obtain ⟨x, rfl⟩ := hpn ha
      rw [flatMap_none, List.append_nil]
      · unfold bindsOf; rw [hp]; rfl
      · intro c hc
        obtain ⟨j', hj'⟩ := List.mem_iff_getElem?.1 hc
        rw [hmade' j' c hj', ha]
        simp [caseCols, splitCols]
    | some q =>
      obtain ⟨tag, args⟩ := q
      have htj : tag = j := by simpa [goes, ha] using hg
      subst htj
      rw [flatMap_only hrj, hmade' tag _ hrj, if_pos hg, ha]
      · have hpa : p = .adt (some tag) args := by
          unfold askOf at ha
          rw [hp] at ha
          cases p with
          | adt t a =>
            cases t with
            | none => cases ha
            | some t => cases ha; rfl
          | _ => cases ha
        subst hpa
        unfold bindsOf
        rw [hp]
        simp [splitCols, caseCols]
      · intro j' c hj' hne
        rw [hmade' j' c hj', if_neg (by simpa [goes, ha] using fun h => hne h.symm)]
  have main : ∀ v, HasTy U v target.ty →
      selects target ⟨.switch target ts none, σ4.bindings, σ4.missing, σ4.reachable, σ4.names⟩ v =
        firstMatch arms 0 v ∧
      (σ4.missing = false → (firstMatch arms 0 v).isSome = true) := by
    intro v hv
    rw [hty] at hv
    cases hv with
    | any _ h => exact absurd rfl (h m u)
    | @variant _ _ tag name tys vs hu hvs =>
    have hlen' := hasTys_length hvs
    have htl : tag < (U m u).length := (List.getElem?_eq_some_iff.1 hu).1
    obtain ⟨name', tys', n, l, hu', hnt, hrj, hb, hview⟩ := hcases tag htl
    rw [hu] at hu'
    cases hu'
    let env : Env := fun i => if i = target.id then some (.variant tag vs) else none
    have henv : env target.id = some (.variant tag vs) := by simp [env]
    obtain ⟨t, hQ, hrun, hcf⟩ := runCases_found (env := env) (fb := none) (x := .variant tag vs)
      (vs := vs) htrees hrj (by simp [parts]) (by
        intro i hi d hd
        obtain ⟨_, _, _, _, _, _, rfl, _⟩ := hraw i d hd
        have : tag ≠ i := by omega
        simp [fits, parts, this])
    have hans := hQ n l tys vs env ⟨name, hu⟩ rfl hlen'
    simp only at hans hrun
    have hrows : ((newIds (askOf arms) tag (List.range arms.length) arms.length).map fun r =>
        ((σ3.row r).arm, (splitCols (σ3.cols r)).1.map litKey)) =
        ((List.range arms.length).filter (goes (askOf arms) tag)).map fun r =>
          (r, (splitCols (caseCols (mkVars n l tys) (askOf arms r))).1.map litKey) := by
      have := congrArg (List.map fun a : Nat × List Col => (a.1, (splitCols a.2).1.map litKey)) hview
      simpa [List.map_map, Function.comp_def] using this
    rw [hrows] at hans
    have hfv := first_view (l := l) hu hlen' henv hnt arms arms 0 (by simp) hf
    rw [← List.range_eq_range'] at hfv
    have hsel : run env (.switch target ts none) = run (setArgs env (mkVars n l tys) vs) t := by
      rw [run, henv]; exact hrun
    generalize firstSat (setArgs env (mkVars n l tys) vs)
      (((List.range arms.length).filter (goes (askOf arms) tag)).map fun r =>
          (r, (splitCols (caseCols (mkVars n l tys) (askOf arms r))).1.map litKey)) = o at hans hfv
    have hfl : σ4.missing = false → o.isSome = true := by
      intro h
      rw [hmiss] at h
      have h' : (MTree.switch target ts none).hasFail = false := by
        cases hh : (MTree.switch target ts none).hasFail with
        | false => rfl
        | true => rw [hh] at h; simp at h
      exact hans.2 (hcf (by simpa [MTree.hasFail] using h'))
    unfold selects
    show (match run env _ with | none => none | some (arm, env) => _) = _ ∧ _
    rw [hsel, hans.1]
    cases o with
    | none =>
      simp only at hfv
      refine ⟨by rw [hfv]; rfl, fun h => by cases hfl h⟩
    | some a =>
      simp only at hfv
      obtain ⟨⟨_, ha, hg⟩, bs, hfm, hnv⟩ := hfv
      rw [hfm]
      refine ⟨?_, fun _ => rfl⟩
      simp only [Option.map_some]
      rw [hbinds a (by omega) tag name tys n l hg hu hrj, hnv]
      rfl
  exact ⟨fun v hv => (main v hv).1, fun hm v hv => (main v hv).2 hm⟩

end Amanda.Iguala

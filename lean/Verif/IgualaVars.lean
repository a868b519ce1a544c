import Verif.IgualaTame
import Std.Data.String.ToNat

/-!
# Places, variables and rows of the cases of a union
-/

namespace Amanda.Iguala

/-! ## Tame rows under another numbering of the places -/

/-- A row with its places renumbered. -/
def shift (f : Nat → Nat) (r : LRow) : LRow := r.map fun a => (f a.1, a.2)

theorem popL_shift {f : Nat → Nat} (hf : ∀ a b, f a = f b → a = b) (p : Nat) : ∀ (r : LRow),
    popL (f p) (shift f r) = (popL p r).map fun a => (a.1, shift f a.2)
  | [] => rfl
  | (q, k) :: r => by
    have ih := popL_shift hf p r
    show popL (f p) ((f q, k) :: shift f r) = _
    unfold popL
    by_cases e : q = p
    · rw [if_pos (by rw [e]), if_pos e]; rfl
    · rw [if_neg (fun h => e (hf _ _ h)), if_neg e, ih]
      cases popL p r with
      | none => rfl
      | some a => rfl

theorem countL_shift {f : Nat → Nat} (hf : ∀ a b, f a = f b → a = b) (rows : List LRow) (p : Nat) :
    countL (rows.map (shift f)) (f p) = countL rows p := by
  unfold countL
  rw [List.map_map]
  congr 1
  apply List.map_congr_left
  intro r hr
  clear hr
  simp only [Function.comp, shift]
  induction r with
  | nil => rfl
  | cons a r ih =>
    simp only [List.map_cons, List.filter_cons]
    have : (f a.1 == f p) = (a.1 == p) := by
      by_cases e : a.1 = p
      · simp [e]
      · have h1 : f a.1 ≠ f p := fun h => e (hf _ _ h)
        rw [beq_false_of_ne h1, beq_false_of_ne e]
    rw [this]
    by_cases h : (a.1 == p) = true
    · rw [if_pos h, if_pos h]; simp [ih]
    · rw [if_neg h, if_neg h]; exact ih

theorem maxL_shift {f : Nat → Nat} {key key' : Nat → Nat} (h : ∀ p, key' (f p) = key p) :
    ∀ (ps : List Nat) (b : Nat), maxL key' (f b) (ps.map f) = f (maxL key b ps)
  | [], _ => rfl
  | p :: ps, b => by
    rw [List.map_cons]
    unfold maxL
    rw [h, h]
    by_cases e : key p > key b
    · rw [if_pos e, if_pos e]; exact maxL_shift h ps p
    · rw [if_neg e, if_neg e]; exact maxL_shift h ps b

theorem pickL_shift {f : Nat → Nat} (hf : ∀ a b, f a = f b → a = b) (rows : List LRow) :
    pickL (rows.map (shift f)) = (pickL rows).map f := by
  cases rows with
  | nil => rfl
  | cons r rs =>
    cases r with
    | nil => rfl
    | cons a r =>
      have h := maxL_shift (f := f) (key := countL ((a :: r) :: rs))
        (key' := countL (((a :: r) :: rs).map (shift f)))
        (fun p => countL_shift hf ((a :: r) :: rs) p) (r.map (·.1)) a.1
      show some (maxL (countL (((a :: r) :: rs).map (shift f))) (f a.1)
        ((shift f r).map (·.1))) = some (f (maxL _ a.1 (r.map (·.1))))
      rw [← h]
      simp [shift, List.map_map, Function.comp_def]

theorem Tame.shift {f : Nat → Nat} (hf : ∀ a b, f a = f b → a = b) {rows : List LRow}
    (h : Tame rows) : Tame (rows.map (Iguala.shift f)) := by
  induction h with
  | nil => exact .nil
  | leaf => exact .leaf
  | @single p k0 ks fb h1 _ ih =>
    rw [List.map_append, List.map_map]
    refine Tame.single (p := f p) ?_ ih
    intro r hr
    obtain ⟨s, hs, rfl⟩ := List.mem_map.1 hr
    rw [popL_shift hf, h1 s hs]; rfl
  | @block p k0 r0 ws rows fb h1 h2 h3 h4 _ ih =>
    rw [List.map_append]
    refine Tame.block (p := f p) (k0 := k0) (r0 := Iguala.shift f r0)
      (ws := ws.map fun a => (a.1, Iguala.shift f a.2)) ?_ ?_ ?_ ?_ ?_
    · rw [List.map_map]
      have : (popL (f p) ∘ Iguala.shift f) =
          (fun o => o.map fun a => (a.1, Iguala.shift f a.2)) ∘ popL p := by
        funext r; exact popL_shift hf p r
      rw [this, ← List.map_map, h1]
      simp [Function.comp_def]
    · rw [← List.map_append, pickL_shift hf, h2]; rfl
    · intro r hr
      obtain ⟨s, hs, rfl⟩ := List.mem_map.1 hr
      rw [h3 s hs]; rfl
    · rw [show (k0, Iguala.shift f r0) :: ws.map (fun a => (a.1, Iguala.shift f a.2)) =
        ((k0, r0) :: ws).map (fun a => (a.1, Iguala.shift f a.2)) from rfl, List.pairwise_map]
      refine h4.imp ?_
      intro a b hab he
      rcases hab he with h | ⟨h, h'⟩
      · exact .inl h
      · refine .inr ⟨?_, ?_⟩
        · show Iguala.shift f a.2 = []
          rw [h]; rfl
        · show Iguala.shift f b.2 = []
          rw [h']; rfl
    · intro a ha
      rw [show (k0, Iguala.shift f r0) :: ws.map (fun a => (a.1, Iguala.shift f a.2)) =
        ((k0, r0) :: ws).map (fun a => (a.1, Iguala.shift f a.2)) from rfl] at ha ⊢
      obtain ⟨b, hb, rfl⟩ := List.mem_map.1 ha
      have := ih b hb
      rw [List.map_append, List.map_map] at this
      rw [List.filter_map, List.map_map]
      exact this

/-! ## Argument variables -/

/-- The name of a variable made by `new_unique_var`. -/
def rname (n : Nat) : String := "_r" ++ toString n ++ "_"

theorem rname_inj {a b : Nat} (h : rname a = rname b) : a = b := by
  have h1 := congrArg String.toList h
  simp only [rname, String.toList_append] at h1
  have h2 := List.append_cancel_left (List.append_cancel_right h1)
  exact Nat.repr_injective (String.toList_injective h2)

/-- The names that `new_unique_var` will make are not taken. -/
def Fresh (names : List String) : Prop := ∀ k, names.length ≤ k → rname k ∉ names

/-- Variables numbered from `n`, named from `l` on. -/
def mkVars (n l : Nat) : List Ty → List MVar
  | [] => []
  | t :: ts => ⟨n, rname l, t⟩ :: mkVars (n + 1) (l + 1) ts

theorem newVar_fresh {σ : PState} (h : Fresh σ.names) (t : Ty) :
    newVar σ t = (⟨σ.nVars, rname σ.names.length, t⟩,
      { σ with names := σ.names ++ [rname σ.names.length], nVars := σ.nVars + 1 }) ∧
    Fresh (σ.names ++ [rname σ.names.length]) := by
  refine ⟨?_, ?_⟩
  · unfold newVar
    have := h σ.names.length (Nat.le_refl _)
    unfold rname at this ⊢
    simp only [if_neg this]
  · intro k hk hm
    rw [List.length_append] at hk
    simp only [List.length_singleton] at hk
    rcases List.mem_append.1 hm with hm | hm
    · exact h k (Nat.le_of_succ_le hk) hm
    · have := rname_inj (List.mem_singleton.1 hm)
      omega

theorem newVars_fresh : ∀ (ts : List Ty) {σ : PState}, Fresh σ.names →
    (newVars σ ts).1 = mkVars σ.nVars σ.names.length ts ∧ Fresh (newVars σ ts).2.names ∧
    σ.nVars ≤ (newVars σ ts).2.nVars
  | [], σ, h => ⟨rfl, h, Nat.le_refl _⟩
  | t :: ts, σ, h => by
    obtain ⟨e, h'⟩ := newVar_fresh h t
    unfold newVars
    rw [e]
    simp only
    obtain ⟨a, b, c⟩ := newVars_fresh ts (σ := { σ with
      names := σ.names ++ [rname σ.names.length], nVars := σ.nVars + 1 }) h'
    refine ⟨?_, b, Nat.le_of_succ_le c⟩
    rw [a]
    simp [mkVars]

theorem openCases_fresh : ∀ (ks : List (Cons × List Ty)) {σ : PState}, Fresh σ.names →
    ∀ {j : Nat} {k : Cons} {tys : List Ty}, ks[j]? = some (k, tys) →
    ∃ n l, σ.nVars ≤ n ∧ (openCases σ ks).1[j]? = some (k, mkVars n l tys, [])
  | [], _, _, j, _, _, h => by simp at h
  | (c, ts) :: ks, σ, hf, j, k, tys, h => by
    obtain ⟨h1, h2, h3⟩ := newVars_fresh ts hf
    unfold openCases
    simp only
    cases j with
    | zero =>
      cases h
      exact ⟨σ.nVars, σ.names.length, Nat.le_refl _, by simp [h1]⟩
    | succ j =>
      obtain ⟨n, l, a, b⟩ := openCases_fresh ks h2 (j := j) (k := k) (tys := tys) (by simpa using h)
      exact ⟨n, l, Nat.le_trans h3 a, by simpa using b⟩

theorem openCases_length : ∀ (ks : List (Cons × List Ty)) (σ : PState),
    (openCases σ ks).1.length = ks.length
  | [], _ => rfl
  | (c, ts) :: ks, σ => by
    unfold openCases
    simp [openCases_length ks]

theorem variantCons_get : ∀ (us : List (String × List Ty)) (i j : Nat),
    (variantCons i us)[j]? = (us[j]?).map fun a => (.variant (i + j) a.1, a.2)
  | [], _, _ => by simp [variantCons]
  | (n, ts) :: us, i, 0 => by simp [variantCons]
  | (n, ts) :: us, i, j + 1 => by
    simp only [variantCons, List.getElem?_cons_succ]
    rw [variantCons_get us (i + 1) j]
    congr 1
    funext a
    congr 2
    omega

theorem variantCons_length : ∀ (us : List (String × List Ty)) (i : Nat),
    (variantCons i us).length = us.length
  | [], _ => rfl
  | _ :: us, i => by simp [variantCons, variantCons_length us]

theorem mkVars_mem : ∀ {ts : List Ty} {n l : Nat} {v : MVar}, v ∈ mkVars n l ts →
    ∃ i t, ts[i]? = some t ∧ v = ⟨n + i, rname (l + i), t⟩
  | t :: ts, n, l, v, h => by
    rcases List.mem_cons.1 h with e | e
    · exact ⟨0, t, rfl, e⟩
    · obtain ⟨i, t', h1, h2⟩ := mkVars_mem e
      refine ⟨i + 1, t', h1, ?_⟩
      rw [h2]
      congr 1
      · omega
      · congr 1; omega

/-- The argument variables of a case are told apart. -/
theorem mkVars_apart (n l : Nat) (ts : List Ty) : Apart (· ∈ mkVars n l ts) := by
  intro a b ha hb
  obtain ⟨i, t, _, rfl⟩ := mkVars_mem ha
  obtain ⟨j, u, _, rfl⟩ := mkVars_mem hb
  unfold MVar.same
  constructor
  · intro h
    simp only [Bool.or_eq_true, beq_iff_eq, Bool.and_eq_true] at h
    rcases h with h | h
    · exact h
    · have := rname_inj h.1
      show n + i = n + j
      omega
  · intro h
    have h' : n + i = n + j := h
    simp [h']

/-! ## The tests of the patterns inside a variant -/

/-- The literals among patterns, with their places from `i` on. -/
def litArgs : Nat → List MPat → LRow
  | _, [] => []
  | i, p :: ps =>
    match litCons p with
    | some k => (i, k) :: litArgs (i + 1) ps
    | none => litArgs (i + 1) ps

/-- Names and literals that suit a type. -/
def FlatSub (p : MPat) (t : Ty) : Prop :=
  (∃ x, p = .bind x) ∨ (∃ n, p = .int n) ∧ t = .int ∨ (∃ s, p = .str s) ∧ t = .texto

/-- Names and literals that suit a list of types of the same length. -/
inductive FlatSubs : List MPat → List Ty → Prop where
  | nil : FlatSubs [] []
  | cons {p t ps ts} : FlatSub p t → FlatSubs ps ts → FlatSubs (p :: ps) (t :: ts)

theorem FlatSub.litTy {p : MPat} {t : Ty} (h : FlatSub p t) {k : Cons} (hk : litCons p = some k) :
    Iguala.litTy t = true := by
  rcases h with ⟨x, rfl⟩ | ⟨⟨n, rfl⟩, rfl⟩ | ⟨⟨s, rfl⟩, rfl⟩
  · cases hk
  · rfl
  · rfl

/-- The columns of a row for a variant's patterns. -/
def argCols (vs : List MVar) (args : List MPat) : List Col :=
  (vs.zip args).map fun (v, p) => Col.mk v p

theorem split_args : ∀ {args : List MPat} {ts : List Ty}, FlatSubs args ts → ∀ (n l i b : Nat),
    n = b + i →
    (splitCols (argCols (mkVars n l ts) args)).1.map litKey = shift (b + ·) (litArgs i args) ∧
    (∀ c ∈ (splitCols (argCols (mkVars n l ts) args)).1,
      c.v ∈ mkVars n l ts ∧ (litCons c.pat).isSome = true ∧ litTy c.v.ty = true)
  | [], [], .nil, n, l, i, b, _ => ⟨rfl, by intro c hc; cases hc⟩
  | p :: ps, t :: ts, .cons hp hps, n, l, i, b, hn => by
    obtain ⟨ih1, ih2⟩ := split_args hps (n + 1) (l + 1) (i + 1) b (by omega)
    have e : argCols (mkVars n l (t :: ts)) (p :: ps) =
      ⟨⟨n, rname l, t⟩, p⟩ :: argCols (mkVars (n + 1) (l + 1) ts) ps := rfl
    rw [e]
    have keep : ∀ k, litCons p = some k →
        (splitCols (⟨⟨n, rname l, t⟩, p⟩ :: argCols (mkVars (n + 1) (l + 1) ts) ps)).1 =
          ⟨⟨n, rname l, t⟩, p⟩ :: (splitCols (argCols (mkVars (n + 1) (l + 1) ts) ps)).1 := by
      intro k hk
      cases p with
      | int => rfl
      | str => rfl
      | bind => cases hk
      | adt => cases hk
    have old : ∀ c ∈ (splitCols (argCols (mkVars (n + 1) (l + 1) ts) ps)).1,
        c.v ∈ mkVars n l (t :: ts) ∧ (litCons c.pat).isSome = true ∧ litTy c.v.ty = true :=
      fun c hc => ⟨List.mem_cons_of_mem _ (ih2 c hc).1, (ih2 c hc).2⟩
    cases hk : litCons p with
    | some k =>
      rw [keep k hk]
      refine ⟨?_, ?_⟩
      · rw [List.map_cons, ih1]
        rw [show litArgs i (p :: ps) = (i, k) :: litArgs (i + 1) ps by rw [litArgs, hk]]
        simp only [shift, List.map_cons, litKey, hk, Option.getD_some, hn]
      · intro c hc
        rcases List.mem_cons.1 hc with rfl | hc
        · exact ⟨List.mem_cons_self .., by rw [hk]; rfl, hp.litTy hk⟩
        · exact old c hc
    | none =>
      have hb : ∃ x, p = .bind x := by
        rcases hp with h | ⟨⟨n, rfl⟩, _⟩ | ⟨⟨s, rfl⟩, _⟩
        · exact h
        · cases hk
        · cases hk
      obtain ⟨x, rfl⟩ := hb
      have e2 : (splitCols (⟨⟨n, rname l, t⟩, .bind x⟩ :: argCols (mkVars (n + 1) (l + 1) ts) ps)).1 =
          (splitCols (argCols (mkVars (n + 1) (l + 1) ts) ps)).1 := rfl
      rw [e2]
      refine ⟨?_, old⟩
      rw [ih1]
      conv => rhs; unfold litArgs
      rw [hk]

/-- The values of the argument variables. -/
theorem setArgs_lt : ∀ {ts : List Ty} {n l : Nat} {vs : List V} (env : Env) (i : Nat), i < n →
    setArgs env (mkVars n l ts) vs i = env i
  | [], _, _, _, _, _, _ => by simp [mkVars, setArgs]
  | t :: ts, n, l, [], env, i, h => by simp [mkVars, setArgs]
  | t :: ts, n, l, v :: vs, env, i, h => by
    show setArgs (upd env n (some v)) (mkVars (n + 1) (l + 1) ts) vs i = _
    rw [setArgs_lt _ i (Nat.lt_succ_of_lt h), upd_ne _ _ (Nat.ne_of_lt h)]

theorem setArgs_def : ∀ {ts : List Ty} {n l : Nat} {vs : List V} (env : Env),
    vs.length = ts.length → Def (· ∈ mkVars n l ts) (setArgs env (mkVars n l ts) vs)
  | [], _, _, _, _, _, v, hv => by cases hv
  | t :: ts, n, l, x :: vs, env, h, v, hv => by
    show ∃ y, setArgs (upd env n (some x)) (mkVars (n + 1) (l + 1) ts) vs v.id = some y
    rcases List.mem_cons.1 hv with rfl | hv
    · rw [setArgs_lt _ n (Nat.lt_succ_self n), upd_same]
      exact ⟨x, rfl⟩
    · exact setArgs_def _ (by simpa using h) v hv

/-- The patterns inside a variant match if the tests hold, and the names stand for the parts. -/
theorem match_args : ∀ {args : List MPat} {ts : List Ty}, FlatSubs args ts → ∀ (n l : Nat)
    {vs : List V} (env : Env), vs.length = ts.length →
    ∃ bs, nameValues (setArgs env (mkVars n l ts) vs)
        (splitCols (argCols (mkVars n l ts) args)).2 = some bs ∧
      matchArgs args vs = if sat (setArgs env (mkVars n l ts) vs)
        ((splitCols (argCols (mkVars n l ts) args)).1.map litKey) then some bs else none
  | [], [], .nil, n, l, [], env, _ => ⟨[], rfl, by simp [matchArgs, argCols, splitCols, sat, mkVars]⟩
  | p :: ps, t :: ts, .cons hp hps, n, l, v :: vs, env, h => by
    obtain ⟨bs, h1, h2⟩ := match_args hps (n + 1) (l + 1) (vs := vs) (upd env n (some v))
      (by simpa using h)
    have hv : setArgs env (mkVars n l (t :: ts)) (v :: vs) =
      setArgs (upd env n (some v)) (mkVars (n + 1) (l + 1) ts) vs := rfl
    have e : argCols (mkVars n l (t :: ts)) (p :: ps) =
      ⟨⟨n, rname l, t⟩, p⟩ :: argCols (mkVars (n + 1) (l + 1) ts) ps := rfl
    have hn : setArgs (upd env n (some v)) (mkVars (n + 1) (l + 1) ts) vs n = some v := by
      rw [setArgs_lt _ n (Nat.lt_succ_self n), upd_same]
    rw [hv, e]
    generalize setArgs (upd env n (some v)) (mkVars (n + 1) (l + 1) ts) vs = env' at *
    rcases hp with ⟨x, rfl⟩ | ⟨⟨m, rfl⟩, rfl⟩ | ⟨⟨s, rfl⟩, rfl⟩
    · refine ⟨(x, v) :: bs, ?_, ?_⟩
      · show nameValues env' ((x, ⟨n, rname l, t⟩) :: (splitCols _).2) = _
        unfold nameValues
        simp only [hn, h1]
      · rw [show (splitCols (⟨⟨n, rname l, t⟩, .bind x⟩ :: argCols (mkVars (n + 1) (l + 1) ts) ps)).1 =
          (splitCols (argCols (mkVars (n + 1) (l + 1) ts) ps)).1 from rfl]
        unfold matchArgs
        rw [h2]
        by_cases hs : sat env' ((splitCols (argCols (mkVars (n + 1) (l + 1) ts) ps)).1.map litKey) = true
        · rw [if_pos hs, if_pos hs]; rfl
        · rw [if_neg hs, if_neg hs]; rfl
    · refine ⟨bs, h1, ?_⟩
      show matchArgs (.int m :: ps) (v :: vs) =
        if sat env' ((n, .int m) :: (splitCols _).1.map litKey) then _ else _
      unfold matchArgs
      rw [h2]
      simp only [sat, List.all_cons, holds, hn]
      cases v <;> simp [matchPat, fits, parts]
      rename_i k
      by_cases hk : k = m
      · simp only [hk, if_true]
        split <;> simp_all [sat]
      · simp [hk]
    · refine ⟨bs, h1, ?_⟩
      show matchArgs (.str s :: ps) (v :: vs) =
        if sat env' ((n, .str s) :: (splitCols _).1.map litKey) then _ else _
      unfold matchArgs
      rw [h2]
      simp only [sat, List.all_cons, holds, hn]
      cases v <;> simp [matchPat, fits, parts]
      rename_i k
      by_cases hk : k = textOf s
      · simp only [hk, if_true]
        split <;> simp_all [sat]
      · simp [hk]

end Amanda.Iguala

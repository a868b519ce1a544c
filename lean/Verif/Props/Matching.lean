import Verif.IgualaMissing

/-!
# Arms of `iguala`: C41, C42, C43

The specification is `Verif.IgualaSpec`: what values there are (`V`, `HasTy`), when a pattern matches
(`matchPat`), the first arm that matches (`firstMatch`), and what a decision tree selects (`selects`).

All three claims are false for some arms, shown by witnesses.  They hold for tame arms, which are
those that test numbers and texts inside a variant in a way the pattern compiler can cope with; arms
without numbers and texts inside variants always are.
-/

namespace Amanda.Iguala

/-! ## Which arms are tame -/

/-- Arms that test only the variant are tame. -/
theorem tame_of_tags {m u : String} {arms : List MPat} (h : ∀ p ∈ arms, TagArm p) :
    TameArms (.uniao m u) arms := fun tag => tame_tags tag h

theorem topRows_append (a b : List MPat) : topRows (a ++ b) = topRows a ++ topRows b := by
  simp [topRows]

theorem topRows_names : ∀ {arms : List MPat}, (∀ p ∈ arms, ∃ x, p = .bind x) → ∀ r ∈ topRows arms, r = []
  | p :: arms, h, r, hr => by
    rcases List.mem_cons.1 hr with rfl | hr
    · obtain ⟨x, rfl⟩ := h p (List.mem_cons_self ..)
      rfl
    · exact topRows_names (fun q hq => h q (List.mem_cons_of_mem _ hq)) r hr

theorem topRows_lits : ∀ {arms : List MPat}, (∀ p ∈ arms, (litCons p).isSome = true) →
    ∃ ks : List Cons, topRows arms = ks.map fun k => [(0, k)]
  | [], _ => ⟨[], rfl⟩
  | p :: arms, h => by
    obtain ⟨k, hk⟩ := Option.isSome_iff_exists.1 (h p (List.mem_cons_self ..))
    obtain ⟨ks, e⟩ := topRows_lits (arms := arms) fun q hq => h q (List.mem_cons_of_mem _ hq)
    exact ⟨k :: ks, by rw [List.map_cons, ← e]; simp [topRows, litArgs, hk]⟩

/-- Numbers or texts followed by names only are tame. -/
theorem tame_of_lits {ty : Ty} (hty : ∀ m u, ty ≠ .uniao m u) {lits rest : List MPat}
    (hl : ∀ p ∈ lits, (litCons p).isSome = true) (hr : ∀ p ∈ rest, ∃ x, p = .bind x) :
    TameArms ty (lits ++ rest) := by
  have h : Tame (topRows (lits ++ rest)) := by
    have hn := topRows_names hr
    have hrest : Tame (topRows rest) := by
      revert hn
      cases topRows rest with
      | nil => exact fun _ => .nil
      | cons r rs =>
        intro h
        rw [h r (List.mem_cons_self ..)]
        exact .leaf
    obtain ⟨ks, e⟩ := topRows_lits hl
    rw [topRows_append, e]
    cases ks with
    | nil => exact hrest
    | cons k0 ks => exact .single (fun r h => by rw [hn r h]; rfl) hrest
  unfold TameArms
  split
  · rename_i m u; exact absurd rfl (hty m u)
  · exact h

/-! ## C41, C42 -/

/-- **C41 (partial).** For tame arms the pattern compiler does not fail, and the decision tree it makes
selects, for every value of the type of the target, the first arm whose pattern matches, with the
names of the pattern standing for the parts of the value; it selects no arm if none matches.

Missing: arms that are not tame, for which the claim can be false: `iguala_first_arm_violated`. -/
theorem iguala_first_arm_partial {U : Unions} {target : MVar} {arms : List MPat} {names : List String}
    (hf : ∀ p ∈ arms, FlatArm U target.ty p) (ht : TameArms target.ty arms) (hn : Fresh names) :
    ∃ m, compile U target arms names = .ok m ∧
      ∀ v, HasTy U v target.ty → selects target m v = firstMatch arms 0 v := by
  obtain ⟨m, h1, h2⟩ := correct_tame hf ht hn
  exact ⟨m, h1, h2.1⟩

/-- **C42 (partial).** If no pattern is reported missing for tame arms, every value of the type of the
target is matched by some arm.

Missing: arms that are not tame, for which the claim can be false: `iguala_exhaustive_violated`. -/
theorem iguala_exhaustive_partial {U : Unions} {target : MVar} {arms : List MPat} {names : List String}
    (hf : ∀ p ∈ arms, FlatArm U target.ty p) (ht : TameArms target.ty arms) (hn : Fresh names)
    {m : Match} (hc : compile U target arms names = .ok m) (hm : m.missing = false) {v : V}
    (hv : HasTy U v target.ty) : ∃ (i : Nat) (p : MPat) (bs : List (String × V)), arms[i]? = some p ∧ matchPat p v = some bs := by
  obtain ⟨m', h1, h2⟩ := correct_tame hf ht hn
  rw [hc] at h1
  cases h1
  obtain ⟨r, p, hp, h⟩ := firstMatch_some (h2.2 hm v hv)
  obtain ⟨bs, hb⟩ := Option.isSome_iff_exists.1 h
  exact ⟨r, p, bs, hp, hb⟩

/-- A union `F` with the variants `Par(int, int)` and `Nada`. -/
def pairs : Unions := fun _ n => if n = "F" then [("F::Par", [.int, .int]), ("F::Nada", [])] else []

/-- A variable of that type. -/
def pairVar : MVar := ⟨0, "x", .uniao "m" "F"⟩

/-- `F::Par(a, b)` as a pattern. -/
def par (a b : MPat) : MPat := .adt (some 0) [a, b]

/-- `F::Par(a, b)` as a value. -/
def parV (a b : Int) : V := .variant 0 [.int a, .int b]

theorem parV_ty (a b : Int) : HasTy pairs (parV a b) pairVar.ty :=
  .variant (name := "F::Par") (tys := [.int, .int]) rfl (.cons (.int a) (.cons (.int b) .nil))

/-- The scope of an `iguala` on a variable has no names yet (check/iguala.py:15-16, 27-31). -/
theorem fresh_nil : Fresh [] := fun _ _ h => (List.not_mem_nil h).elim

/-- The scope of an `iguala` on another expression has the name of the variable that would hold its
value (check/iguala.py:32-37). -/
theorem fresh_target : Fresh ["_target_"] := by
  intro k _ h
  have := congrArg String.toList (List.mem_singleton.1 h)
  simp [rname] at this

theorem par_flat {a b : MPat} (ha : FlatSub a .int) (hb : FlatSub b .int) :
    FlatArm pairs pairVar.ty (par a b) :=
  .inr ⟨"m", "F", 0, [a, b], "F::Par", [.int, .int], rfl, rfl, rfl, .cons ha (.cons hb .nil)⟩

theorem int_sub (n : Int) : FlatSub (.int n) .int := .inr (.inl ⟨⟨n, rfl⟩, rfl⟩)
theorem bind_sub (x : String) (t : Ty) : FlatSub (.bind x) t := .inl ⟨x, rfl⟩

/-- `F::Par(a, 2)`, `F::Par(3, b)` and `z`. -/
def mixedArms : List MPat := [par (.bind "a") (.int 2), par (.int 3) (.bind "b"), .bind "z"]

theorem mixed_flat : ∀ p ∈ mixedArms, FlatArm pairs pairVar.ty p := by
  intro p hp
  simp only [mixedArms, List.mem_cons, List.not_mem_nil, or_false] at hp
  rcases hp with rfl | rfl | rfl
  · exact par_flat (bind_sub _ _) (int_sub _)
  · exact par_flat (int_sub _) (bind_sub _ _)
  · exact .inl (bind_sub _ _)

theorem mixed_tame : TameArms pairVar.ty mixedArms := by
  intro tag
  by_cases h : tag = 0
  · subst h
    show Tame ([Cons.int 2].map (fun k => [(1, k)]) ++ ([Cons.int 3].map (fun k => [(0, k)]) ++ [[]]))
    refine .single (by decide) (.single (by decide) .leaf)
  · have : tagRows tag mixedArms = [[]] := by
      simp [mixedArms, par, tagRows, Ne.symm h]
    rw [this]
    exact .leaf

/-- An instance of `iguala_first_arm_partial` and `iguala_exhaustive_partial`: no pattern is missing;
`F::Par(3, 2)` takes the first arm, `F::Par(3, 9)` the second, `F::Par(5, 5)` the third. -/
example : ∃ m, compile pairs pairVar mixedArms [] = .ok m ∧ m.missing = false ∧
    selects pairVar m (parV 3 2) = some (0, [("a", .int 3)]) ∧
    selects pairVar m (parV 3 9) = some (1, [("b", .int 9)]) ∧
    selects pairVar m (parV 5 5) = some (2, [("z", parV 5 5)]) := by
  obtain ⟨m, h1, h2⟩ := iguala_first_arm_partial mixed_flat mixed_tame fresh_nil
  refine ⟨m, h1, ?_, (h2 _ (parV_ty 3 2)).trans rfl, (h2 _ (parV_ty 3 9)).trans rfl,
    (h2 _ (parV_ty 5 5)).trans rfl⟩
  have : (compile pairs pairVar mixedArms []).toOption.map (·.missing) = some false := by decide +kernel
  rw [h1] at this
  simpa [Except.toOption] using this

example {m : Match} (hc : compile pairs pairVar mixedArms [] = .ok m) (hm : m.missing = false) (a b : Int) :
    ∃ (i : Nat) (p : MPat) (bs : List (String × V)), mixedArms[i]? = some p ∧
      matchPat p (parV a b) = some bs :=
  iguala_exhaustive_partial mixed_flat mixed_tame fresh_nil hc hm (parV_ty a b)

/-- Arms with two numbers each, `F::Par(1, 2)`, `F::Par(3, 4)` and `z`, are tame as well. -/
example : TameArms pairVar.ty [par (.int 1) (.int 2), par (.int 3) (.int 4), .bind "z"] := by
  intro tag
  by_cases h : tag = 0
  · subst h
    refine Tame.block (p := 0) (k0 := .int 1) (r0 := [(1, .int 2)]) (ws := [(.int 3, [(1, .int 4)])])
      (rows := [[(0, .int 1), (1, .int 2)], [(0, .int 3), (1, .int 4)]]) (fb := [[]]) rfl (by decide)
      (by decide) (by decide) ?_
    intro a ha
    simp only [List.mem_cons, List.not_mem_nil, or_false] at ha
    rcases ha with rfl | rfl
    · exact Tame.single (p := 1) (k0 := .int 2) (ks := []) (fb := [[]]) (by decide) .leaf
    · exact Tame.single (p := 1) (k0 := .int 4) (ks := []) (fb := [[]]) (by decide) .leaf
  · have : tagRows tag [par (.int 1) (.int 2), par (.int 3) (.int 4), .bind "z"] = [[]] := by
      simp [par, tagRows, Ne.symm h]
    rw [this]
    exact .leaf

/-- Arms on a text: two texts and a name. -/
example (v : String) : ∃ m, compile pairs ⟨0, "s", .texto⟩ [.str "'a'", .str "'b'", .bind "x"] ["_target_"] = .ok m ∧
    selects ⟨0, "s", .texto⟩ m (.str v) =
      if v = "a" then some (0, []) else if v = "b" then some (1, []) else some (2, [("x", .str v)]) := by
  have hf : ∀ p ∈ [MPat.str "'a'", .str "'b'", .bind "x"], FlatArm pairs .texto p := by
    intro p hp
    simp only [List.mem_cons, List.not_mem_nil, or_false] at hp
    rcases hp with rfl | rfl | rfl
    · exact .inl (.inr (.inr ⟨⟨_, rfl⟩, rfl⟩))
    · exact .inl (.inr (.inr ⟨⟨_, rfl⟩, rfl⟩))
    · exact .inl (bind_sub _ _)
  obtain ⟨m, h1, h2⟩ := iguala_first_arm_partial (target := ⟨0, "s", .texto⟩) hf
    (tame_of_lits (lits := [.str "'a'", .str "'b'"]) (rest := [.bind "x"]) (by intro m u h; cases h)
      (by decide) (by intro p hp; exact ⟨"x", List.mem_singleton.1 hp⟩)) fresh_target
  refine ⟨m, h1, (h2 _ (.str v)).trans ?_⟩
  have e1 : textOf "'a'" = "a" := by decide
  have e2 : textOf "'b'" = "b" := by decide
  by_cases ha : v = "a"
  · simp [firstMatch, matchPat, e1, ha]
  · by_cases hb : v = "b"
    · simp [firstMatch, matchPat, e1, e2, hb]
    · simp [firstMatch, matchPat, e1, e2, ha, hb]

/-- The arm selected for a value, if compiling succeeds. -/
def selectedArm (U : Unions) (target : MVar) (arms : List MPat) (v : V) : Option Nat :=
  match compile U target arms [] with
  | .ok m => (selects target m v).map (·.1)
  | .error _ => none

/-- Whether a pattern is reported missing, if compiling succeeds. -/
def reported (U : Unions) (target : MVar) (arms : List MPat) : Option Bool :=
  match compile U target arms [] with
  | .ok m => some m.missing
  | .error _ => none

/-- **C41 is violated.** An arm can be overtaken by a later one:

* `F::Par(1, 2)`, `F::Par(1, 3)`, `z`: for `F::Par(1, 3)` the third arm is taken, since the index 0 of
  a literal tested before counts as absent and the second row gets a case of its own, which is never
  reached (exhaustiveness.py:357-366);
* `F::Par(1, 2)`, `F::Par(3, y)`, `F::Par(x, 4)`, `z`: for `F::Par(5, 5)` the third arm is taken, though
  it does not match: its test was removed from the shared row when the case of the first arm was
  compiled (exhaustiveness.py:366-376);
* `1`, `x`, `2` on a number: for `2` the third arm is taken, since rows that do not test the variable
  are put behind those that do (exhaustiveness.py:341-382). -/
theorem iguala_first_arm_violated :
    (selectedArm pairs pairVar [par (.int 1) (.int 2), par (.int 1) (.int 3), .bind "z"] (parV 1 3),
      (firstMatch [par (.int 1) (.int 2), par (.int 1) (.int 3), .bind "z"] 0 (parV 1 3)).map (·.1)) =
        (some 2, some 1) ∧
    (selectedArm pairs pairVar [par (.int 1) (.int 2), par (.int 3) (.bind "y"), par (.bind "x") (.int 4),
      .bind "z"] (parV 5 5),
      (firstMatch [par (.int 1) (.int 2), par (.int 3) (.bind "y"), par (.bind "x") (.int 4),
        .bind "z"] 0 (parV 5 5)).map (·.1)) = (some 2, some 3) ∧
    (selectedArm pairs ⟨0, "n", .int⟩ [.int 1, .bind "x", .int 2] (.int 2),
      (firstMatch [.int 1, .bind "x", .int 2] 0 (.int 2)).map (·.1)) = (some 2, some 1) := by
  decide +kernel

/-- The arms `F::Par(1, _)`, `F::Par(2, 5)`, `F::Par(2, _)`, `F::Par(_, 6)` and `F::Nada`. -/
def openArms : List MPat := [par (.int 1) (.bind "_"), par (.int 2) (.int 5), par (.int 2) (.bind "_"),
  par (.bind "_") (.int 6), .adt (some 1) []]

/-- **C42 is violated.** No pattern is reported missing, yet no arm matches `F::Par(9, 9)`. -/
theorem iguala_exhaustive_violated :
    reported pairs pairVar openArms = some false ∧ HasTy pairs (parV 9 9) pairVar.ty ∧
    firstMatch openArms 0 (parV 9 9) = none := by
  refine ⟨by decide +kernel, parV_ty 9 9, rfl⟩

/-! ## C43 -/

/-- **C43, first half.** If a pattern is reported missing, there is a value of the type of the target
that no arm matches, whatever the arms.  The type and, if it is a union, each of its variants must
have values at all. -/
theorem rejected_iguala_unmatched {U : Unions} {target : MVar} {arms : List MPat} {names : List String}
    (hf : ∀ p ∈ arms, FlatArm U target.ty p) (hn : Fresh names) {m : Match}
    (hin : ∃ v, HasTy U v target.ty)
    (hins : ∀ m u, target.ty = .uniao m u → ∀ nt ∈ U m u, ∃ vs, HasTys U vs nt.2)
    (hc : compile U target arms names = .ok m) (hm : m.missing = true) :
    ∃ v, HasTy U v target.ty ∧ ∀ p ∈ arms, matchPat p v = none := by
  obtain ⟨v, h1, h2⟩ := missing_unmatched hf hn hin hins hc hm
  refine ⟨v, h1, ?_⟩
  have : ∀ (arms : List MPat) (i : Nat), firstMatch arms i v = none → ∀ p ∈ arms, matchPat p v = none := by
    intro arms
    induction arms with
    | nil => intro i _ p hp; cases hp
    | cons q arms ih =>
      intro i h p hp
      cases hq : matchPat q v with
      | some bs => simp [firstMatch, hq] at h
      | none =>
        rcases List.mem_cons.1 hp with rfl | hp
        · exact hq
        · exact ih (i + 1) (by simpa [firstMatch, hq] using h) p hp
  exact this arms 0 h2

theorem pairs_inhabited : ∀ m u, pairVar.ty = .uniao m u → ∀ nt ∈ pairs m u, ∃ vs, HasTys pairs vs nt.2 := by
  intro m u h nt hnt
  cases h
  simp only [pairs, if_true, List.mem_cons, List.not_mem_nil, or_false] at hnt
  rcases hnt with rfl | rfl
  · exact ⟨_, .cons (.int 0) (.cons (.int 0) .nil)⟩
  · exact ⟨_, .nil⟩

/-- An instance: the single arm `F::Par(1, b)`. -/
example : ∃ v, HasTy pairs v pairVar.ty ∧ ∀ p ∈ [par (.int 1) (.bind "b")], matchPat p v = none := by
  have h : reported pairs pairVar [par (.int 1) (.bind "b")] = some true := by decide +kernel
  unfold reported at h
  split at h
  · rename_i m hc
    exact rejected_iguala_unmatched (fun p hp => by
      rw [List.mem_singleton.1 hp]; exact par_flat (int_sub _) (bind_sub _ _)) fresh_nil
      ⟨_, parV_ty 0 0⟩ pairs_inhabited hc (by simpa using h)
  · cases h

/-- **C43, second half (partial).** If the arms test only which variant a value is, the patterns listed
as missing are exactly `V(_, ..., _)` for the variants `V` none of whose values is matched.

Missing: arms with numbers or texts inside variants, for which the list can have patterns that describe
matched values, or cannot be made: `listed_patterns_violated`. -/
theorem listed_patterns_partial {U : Unions} {target : MVar} {m u : String} {arms : List MPat}
    {names : List String} (hty : target.ty = .uniao m u) (hne : arms ≠ [])
    (hf : ∀ p ∈ arms, FlatArm U target.ty p) (ht : ∀ p ∈ arms, TagArm p) (hn : Fresh names) {mt : Match}
    (hc : compile U target arms names = .ok mt) :
    ∃ ss, mt.missingPatterns = .ok ss ∧ ∀ s, s ∈ ss ↔ ∃ tag name tys, (U m u)[tag]? = some (name, tys) ∧
      s = wildPattern name tys.length ∧
      ∀ vs, vs.length = tys.length → firstMatch arms 0 (.variant tag vs) = none := by
  rw [hty] at hf
  exact listed_tags hty hne hf ht hn hc

/-- The patterns listed, if there are any. -/
def listed (U : Unions) (target : MVar) (arms : List MPat) : Option (Except PyErr (List String)) :=
  match compile U target arms [] with
  | .ok m => if m.missing then some m.missingPatterns else none
  | .error _ => none

/-- An instance: for the single arm `F::Nada` exactly `F::Par(_, _)` is listed. -/
example : ∃ m ss, compile pairs pairVar [.adt (some 1) []] [] = .ok m ∧ m.missingPatterns = .ok ss ∧
    ∀ s, s ∈ ss ↔ s = "F::Par(_, _)" := by
  have hf : ∀ p ∈ [MPat.adt (some 1) []], FlatArm pairs pairVar.ty p := by
    intro p hp
    rw [List.mem_singleton.1 hp]
    exact .inr ⟨"m", "F", 1, [], "F::Nada", [], rfl, rfl, rfl, .nil⟩
  have ht : ∀ p ∈ [MPat.adt (some 1) []], TagArm p := by
    intro p hp
    rw [List.mem_singleton.1 hp]
    exact .inr ⟨1, [], rfl, fun q hq => by cases hq⟩
  obtain ⟨m, h1, _⟩ := iguala_first_arm_partial hf (tame_of_tags ht) fresh_nil
  obtain ⟨ss, h2, h3⟩ := listed_patterns_partial rfl (by simp) hf ht fresh_nil h1
  refine ⟨m, ss, h1, h2, fun s => (h3 s).trans ?_⟩
  constructor
  · rintro ⟨tag, name, tys, hu, rfl, h⟩
    match tag, hu with
    | 0, hu => cases hu; decide
    | 1, hu =>
      cases hu
      have := h [] rfl
      simp [firstMatch, matchPat, matchArgs] at this
    | tag + 2, hu => simp [pairs] at hu
  · rintro rfl
    refine ⟨0, "F::Par", [.int, .int], rfl, by decide, fun vs _ => ?_⟩
    simp [firstMatch, matchPat]

/-- **C43 is violated.**

* For the single arm `F::Par(1, b)` the pattern `F::Par(_, _)` is listed, though `F::Par(1, 5)` is matched.
* With a text inside a variant the list cannot be made: `NotImplementedError` (exhaustiveness.py:208-219). -/
theorem listed_patterns_violated :
    (listed pairs pairVar [par (.int 1) (.bind "b")] = some (.ok ["F::Par(_, _)", "F::Nada"]) ∧
      firstMatch [par (.int 1) (.bind "b")] 0 (parV 1 5) = some (0, [("b", .int 5)])) ∧
    listed (fun _ _ => [("G::T", [.texto])]) ⟨0, "x", .uniao "m" "G"⟩ [.adt (some 0) [.str "'a'"]] =
      some (.error (.exc "NotImplementedError")) := by
  refine ⟨⟨?_, rfl⟩, ?_⟩
  · decide +kernel
  · decide +kernel

end Amanda.Iguala

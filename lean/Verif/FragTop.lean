import Verif.FragS

/-!
# Functions of `Verif.Frag` that the checker accepts keep to the typing rules
-/

namespace Amanda.Check

open Source

section
variable {X : World} {s s' : CState} {Γ : List SymId}

/-! ## The symbol of a function -/

theorem set_get {syms : List CSym} {i : Nat} {x : CSym} (hx : syms[i]? = some x) (y : CSym) (j : Nat) :
    (syms.set i y)[j]? = if j = i then some y else syms[j]? := by
  have hlt := (List.getElem?_eq_some_iff.mp hx).1
  rw [List.getElem?_set]
  by_cases he : i = j
  · subst he; simp [hlt]
  · have : ¬ j = i := fun e => he e.symm
    simp [he, this]

/-- The symbols of the scopes after a definition. -/
theorem bindIn_ids {scopes : List ScopeTab} {k k' i j : Nat} {n : String} {tab : ScopeTab}
    (hk : (bindIn scopes k n i)[k']? = some tab) (hj : j ∈ ScopeTab.ids tab) :
    (∃ tab, scopes[k']? = some tab ∧ j ∈ ScopeTab.ids tab) ∨ (k' = k ∧ j = i) := by
  rw [bindIn_get] at hk
  split at hk
  · rename_i he
    cases ht : scopes[k']? with
    | none => rw [ht] at hk; cases hk
    | some t =>
        rw [ht] at hk
        simp only [Option.map_some, Option.some.injEq] at hk
        subst hk
        obtain ⟨⟨n, j'⟩, h', rfl⟩ := List.mem_map.mp hj
        rcases mem_assign h' with e | h'
        · exact .inr ⟨he, e⟩
        · exact .inl ⟨t, rfl, List.mem_map.mpr ⟨_, h', rfl⟩⟩
  · exact .inl ⟨tab, hk, hj⟩

theorem withFn_inv (hi : Inv X s) {f : CSym} {t : CTy} (hm : f.modPath = X.mod) (hbu : f.builtin = false)
    (hb : f.body = .func t []) (ht : exprTy X.K.reals t = true) (hn : f.name ∈ X.K.fns) (hg : f.isGlobal = true)
    (hfree : lookIn s.scopes X.g f.name = none) : Inv X (withVar s X.g f) := by
  have hgl : X.g < s.scopes.length := Nat.lt_of_lt_of_le hi.gsb hi.sbase
  refine hi.change rfl (by simp [withVar]) (Nat.le_of_eq (bindIn_length _ _ _ _).symm) (fun k tab hk => .inl (bindIn_parent hk))
    (fun k n j hl => ?_) (fun n j hl => ?_) (fun j hj => ?_) (fun j y hy => ⟨y, append_old hy, rfl⟩) (fun j y hj hy => ?_)
    (fun j y hj hy hgy => ?_) X.g (fun k tab j hk hj => ?_) (fun k tab hk => bindIn_kept hk) (fun k m tab n j z hk ht he hz => .inr ?_)
    (fun k tab n j ht he => bindIn_entry hfree ht he)
  · change lookIn (bindIn s.scopes X.g f.name s.syms.length) k n = _ at hl
    rw [bindIn_look] at hl
    split at hl
    · rename_i hc
      obtain ⟨rfl, rfl, _⟩ := hc
      cases hl
      exact .inr ⟨hi.base, (fun h => absurd h (Nat.not_le_of_lt hi.gsb)), f, append_last _ _, rfl⟩
    · exact .inl hl
  · show lookIn (bindIn s.scopes X.g f.name s.syms.length) X.g n = _
    rw [bindIn_look]
    split
    · rename_i hc
      obtain ⟨_, rfl, _⟩ := hc
      rw [hfree] at hl
      cases hl
    · exact hl
  · exact List.getElem?_append_left (Nat.lt_of_lt_of_le hj hi.base)
  · rcases append_cases hy with hy | ⟨_, rfl⟩
    · exact (hi.syms j y hj hy).mono fun j z t hz ht => ⟨z, append_old hz, ht⟩
    · exact ⟨hm, hbu, .inr ⟨t, [], hb, ht, hn, hg, by simp⟩⟩
  · show lookIn (bindIn s.scopes X.g f.name s.syms.length) X.g y.name = _
    rcases append_cases hy with hy | ⟨rfl, rfl⟩
    · have hl := hi.global j y hj hy hgy
      rw [bindIn_look]
      split
      · rename_i hc
        obtain ⟨_, he, _⟩ := hc
        rw [he, hfree] at hl
        cases hl
      · exact hl
    · rw [bindIn_look, if_pos ⟨rfl, rfl, hgl⟩]
  · rcases bindIn_ids hk hj with h | ⟨rfl, rfl⟩
    · exact .inl h
    · exact .inr ⟨rfl, by simp [withVar], fun k' tab ht hm => absurd (hi.bound k' tab _ ht hm) (Nat.lt_irrefl _)⟩
  · change (bindIn s.scopes X.g f.name s.syms.length)[k]? = _ at ht
    rw [bindIn_get, if_neg hk] at ht
    have hlt := hi.bound k tab j ht (List.mem_map.mpr ⟨_, List.mem_of_getElem? he, rfl⟩)
    rw [show (withVar s X.g f).syms[j]? = s.syms[j]? from List.getElem?_append_left hlt] at hz
    exact ⟨tab, z, ht, he, hz, rfl⟩

theorem Inv.setParams (h : Inv X s) {i : Nat} {x : CSym} {t : CTy} {ps ps' : List (String × SymId)} (hi : X.b ≤ i)
    (hx : s.syms[i]? = some x) (hb : x.body = .func t ps)
    (hps : ∀ p ∈ ps', X.b ≤ p.2 ∧ ∃ y u, s.syms[p.2]? = some y ∧ y.body = .var u) :
    Inv X { s with syms := s.syms.set i { x with body := .func t ps' } } := by
  have hget := set_get hx { x with body := .func t ps' }
  have hmono : ∀ (j : Nat) z u, s.syms[j]? = some z → z.body = .var u →
      ∃ z', (s.syms.set i { x with body := .func t ps' })[j]? = some z' ∧ z'.body = .var u := by
    intro j z u hz hu
    rw [hget]
    split
    · rename_i he; subst he; rw [hx] at hz; cases hz; rw [hb] at hu; cases hu
    · exact ⟨z, hz, hu⟩
  refine h.change rfl (by simp) (Nat.le_refl _) (fun k tab hk => .inl ⟨tab, hk, rfl⟩) (fun k n i hl => .inl hl)
    (fun n i hl => hl) (fun j hj => ?_) (fun j z hz => ?_) (fun j z hj hz => ?_) (fun j z hj hz hgl => ?_)
    0 (fun k tab i hk hi => .inl ⟨tab, hk, hi⟩) (fun k tab hk => ⟨tab, hk, rfl⟩) (fun k m tab n j z hk ht he hz => .inr ?_)
    (fun k tab n i ht he => .inr ⟨tab, ht, he, fun _ _ h => h⟩)
  · show (s.syms.set i _)[j]? = _
    rw [hget, if_neg (fun e => by subst e; exact absurd hi (Nat.not_le_of_lt hj))]
  · show ∃ y', (s.syms.set i _)[j]? = _ ∧ _
    rw [hget]
    split
    · rename_i he; subst he; rw [hx] at hz; cases hz; exact ⟨_, rfl, rfl⟩
    · exact ⟨z, hz, rfl⟩
  · change (s.syms.set i _)[j]? = _ at hz
    rw [hget] at hz
    split at hz
    · cases hz
      obtain ⟨h1, h2, ⟨u, h3, _⟩ | ⟨u, qs, h3, h4, h5, h6, h7⟩⟩ := h.syms i x hi hx
      · rw [hb] at h3; cases h3
      · rw [hb] at h3
        cases h3
        refine ⟨h1, h2, .inr ⟨t, ps', rfl, h4, h5, h6, fun p hp => ?_⟩⟩
        obtain ⟨hp1, y, u, hy, hu⟩ := hps p hp
        obtain ⟨y', hy', hu'⟩ := hmono p.2 y u hy hu
        exact ⟨hp1, y', u, hy', hu'⟩
    · exact (h.syms j z hj hz).mono hmono
  · change (s.syms.set i _)[j]? = _ at hz
    rw [hget] at hz
    split at hz
    · rename_i he
      subst he
      cases hz
      exact h.global j x hi hx hgl
    · exact h.global j z hj hz hgl
  · change (s.syms.set i _)[j]? = _ at hz
    rw [hget] at hz
    split at hz
    · rename_i he'
      subst he'
      cases hz
      exact ⟨tab, x, ht, he, hx, rfl⟩
    · exact ⟨tab, z, ht, he, hz, rfl⟩

theorem addVar_quiet (s : CState) {v : CSym} {t : CTy} (hv : v.body = .var t) : Quiet s { s with syms := s.syms ++ [v] } := by
  refine ⟨s.scopes.length, Nat.le_refl _, ⟨s.ana.line, rfl⟩, ⟨fun i x hx => ⟨x, append_old hx, rfl, rfl, rfl⟩,
    fun k tab ht => ⟨tab, ht, rfl, fun _ _ h => h, fun _ h => .inl h⟩⟩, fun i y hy hn => ?_, fun j tab _ ht => ht, rfl, rfl⟩
  rcases append_cases hy with hy | ⟨_, rfl⟩
  · rw [hn] at hy; cases hy
  · exact ⟨t, hv⟩

/-! ## Parameters -/

theorem paramSyms_ok (hN : X.Names) : ∀ {ps : List Param} {acc out : List (String × SymId)} {s s' : CState},
    (∀ p ∈ ps, p.name.str ∈ X.K.vars ∧ plainTy X.K.reals p.ty = true) → Inv X s → (acc.map (·.1)).Nodup →
    paramSyms X.mod ps acc s = .ok (out, s') →
    Inv X s' ∧ Quiet s s' ∧ s'.scopes = s.scopes ∧ (out.map (·.1)).Nodup ∧ ∃ new, out = acc ++ new ∧
      new.length = ps.length ∧ (new.map (·.2)).Nodup ∧ ∀ p ∈ new, s.syms.length ≤ p.2 ∧ p.1 ∈ X.K.vars ∧
        ∃ y t, s'.syms[p.2]? = some y ∧ y.name = p.1 ∧ y.body = .var t ∧ y.isGlobal = false
  | [], acc, out, s, s', _, hi, hnd, h => by
      simp only [paramSyms, C.pure_ok] at h
      obtain ⟨rfl, rfl⟩ := h
      exact ⟨hi, .refl _, rfl, hnd, [], by simp, rfl, by simp, by simp⟩
  | p :: ps, acc, out, s, s', hps, hi, hnd, h => by
      simp only [paramSyms] at h
      split at h
      · simp only [C.error_ok] at h
      · rename_i hno
        simp only [C.bind_ok, C.at_ok] at h
        obtain ⟨_, s1, e1, t, s2, h2, j, s3, h3, h⟩ := h
        subst e1
        obtain ⟨hv, hpl⟩ := hps p (by simp)
        obtain ⟨hd, e2, _⟩ := getTy_ok hN (hi.line _) hpl h2
        subst e2
        unfold newVar at h3
        rw [newSym_ok] at h3
        obtain ⟨rfl, rfl⟩ := h3
        have hi1 := (hi.line p.name.line).addVar { name := p.name.str, outId := p.name.str, modPath := X.mod, body := .var t }
          rfl rfl rfl hd hv rfl
        have hq1 := (Quiet.line s p.name.line).trans
          (addVar_quiet (s.atLine p.name.line) (v := { name := p.name.str, outId := p.name.str, modPath := X.mod, body := .var t }) rfl)
        have hnd' : ((acc ++ [(p.name.str, (s.atLine p.name.line).syms.length)]).map (·.1)).Nodup := by
          rw [List.map_append, List.nodup_append]
          refine ⟨hnd, by simp, ?_⟩
          intro a ha b hb
          simp only [List.map_cons, List.map_nil, List.mem_singleton] at hb
          subst hb
          rintro rfl
          obtain ⟨q, hq, he⟩ := List.mem_map.mp ha
          apply hno
          rw [List.find?_isSome]
          exact ⟨q, hq, by simp [he]⟩
        obtain ⟨hi2, hq2, hsc, hnd2, new, rfl, hlen, hndi, hnew⟩ := paramSyms_ok hN (fun q hq => hps q (by simp [hq])) hi1 hnd' h
        refine ⟨hi2, hq1.trans hq2, hsc, hnd2, (p.name.str, (s.atLine p.name.line).syms.length) :: new, by simp, by simp [hlen], ?_, ?_⟩
        · rw [List.map_cons, List.nodup_cons]
          refine ⟨fun hm => ?_, hndi⟩
          obtain ⟨q, hq, he⟩ := List.mem_map.mp hm
          have h1 := (hnew q hq).1
          rw [show q.2 = _ from he, List.length_append] at h1
          exact absurd h1 (Nat.not_succ_le_self _)
        intro q hq
        rcases List.mem_cons.mp hq with rfl | hq
        · refine ⟨Nat.le_refl _, hv, ?_⟩
          obtain ⟨y, hy, e1, e2, e3⟩ := hq2.later.syms s.syms.length _ (append_last _ _)
          exact ⟨y, t, hy, e2, e1, e3⟩
        · obtain ⟨h1, h2, h3⟩ := hnew q hq
          refine ⟨Nat.le_trans ?_ h1, h2, h3⟩
          simp [CState.atLine]

theorem define_step {i k : Nat} {x y : CSym} (hx : s.syms[i]? = some x) (hy : y.name = x.name ∧ y.body = x.body ∧ y.isGlobal = x.isGlobal)
    (hfree : lookIn s.scopes k x.name = none) :
    StepFrom i k s { s with syms := s.syms.set i y, scopes := bindIn s.scopes k x.name i } := by
  have hget := set_get hx y
  refine ⟨⟨s.ana.line, rfl⟩, ⟨fun j z hz => ?_, fun j tab ht => ?_⟩, fun j z hz hn => ?_, fun j tab hj ht => ?_, rfl, rfl⟩
  · show ∃ w, (s.syms.set i y)[j]? = some w ∧ _
    rw [hget]
    split
    · rename_i he; subst he; rw [hx] at hz; cases hz; exact ⟨y, rfl, hy.2.1, hy.1, hy.2.2⟩
    · exact ⟨z, hz, rfl, rfl, rfl⟩
  · show ∃ tab', (bindIn s.scopes k x.name i)[j]? = _ ∧ _
    rw [bindIn_get]
    by_cases hj : j = k
    · subst hj
      rw [if_pos rfl, ht]
      refine ⟨_, rfl, rfl, fun n m hl => ?_, fun j => assign_ids⟩
      unfold lookIn at hfree
      rw [ht] at hfree
      have hne : n ≠ x.name := by
        rintro rfl
        rw [show look tab x.name = none from hfree] at hl
        cases hl
      unfold look at hl ⊢
      simp only
      rw [find_assign, if_neg hne]
      exact hl
    · rw [if_neg hj]
      exact ⟨tab, ht, rfl, fun _ _ h => h, fun _ h => .inl h⟩
  · change (s.syms.set i y)[j]? = _ at hz
    rw [hget] at hz
    split at hz
    · rename_i he; subst he; rw [hx] at hn; cases hn
    · rw [hn] at hz; cases hz
  · show (bindIn s.scopes k x.name i)[j]? = _
    rw [bindIn_get, if_neg hj]
    exact ht

theorem defineParams_length {cfg : CCfg} {d sc : Nat} : ∀ {ps : List (String × SymId)} {s s' : CState} {u : Unit},
    defineParams cfg d sc ps s = .ok (u, s') → s'.scopes.length = s.scopes.length
  | [], s, s', u, h => by
      simp only [defineParams, C.pure_ok] at h
      rw [h.2]
  | (n, i) :: ps, s, s', u, h => by
      simp only [defineParams, C.bind_ok] at h
      obtain ⟨_, s1, h1, h⟩ := h
      obtain ⟨x, o, hx, rfl, ho⟩ := defineSymbol_ok h1
      rw [defineParams_length h]
      exact bindIn_length _ _ _ _

theorem defineParams_ok {d sc m : Nat} (hsc : X.sb ≤ sc) (hd : 1 ≤ d) : ∀ {ps : List (String × SymId)} {s s' : CState} {u : Unit}, Inv X s →
    Deep s.scopes sc d →
    (∀ p ∈ ps, (X.b ≤ p.2 ∧ m ≤ p.2) ∧ p.1 ∈ X.K.vars ∧ lookIn s.scopes sc p.1 = none ∧ (∃ y, s.syms[p.2]? = some y ∧ y.name = p.1) ∧
      ∀ (k : Nat) tab, s.scopes[k]? = some tab → p.2 ∉ ScopeTab.ids tab) → sc < s.scopes.length →
    (ps.map (·.1)).Nodup → (ps.map (·.2)).Nodup → defineParams X.cfg d sc ps s = .ok (u, s') →
    Inv X s' ∧ StepFrom m sc s s' ∧ (∀ n (j : Nat), lookIn s'.scopes sc n = some j → (lookIn s.scopes sc n = some j ∨ ∃ p ∈ ps, j = p.2)) ∧
      ∀ p ∈ ps, lookIn s'.scopes sc p.1 = some p.2
  | [], s, s', u, hi, _, _, _, _, _, h => by
      simp only [defineParams, C.pure_ok] at h
      obtain rfl := h.2.symm
      exact ⟨hi, ⟨⟨s.ana.line, rfl⟩, ⟨(Later.refl s).syms, fun k tab ht => ⟨tab, ht, rfl, fun _ _ h => h, fun _ h => .inl h⟩⟩,
        (fun i y hy hn => by rw [hn] at hy; cases hy), fun _ _ _ h => h, rfl, rfl⟩, fun n j hl => .inl hl, by simp⟩
  | (n, i) :: ps, s, s', u, hi, hdp, hps, hlt, hnd, hndi, h => by
      simp only [defineParams, C.bind_ok] at h
      obtain ⟨_, s1, h1, h⟩ := h
      obtain ⟨⟨hbi, hbm⟩, hv, hfree, ⟨y, hy, hyn⟩, hunb⟩ := hps (n, i) (by simp)
      obtain ⟨x, o, hx, rfl, ho⟩ := defineSymbol_ok h1
      rw [hy] at hx
      cases hx
      simp only at hyn hfree hbi hbm hv hunb
      have hfree' : lookIn s.scopes sc y.name = none := by rw [hyn]; exact hfree
      have hi1 : Inv X { s with syms := s.syms.set i { y with outId := o }, scopes := bindIn s.scopes sc y.name i } := by
        have := (hi.setSym (y := { y with outId := o }) hbi hy rfl rfl rfl rfl (.inl rfl) (.inr hunb))
        refine this.bind (k := sc) (x := { y with outId := o }) hbi ?_ (fun _ => by rw [show _ = n from hyn]; exact hv) hfree' hunb
          fun _ => ⟨d, hsc, hdp, ho hd⟩
        show (s.syms.set i { y with outId := o })[i]? = _
        rw [set_get hy, if_pos rfl]
      have hst := define_step (k := sc) (y := { y with outId := o }) hy ⟨rfl, rfl, rfl⟩ hfree'
      rw [List.map_cons, List.nodup_cons] at hnd hndi
      obtain ⟨hi2, hst2, hl2, hl3⟩ := defineParams_ok hsc hd hi1 (hdp.mono hst.later.parents) (fun p hp => by
        obtain ⟨q1, q2, q3, ⟨z, q4, q5⟩, q6⟩ := hps p (by simp [hp])
        refine ⟨q1, q2, ?_, ?_, fun k tab hk hm => ?_⟩
        · show lookIn (bindIn s.scopes sc y.name i) sc p.1 = none
          rw [bindIn_look, if_neg]
          · exact q3
          · rintro ⟨_, he, _⟩
            exact hnd.1 (List.mem_map.mpr ⟨p, hp, he.trans hyn⟩)
        · obtain ⟨w, hw, _, e2, _⟩ := hst.later.syms p.2 z q4
          exact ⟨w, hw, e2.trans q5⟩
        · rcases bindIn_ids hk hm with ⟨tab', h1, h2⟩ | ⟨_, he⟩
          · exact q6 k tab' h1 h2
          · exact hndi.1 (List.mem_map.mpr ⟨p, hp, he⟩))
        (by show sc < (bindIn s.scopes sc y.name i).length; rw [bindIn_length]; exact hlt) hnd.2 hndi.2 h
      refine ⟨hi2, (hst.weaken hbm).trans' hst2 (Nat.le_refl _), fun m j hl => ?_, fun p hp => ?_⟩
      rotate_left
      · rcases List.mem_cons.mp hp with rfl | hp
        · refine hst2.later.look ?_
          show lookIn (bindIn s.scopes sc y.name i) sc n = _
          rw [bindIn_look, if_pos ⟨rfl, hyn.symm, hlt⟩]
        · exact hl3 p hp
      rcases hl2 m j hl with hl | ⟨p, hp, rfl⟩
      · change lookIn (bindIn s.scopes sc y.name i) sc m = _ at hl
        rw [bindIn_look] at hl
        split at hl
        · cases hl; exact .inr ⟨(n, i), by simp, rfl⟩
        · exact .inl hl
      · exact .inr ⟨p, by simp [hp], rfl⟩

/-! ## The declaration -/

/-- What the declaration of a function leaves. -/
structure Made (X : World) (s s' : CState) (ret : Option TyExpr) (i sc : Nat) (ps : List (String × SymId)) (t : CTy) : Prop where
  inv : Inv X s'
  ana : ∃ l, s'.ana = { s.ana with line := l }
  later : Later s s'
  fresh : ∀ (j : Nat) y, s'.syms[j]? = some y → s.syms[j]? = none → (∃ t, y.body = .var t) ∨ j = i
  look : ∀ n (j : Nat), lookIn s'.scopes X.g n = some j → lookIn s.scopes X.g n = some j ∨ j = i
  id : i = s.syms.length
  scope : X.sb ≤ sc
  newest : sc = s.scopes.length
  one : s'.scopes.length = s.scopes.length + 1
  tab : ∃ tab, s'.scopes[sc]? = some tab ∧ tab.parent = some s.ana.ctxScope
  seen : ∀ n (j : Nat), lookIn s'.scopes sc n = some j → ∃ p ∈ ps, j = p.2
  mods : s'.mods = s.mods
  open_ : s'.open_ = s.open_
  sym : ∃ x, s'.syms[i]? = some x ∧ x.body = .func t ps
  ty : exprTy X.K.reals t = true
  void : ret = none → t = .prim .vazio
  params : ∀ p ∈ ps, X.b ≤ p.2 ∧ ∃ y u, s'.syms[p.2]? = some y ∧ y.body = .var u ∧ y.isGlobal = false
  bound : ∀ p ∈ ps, lookIn s'.scopes sc p.1 = some p.2
  apart : (ps.map (·.2)).Nodup

theorem getTy?_ok (hN : X.Names) (hi : Inv X s) {ret : Option TyExpr} {t : CTy} (hr : okRet X.K.reals ret = true)
    (h : getTy? ret s = .ok (t, s')) : s' = s ∧ exprTy X.K.reals t = true ∧ (ret = none → t = .prim .vazio) := by
  cases ret with
  | none =>
      obtain ⟨rfl, rfl⟩ := namedTy_ok hN hi (tag := .vazio) (by simp [words]) h
      exact ⟨rfl, by simp [exprTy], fun _ => rfl⟩
  | some ty =>
      obtain ⟨hd, rfl, _⟩ := getTy_ok hN hi hr h
      exact ⟨rfl, by simp [exprTy, hd], fun h => by cases h⟩

theorem validateDecl_ok {n m1 m2 : String} {u : Unit} (h : validateDecl n m1 m2 s = .ok (u, s')) :
    s' = s ∧ s.ana.depth = 0 ∧ lookIn s.scopes s.ana.ctxScope n = none := by
  unfold validateDecl at h
  rw [C.bind_ok] at h
  obtain ⟨_, s1, h1, h⟩ := h
  rw [C.get_ok] at h1
  obtain ⟨e0, e1⟩ := h1
  obtain rfl := e0.symm
  obtain rfl := e1.symm
  split at h
  · simp only [C.error_ok] at h
  · rename_i hd
    rw [C.bind_ok] at h
    obtain ⟨r, s2, h2, h⟩ := h
    rw [getIn_ok] at h2
    obtain ⟨e2, e3⟩ := h2
    obtain rfl := e3.symm
    cases r with
    | none =>
        simp only [C.pure_ok] at h
        exact ⟨h.2, by omega, e2.symm⟩
    | some j => simp only [C.error_ok] at h

theorem declareFunc_ok (hN : X.Names) (hi : Inv X s) {name : Token} {params : List Param} {ret : Option TyExpr}
    {body : Option (List Stmt)} {as : List Annotation} {i sc : Nat} (hn : name.str ∈ X.K.fns) (hb : builtinAnn as = false)
    (hps : ∀ p ∈ params, p.name.str ∈ X.K.vars ∧ plainTy X.K.reals p.ty = true) (hr : okRet X.K.reals ret = true)
    (h : declareFunc X.cfg X.mod name params ret body false as s = .ok ((i, sc), s')) :
    s.ana.ctxScope = X.g ∧ ∃ ps t, Made X s s' ret i sc ps t ∧ ps.length = params.length := by
  unfold declareFunc at h
  rw [C.bind_ok] at h
  obtain ⟨_, s1, h1, h⟩ := h
  obtain ⟨e1, hd, hfree⟩ := validateDecl_ok h1
  obtain rfl := e1.symm
  have hctx : s.ana.ctxScope = X.g := hi.top.mp hd
  rw [hctx] at hfree
  rw [C.bind_ok] at h
  obtain ⟨_, s2, h2, h⟩ := h
  have e2 : s2 = s := by
    unfold checkNumParams at h2
    split at h2
    · simp only [C.error_ok] at h2
    · exact (C.pure_ok.mp h2).2
  obtain rfl := e2.symm
  rw [C.bind_ok] at h
  obtain ⟨t, s3, h3, h⟩ := h
  obtain ⟨e3, htt, hvoid⟩ := getTy?_ok hN hi hr h3
  obtain rfl := e3.symm
  rw [C.bind_ok] at h
  obtain ⟨j, s4, h4, h⟩ := h
  rw [newSym_ok] at h4
  obtain ⟨rfl, rfl⟩ := h4
  rw [C.bind_ok] at h
  obtain ⟨k, s5, h5, h⟩ := h
  have fin : i = s.syms.length ∧ sc = k ∧ s' = s5 := by
    rw [hb] at h
    simp only [Bool.or_self, Bool.false_eq_true, if_false] at h
    rw [C.bind_ok] at h
    obtain ⟨v, s6, h6, h⟩ := h
    rw [sameTy_ok] at h6
    obtain ⟨-, rfl⟩ := h6
    split at h
    · simp only [C.pure_ok, Prod.mk.injEq] at h
      exact ⟨h.1.1, h.1.2, h.2⟩
    · simp [C.bind_ok, C.error_ok] at h
  obtain ⟨rfl, rfl, rfl⟩ := fin
  refine ⟨hctx, ?_⟩
  clear h
  unfold makeFunc at h5
  rw [C.bind_ok] at h5
  obtain ⟨_, s6, h6, h5⟩ := h5
  rw [updSym_ok (append_last _ _)] at h6
  rw [C.bind_ok] at h5
  obtain ⟨_, s7, h7, h5⟩ := h5
  rw [C.get_ok] at h7
  obtain ⟨e7, e7'⟩ := h7
  obtain rfl := e7.symm
  obtain rfl := e7'.symm
  rw [C.bind_ok] at h5
  obtain ⟨_, s8, h8, h5⟩ := h5
  rw [append_set] at h6
  obtain ⟨x, o, hx, e8, -⟩ := defineSymbol_ok h8
  rw [h6] at hx e8
  rw [append_last] at hx
  cases hx
  simp only [append_set, hctx] at e8
  have hw : s8 = withVar s X.g { name := name.str, outId := o, modPath := X.mod, builtin := false, isGlobal := true, body := .func t [] } := by
    rw [e8, hb]; rfl
  clear e8
  have hi8 : Inv X s8 := by
    rw [hw]
    exact withFn_inv hi rfl rfl rfl htt hn rfl hfree
  have hl8 : Later s s8 := by rw [hw]; exact withVar_later hfree
  have hlen8 : s8.syms.length = s.syms.length + 1 := by rw [hw]; simp [withVar]
  have hsym8 : s8.syms[s.syms.length]? = some { name := name.str, outId := o, modPath := X.mod, builtin := false, isGlobal := true, body := .func t [] } := by
    rw [hw]; exact append_last _ _
  rw [C.bind_ok] at h5
  obtain ⟨ps, s9, h9, h5⟩ := h5
  obtain ⟨hi9, hq9, hsc9, hnd, new, hnew, hlen9, hndi, hps9⟩ := paramSyms_ok hN hps hi8 (by simp) h9
  simp only [List.nil_append] at hnew
  subst hnew
  rw [C.bind_ok] at h5
  obtain ⟨k', s10, h10, h5⟩ := h5
  obtain ⟨rfl, e10⟩ := innerScope_ok h10
  have hctx9 : s9.ana.ctxScope = X.g := by
    rw [hq9.ctx, hw]; exact hctx
  have hi10 : Inv X s10 := by rw [e10]; exact hi9.push hi9.ctx hi9.ctxLt
  have hq10 : Quiet s9 s10 := by rw [e10]; exact push_quiet _ _
  rw [C.bind_ok] at h5
  obtain ⟨_, s11, h11, h5⟩ := h5
  have hnone : ∀ n, lookIn s10.scopes s9.scopes.length n = none := by
    intro n
    rw [e10]
    show lookIn (s9.scopes ++ _) _ n = none
    rw [push_look]
    unfold lookIn
    rw [List.getElem?_eq_none (Nat.le_refl _)]
    rfl
  have hdp : Deep s10.scopes s9.scopes.length (s6.ana.depth + 1) := by
    obtain ⟨l9, hl9⟩ := (hq9.step 0).ana
    have hd9 : s6.ana.depth = s9.ana.depth := by rw [hl9, hw, h6]; rfl
    rw [hd9, e10]
    exact .up (by simp; rfl) rfl (hi9.deep.mono fun k tab hk => ⟨tab, push_kept hk, rfl⟩)
  obtain ⟨hi11, hst11, hl11, hl11'⟩ := defineParams_ok hi9.sbase (by simp) hi10 hdp (fun p hp => by
    obtain ⟨q1, q2, y, u, q3, q4, q5, q6⟩ := hps9 p hp
    refine ⟨⟨Nat.le_trans hi8.base q1, q1⟩, q2, hnone _, ⟨y, ?_, q4⟩, fun k tab hk hm => ?_⟩
    · rw [e10]; exact q3
    · rw [e10] at hk
      rcases push_get hk with hk | ⟨rfl, rfl⟩
      · rw [hsc9] at hk
        exact absurd (hi8.bound k tab _ hk hm) (Nat.not_lt_of_le q1)
      · simp [ScopeTab.ids] at hm) (by rw [e10]; simp) hnd hndi h11
  rw [C.bind_ok] at h5
  obtain ⟨_, s12, h12, h5⟩ := h5
  rw [C.pure_ok] at h5
  obtain ⟨rfl, rfl⟩ := h5
  -- the symbol of the function in the end
  have hst811 : Step s9.scopes.length s8 s11 := ((hq9.trans hq10).step _).trans' hst11 (Nat.le_refl _)
  obtain ⟨f, hf, ef1, ef2, ef3⟩ := hst811.later.syms _ _ hsym8
  rw [updSym_ok hf] at h12
  have hbody : f.body = .func t [] := ef1
  rw [hbody] at h12
  have hget := set_get hf { f with body := .func t ps }
  have hps11 : ∀ p ∈ ps, X.b ≤ p.2 ∧ s.syms.length < p.2 ∧ ∃ y u, s11.syms[p.2]? = some y ∧ y.body = .var u ∧ y.isGlobal = false := by
    intro p hp
    obtain ⟨q1, q2, y, u, q3, q4, q5, q6⟩ := hps9 p hp
    obtain ⟨y', hy', d1, d2, d3⟩ := hq10.later.syms p.2 y q3
    obtain ⟨z, hz, e1, e2, e3⟩ := hst11.later.syms p.2 y' hy'
    have hlt : s.syms.length < p.2 := by rw [hlen8] at q1; exact q1
    exact ⟨Nat.le_trans hi8.base q1, hlt, z, u, hz, (e1.trans d1).trans q5, (e3.trans d3).trans q6⟩
  have hlater11 : Later s s11 := hl8.trans hst811.later
  have hlen9' : s9.scopes.length = s.scopes.length := by
    rw [hsc9, hw]
    exact bindIn_length _ _ _ _
  refine ⟨ps, t, ?_, hlen9⟩
  rw [h12]
  refine {
    inv := hi11.setParams hi.base hf hbody fun p hp => by
      obtain ⟨q1, _, y, u, q2, q3, _⟩ := hps11 p hp
      exact ⟨q1, y, u, q2, q3⟩
    ana := ?_, later := ?_, fresh := ?_, look := ?_, id := rfl, scope := hi9.sbase, newest := hlen9', one := ?_, tab := ?_, seen := ?_, mods := ?_, open_ := ?_,
    sym := ?_, ty := htt, void := hvoid, params := ?_, bound := hl11', apart := hndi }
  · obtain ⟨l, hl⟩ := hst811.ana
    exact ⟨l, by show s11.ana = _; rw [hl, hw]; rfl⟩
  · refine ⟨fun j x hx => ?_, hlater11.scopes⟩
    have hj : j < s.syms.length := (List.getElem?_eq_some_iff.mp hx).1
    show ∃ y, (s11.syms.set s.syms.length _)[j]? = some y ∧ _
    rw [hget, if_neg (by omega)]
    exact hlater11.syms j x hx
  · intro j y hy hn
    change (s11.syms.set s.syms.length _)[j]? = _ at hy
    rw [hget] at hy
    split at hy
    · exact .inr ‹_›
    · rename_i hne
      left
      refine hst811.vars j y hy ?_
      rw [hw]
      show (s.syms ++ [_])[j]? = none
      have hge := List.getElem?_eq_none_iff.mp hn
      rw [List.getElem?_eq_none_iff]
      simp
      omega
  · intro n j hl
    have hgne : X.g ≠ s9.scopes.length := by
      have h1 := hi9.gsb
      have h2 := hi9.sbase
      omega
    have hglt : X.g < s8.scopes.length := Nat.lt_of_lt_of_le hi8.gsb hi8.sbase
    have hfr := hst811.frame X.g _ hgne (List.getElem?_eq_getElem hglt)
    have hl' : lookIn s8.scopes X.g n = some j := by
      unfold lookIn at hl ⊢
      rw [show (s11.scopes)[X.g]? = _ from hfr] at hl
      rw [List.getElem?_eq_getElem hglt]
      exact hl
    rw [hw] at hl'
    change lookIn (bindIn s.scopes X.g name.str s.syms.length) X.g n = _ at hl'
    rw [bindIn_look] at hl'
    split at hl'
    · cases hl'; exact .inr rfl
    · exact .inl hl'
  · show s11.scopes.length = _
    rw [defineParams_length h11, e10, List.length_append, hlen9']
    rfl
  · have htab : s10.scopes[s9.scopes.length]? = some ⟨[], some s9.ana.ctxScope⟩ := by rw [e10]; simp
    obtain ⟨tab, h1, h2, _⟩ := hst11.later.scopes _ _ htab
    exact ⟨tab, h1, by rw [h2, hctx9, hctx]⟩
  · intro n j hl
    rcases hl11 n j hl with hl | hl
    · rw [hnone] at hl; cases hl
    · exact hl
  · show s11.mods = _
    rw [hst811.mods, hw]; rfl
  · show s11.open_ = _
    rw [hst811.open_, hw]; rfl
  · refine ⟨{ f with body := .func t ps }, ?_, rfl⟩
    show (s11.syms.set s.syms.length _)[s.syms.length]? = _
    rw [hget, if_pos rfl]
  · intro p hp
    obtain ⟨q1, q0, y, u, q2, q3, q4⟩ := hps11 p hp
    refine ⟨q1, y, u, ?_, q3, q4⟩
    show (s11.syms.set s.syms.length _)[p.2]? = _
    rw [hget, if_neg (by omega)]
    exact q2

end

/-! ## Statements of a module -/

section
variable (F : Type) [FloatOps F] (X : World) (L : Lang)

/-- The body of a declared function: where it stands, and that it keeps to the rules. -/
structure BodyGood (d : SymId × ScopeId × List TStmt) (t : CTy) (ps : List (String × SymId)) : Prop where
  typed : ∃ tidy Γ', TSs F L X.table (some (toTy [] t)) ⟨false, tidy, X.K.strict, false⟩ (ps.map (·.2) ++ X.needs d.1)
    (some d.2.1) d.2.2 Γ' ∧ (X.K.strict = true → tidy = true ∨ ps ≠ [] ∨ d.2.2.any isVar = true)
  bound : ∀ p ∈ ps, p.2 ∈ L.env.ids d.2.1
  apart : (ps.map (·.2)).Nodup
  within : Within L d.2.1 (some X.g)

/-- A declared function keeps to its type. -/
def FnGood (d : SymId × ScopeId × List TStmt) : Prop :=
  X.b ≤ d.1 ∧ ∃ x t ps, X.sf.syms[d.1]? = some x ∧ x.body = .func t ps ∧
    (∀ f, X.fn d.1 = some f → FnOk F L X.table ⟨ps.map (·.2), d.2.1, d.2.2⟩ f) ∧ BodyGood F X L d t ps

/-- What is shown of a visited statement of a module. -/
def TopDone (s s' : CState) (a : AStmt) : Prop :=
  Inv X s' ∧ (∃ l, s'.ana = { s.ana with line := l }) ∧ Later s s' ∧ (TopG X s → TopG X s') ∧ s'.mods = s.mods ∧
  s'.open_ = s.open_ ∧
  ∀ Γ, Vis X s X.g Γ → ∃ Γ', Γ ⊆ Γ' ∧ Vis X s' X.g Γ' ∧
    (Later s' X.sf → TopG X s → s.ana.inLoop = false → s.ana.ctxFunc = none →
      ∃ ts, toS X.mod X.g true a X.sf = .ok (ts, X.sf) ∧ TS F L X.table none X.K.top Γ (some X.g) ts Γ' ∧
        (∀ d ∈ funcDecls [ts], FnGood F X L d) ∧
        (funcDecls [ts] = [] ∨ ∃ d, funcDecls [ts] = [d] ∧ s.syms.length ≤ d.1 ∧ d.1 < s'.syms.length) ∧
        (∀ (j : Nat) y t ps, s'.syms[j]? = some y → s.syms[j]? = none → y.body = .func t ps → ∃ d ∈ funcDecls [ts], d.1 = j))

end

section
variable {F : Type} [FloatOps F] {X : World} {L : Lang} {s s' : CState} {Γ : List SymId}

omit [FloatOps F] in
theorem needs_global {i j : Nat} (h : j ∈ X.needs i) : j < i ∧ X.b ≤ j ∧ isGlobalVar X.sf j = true := by
  unfold World.needs at h
  obtain ⟨h1, h2⟩ := List.mem_filter.mp h
  simp only [Bool.and_eq_true, decide_eq_true_eq] at h2
  exact ⟨List.mem_range.mp h1, h2.1, h2.2⟩

omit [FloatOps F] in
theorem isGlobalVar_iff {j : Nat} : isGlobalVar s j = true ↔ ∃ x t, s.syms[j]? = some x ∧ x.isGlobal = true ∧ x.body = .var t := by
  unfold isGlobalVar
  constructor
  · intro h
    split at h
    · rename_i x hx
      simp only [Bool.and_eq_true] at h
      refine ⟨x, ?_⟩
      cases hb : x.body with
      | var t => exact ⟨t, hx, h.1, rfl⟩
      | _ => rw [hb] at h; simp at h
    · cases h
  · rintro ⟨x, t, hx, hg, hb⟩
    rw [hx]
    simp [hg, hb]

/-- At the top every function finds what it needs. -/
theorem fns_top (hi : Inv X s) (hv : Vis X s X.g Γ) (hl : Later s X.sf) : Fns X s Γ := by
  intro i x t ps hbi hx hb j hj
  obtain ⟨hlt, hbj, hg⟩ := needs_global hj
  obtain ⟨y, u, hy, hgy, hby⟩ := isGlobalVar_iff.mp hg
  have hi' : i < s.syms.length := (List.getElem?_eq_some_iff.mp hx).1
  have hjl : j < s.syms.length := Nat.lt_trans hlt hi'
  obtain ⟨z, hz, e1, e2, e3⟩ := hl.syms j _ (List.getElem?_eq_getElem hjl)
  rw [hy] at hz
  cases hz
  have hlk := hi.global j _ hbj (List.getElem?_eq_getElem hjl) (e3.symm.trans hgy)
  exact hv.see _ j _ u (seen_of_look hlk) (List.getElem?_eq_getElem hjl) (e1.symm.trans hby) hbj

variable [LawfulFloatOps F] [ReadsNumerals F]

theorem top_stmt (hN : X.Names) (hL : X.Lang L) (hf : Inv X X.sf) {st : Stmt} {a : AStmt} (hk : okS X.K X.K.top st = true)
    (hi : Inv X s) (hctx : s.ana.ctxScope = X.g) (h : visitS X.cfg X.mod false false st s = .ok (a, s')) :
    TopDone F X L s s' a := by
  have hgood := @goodS F _ X L _ _ hN hL hf st
  have hall : Vis X s s.ana.ctxScope (List.range s.syms.length) := ⟨fun n i x t _ hx _ _ =>
    List.mem_range.mpr (List.getElem?_eq_some_iff.mp hx).1, fun i hi => List.mem_range.mp hi⟩
  obtain ⟨hi1, hst1, htg1, -⟩ := hgood hk hi hall h
  refine ⟨hi1, hst1.ana, hst1.later, htg1, hst1.mods, hst1.open_, fun Γ hv => ?_⟩
  obtain ⟨-, -, -, Γ', hsub, hv', ht⟩ := hgood (Γ := Γ) hk hi (by rw [hctx]; exact hv) h
  rw [hctx] at hv' ht
  refine ⟨Γ', hsub, hv', fun hl htop hloop hfun => ?_⟩
  obtain ⟨ts, h1, h2, _, h3, _⟩ := ht hl (fns_top hi hv (hst1.later.trans hl)) none
    (fun i h => by rw [hfun] at h; cases h)
  refine ⟨ts, h1, h2, by simp [h3], .inl h3, fun j y t ps hy hn hb => ?_⟩
  obtain ⟨u, hu⟩ := hst1.vars j y hy hn
  rw [hb] at hu
  cases hu

omit [FloatOps F] [LawfulFloatOps F] [ReadsNumerals F] in
/-- What is seen from the body of a function. -/
theorem body_vis {ret : Option TyExpr} {i sc : Nat} {ps : List (String × SymId)} {t : CTy} (hi : Inv X s)
    (hctx : s.ana.ctxScope = X.g) (hm : Made X s s' ret i sc ps t) (htg : TopG X s) (hl : Later s' X.sf) :
    Vis X s' sc (ps.map (·.2) ++ X.needs i) := by
  refine ⟨?_, fun j hj => ?_⟩
  rotate_left
  · rcases List.mem_append.mp hj with hj | hj
    · obtain ⟨p, hp, rfl⟩ := List.mem_map.mp hj
      obtain ⟨_, y, _, hy, _⟩ := hm.params p hp
      exact (List.getElem?_eq_some_iff.mp hy).1
    · obtain ⟨y, hy, _⟩ := hm.sym
      exact Nat.lt_trans (needs_global hj).1 (List.getElem?_eq_some_iff.mp hy).1
  intro n j x u hs hx hb hbj
  obtain ⟨tab, ht, hp⟩ := hm.tab
  rw [hctx] at hp
  have inG : lookIn s'.scopes X.g n = some j → j ∈ ps.map (·.2) ++ X.needs i := by
    intro hlk
    rcases hm.look n j hlk with hlk | rfl
    · obtain ⟨y, hy, _⟩ := hi.new X.g n j (.inl rfl) hlk hbj
      obtain ⟨z, hz, e1, e2, e3⟩ := hm.later.syms j y hy
      rw [hx] at hz
      cases hz
      have hgy := htg n j y u hlk hbj hy (e1.symm.trans hb)
      obtain ⟨w, hw, f1, f2, f3⟩ := hl.syms j x hx
      refine List.mem_append_right _ ?_
      unfold World.needs
      refine List.mem_filter.mpr ⟨List.mem_range.mpr ?_, ?_⟩
      · rw [hm.id]
        exact (List.getElem?_eq_some_iff.mp hy).1
      · simp only [Bool.and_eq_true, decide_eq_true_eq]
        exact ⟨hbj, isGlobalVar_iff.mpr ⟨w, u, hw, by rw [f3, e3]; exact hgy, f1.trans hb⟩⟩
    · obtain ⟨y, hy, hyb⟩ := hm.sym
      rw [hx] at hy
      cases hy
      rw [hb] at hyb
      cases hyb
  cases hs with
  | @here _ tab' _ ht' hlk =>
      obtain ⟨p, hp, rfl⟩ := hm.seen n j (by unfold lookIn; rw [ht']; exact hlk)
      exact List.mem_append_left _ (List.mem_map.mpr ⟨p, hp, rfl⟩)
  | @up _ tab' q _ ht' hlk hq hs =>
      rw [ht] at ht'
      cases ht'
      rw [hp] at hq
      cases hq
      obtain ⟨k', hk', hlk'⟩ := hm.inv.found (.inl rfl) hs
      cases hs with
      | here ht2 hl2 => exact inG (by unfold lookIn; rw [ht2]; exact hl2)
      | up ht2 hl2 hp2 _ => rw [hm.inv.root _ ht2] at hp2; cases hp2

omit [FloatOps F] [LawfulFloatOps F] [ReadsNumerals F] in
theorem Made.move {ret : Option TyExpr} {i sc : Nat} {ps : List (String × SymId)} {t : CTy} (hm : Made X s s' ret i sc ps t) :
    Inv X { s' with ana := { s'.ana with ctxFunc := some i } } :=
  hm.inv.move rfl rfl rfl hm.inv.ctx hm.inv.ctxLt hm.inv.top hm.inv.deep

theorem top_func (hN : X.Names) (hL : X.Lang L) (hf : Inv X X.sf) {name : Token} {params : List Param} {ret : Option TyExpr}
    {body : List Stmt} {as : List Annotation} {a : AStmt} (hk : okTop X.K (.func name params ret (some body) false as) = true)
    (hi : Inv X s) (hctx : s.ana.ctxScope = X.g)
    (h : visitS X.cfg X.mod false false (.func name params ret (some body) false as) s = .ok (a, s')) : TopDone F X L s s' a := by
  simp only [okTop, Bool.and_eq_true, Bool.or_eq_true, Bool.not_eq_true', List.contains_iff_mem, List.all_eq_true] at hk
  obtain ⟨⟨⟨⟨⟨hname, hbu⟩, hps⟩, hret⟩, hbody⟩, hrets⟩ := hk
  simp only [visitS, C.bind_ok, C.at_ok] at h
  obtain ⟨_, s0, e0, ⟨i, sc⟩, s1, h1, h⟩ := h
  rw [hbu] at h
  simp only [Bool.or_self, Bool.false_eq_true, if_false, inFunction, C.bind_ok, C.get_ok, C.modify_ok, C.pure_ok] at h
  obtain ⟨b, s2, ⟨_, _, ⟨e3, e3'⟩, _, s4, e4, b', s5, h5, _, s6, e6, e7, e8⟩, rfl, rfl⟩ := h
  obtain rfl := e3.symm
  obtain rfl := e3'.symm
  subst e7
  subst e8
  have hi0 : Inv X s0 := by rw [e0]; exact hi.line _
  have hl0 : Later s s0 := by rw [e0]; exact (Quiet.line s _).later
  obtain ⟨-, ps, t, hm, hplen⟩ := declareFunc_ok hN hi0 hname hbu hps hret h1
  obtain ⟨l1, hana1⟩ := hm.ana
  have hctx0 : s0.ana.ctxScope = X.g := by rw [e0]; exact hctx
  have hctx1 : s1.ana.ctxScope = X.g := by rw [hana1]; exact hctx0
  have hi4 : Inv X s4 := by rw [e4]; exact hm.move
  have hpar : ∃ tab, s4.scopes[sc]? = some tab ∧ tab.parent = some s4.ana.ctxScope := by
    obtain ⟨tab, ht, hp⟩ := hm.tab
    refine ⟨tab, by rw [e4]; exact ht, ?_⟩
    rw [hp, e4, hctx0]
    exact congrArg some hctx1.symm
  have hall : Vis X s4 sc (List.range s4.syms.length) := ⟨fun n i x t _ hx _ _ =>
    List.mem_range.mpr (List.getElem?_eq_some_iff.mp hx).1, fun i hi => List.mem_range.mp hi⟩
  have hg : ∀ st ∈ body, GoodS F X L st := fun st _ => goodS hN hL hf st
  obtain ⟨hi5, hst5, -⟩ := block_ok hg hbody hi4 hm.scope hpar hall h5
  obtain ⟨l5, hana5⟩ := hst5.ana
  have hl14 : Later s1 s4 := by rw [e4]; exact ⟨(Later.refl s1).syms, (Later.refl s1).scopes⟩
  have hl1s : Later s1 s' := by
    rw [e6]
    exact ⟨(hl14.trans hst5.later).syms, (hl14.trans hst5.later).scopes⟩
  have hls : Later s s' := hl0.trans (hm.later.trans hl1s)
  have hfinv : Inv X s' := by
    rw [e6]
    exact hi5.move rfl rfl rfl hi5.ctx hi5.ctxLt hi5.top hi5.deep
  have hscg : X.g ≠ sc := by
    have h1 := hi.gsb
    have h2 := hm.scope
    omega
  have hsc5 : ∀ n j, lookIn s'.scopes X.g n = some j → lookIn s1.scopes X.g n = some j := by
    intro n j hlk
    have hglt : X.g < s4.scopes.length := Nat.lt_of_lt_of_le hi4.gsb hi4.sbase
    have hfr := hst5.frame X.g _ hscg (List.getElem?_eq_getElem hglt)
    have : lookIn s4.scopes X.g n = some j := by
      rw [e6] at hlk
      unfold lookIn at hlk ⊢
      rw [show s5.scopes[X.g]? = _ from hfr] at hlk
      rw [List.getElem?_eq_getElem hglt]
      exact hlk
    rw [e4] at this
    exact this
  have hlook : ∀ n j, lookIn s'.scopes X.g n = some j → lookIn s.scopes X.g n = some j ∨ j = i := by
    intro n j hlk
    rcases hm.look n j (hsc5 n j hlk) with h | h
    · rw [e0] at h; exact .inl h
    · exact .inr h
  have hfn2 : ∃ x, s'.syms[i]? = some x ∧ x.body = .func t ps := by
    obtain ⟨x, hx, hb⟩ := hm.sym
    obtain ⟨y, hy, e, _⟩ := hl1s.syms i x hx
    exact ⟨y, hy, e.trans hb⟩
  have hold : ∀ n (j : Nat) x u, lookIn s'.scopes X.g n = some j → X.b ≤ j → s'.syms[j]? = some x → x.body = .var u →
      lookIn s.scopes X.g n = some j ∧ ∃ y, s.syms[j]? = some y ∧ y.body = .var u ∧ x.isGlobal = y.isGlobal := by
    intro n j x u hlk hbj hx hb
    rcases hlook n j hlk with hlk' | rfl
    · obtain ⟨y, hy, _⟩ := hi.new X.g n j (.inl rfl) hlk' hbj
      obtain ⟨z, hz, e1, e2, e3⟩ := hls.syms j y hy
      rw [hx] at hz
      cases hz
      exact ⟨hlk', y, hy, e1.symm.trans hb, e3⟩
    · obtain ⟨y, hy, hyb⟩ := hfn2
      rw [hx] at hy
      cases hy
      rw [hb] at hyb
      cases hyb
  refine ⟨hfinv, ⟨l5, ?_⟩, hls, fun htg n j x u hlk hbj hx hb => ?_, ?_, ?_, fun Γ hv => ⟨Γ, fun _ h => h, ?_, fun hl htg hloop hfun => ?_⟩⟩
  · rw [e6]
    show ({ s5.ana with ctxFunc := s1.ana.ctxFunc } : Ana) = _
    rw [hana5, e4, hana1, e0]
    rfl
  · obtain ⟨hlk', y, hy, hyb, he⟩ := hold n j x u hlk hbj hx hb
    rw [he]
    exact htg n j y u hlk' hbj hy hyb
  · rw [e6]
    show s5.mods = _
    rw [hst5.mods, e4]
    show s1.mods = _
    rw [hm.mods, e0]
    rfl
  · rw [e6]
    show s5.open_ = _
    rw [hst5.open_, e4]
    show s1.open_ = _
    rw [hm.open_, e0]
    rfl
  · refine ⟨?_, fun j hj => Nat.lt_of_lt_of_le (hv.old j hj) hls.symsLen⟩
    intro n j x u hs hx hb hbj
    have hlk : lookIn s'.scopes X.g n = some j := by
      cases hs with
      | here ht2 hl2 => unfold lookIn; rw [ht2]; exact hl2
      | up ht2 hl2 hp2 _ => rw [hfinv.root _ ht2] at hp2; cases hp2
    obtain ⟨hlk', y, hy, hyb, he⟩ := hold n j x u hlk hbj hx hb
    exact hv.see n j y u (seen_of_look hlk') hy hyb hbj
  · have hl5 : Later s5 X.sf := by rw [e6] at hl; exact ⟨hl.syms, hl.scopes⟩
    have hl1 : Later s1 X.sf := hl1s.trans hl
    have hl4 : Later s4 X.sf := hst5.later.trans hl5
    have htg0 : TopG X s0 := by rw [e0]; exact htg
    have hv1 := body_vis hi0 hctx0 hm htg0 hl1
    have hv4 : Vis X s4 sc (ps.map (·.2) ++ X.needs i) := by rw [e4]; exact ⟨hv1.see, hv1.old⟩
    obtain ⟨-, -, ht5⟩ := block_ok hg hbody hi4 hm.scope hpar hv4 h5
    have hid : i = s.syms.length := by rw [hm.id, e0]; rfl
    have hbi : X.b ≤ i := by rw [hid]; exact hi.base
    have hfns4 : Fns X s4 (ps.map (·.2) ++ X.needs i) := by
      intro j x u qs hbj hx hb k hk
      refine List.mem_append_right _ ?_
      have hji : j ≤ i := by
        by_contra hc
        have hn : s0.syms[j]? = none := by
          rw [List.getElem?_eq_none_iff, ← hm.id]
          have : i < j := Nat.lt_of_not_le hc
          omega
        rcases hm.fresh j x (by rw [e4] at hx; exact hx) hn with ⟨w, hw⟩ | hji
        · rw [hb] at hw; cases hw
        · exact hc (Nat.le_of_eq hji)
      obtain ⟨q1, q2, q3⟩ := needs_global hk
      unfold World.needs
      refine List.mem_filter.mpr ⟨List.mem_range.mpr (Nat.lt_of_lt_of_le q1 hji), ?_⟩
      simp [q2, q3]
    obtain ⟨x, hx, hxb⟩ := hm.sym
    have hret4 : RetOk X s4 (some (toTy [] t)) := by
      intro j hj
      rw [e4] at hj ⊢
      cases hj
      exact ⟨x, t, ps, hx, hxb, hm.ty, rfl⟩
    obtain ⟨bd, Γ5, h6, h7, h8, h9⟩ := ht5 hl5 hfns4 _ hret4
    obtain ⟨y, hy, ey, _⟩ := hl1.syms i x hx
    refine ⟨.func name.line i (.mk sc bd), ?_, .func rfl, ?_, .inr ⟨_, rfl, Nat.le_of_eq hid.symm, ?_⟩, ?_⟩
    · simp only [toS]
      exact C.bind_ok.mpr ⟨_, _, h6, rfl⟩
    · intro d hd
      simp only [funcDecls, List.mem_singleton] at hd
      subst hd
      refine ⟨hbi, y, t, ps, hy, ey.trans hxb, fun f hfn => ?_, ⟨⟨_, Γ5, h7, fun hs => ?_⟩, fun p hp => ?_, hm.apart, ?_⟩⟩
      rotate_left
      · by_cases hpe : params = []
        · cases hd : body.any isDecl with
          | true => exact .inr (.inr (h9.trans hd))
          | false => exact .inl (by simp [hs, hpe])
        · refine .inr (.inl fun he => hpe ?_)
          rw [he] at hplen
          exact List.eq_nil_of_length_eq_zero hplen.symm
      · obtain ⟨k, hk, hmem⟩ := declared_of hL (hm.bound p hp) hl1
        cases hk
        exact hmem
      · obtain ⟨tab, htab, hpt⟩ := hm.tab
        rw [hctx0] at hpt
        exact within_of hL htab hpt hl1
      have hfe : f = ⟨ps.map fun p => (X.vty p.2).getD .unknown, toTy [] t, X.needs i⟩ := by
        unfold World.fn at hfn
        rw [if_pos hbi, hy] at hfn
        simp only [Option.map_some, ey.trans hxb, Option.some.injEq] at hfn
        exact hfn.symm
      subst hfe
      have hvt : ∀ p ∈ ps, ∃ u, X.vty p.2 = some u := by
        intro p hp
        obtain ⟨q1, z, u, q2, q3, q4⟩ := hm.params p hp
        obtain ⟨w, hw, e1, _⟩ := hl1.syms p.2 z q2
        refine ⟨toTy [] u, ?_⟩
        unfold World.vty
        rw [if_pos q1, hw]
        simp only [Option.map_some, e1, q3]
      refine { params := ?_, locals := ?_, needs := ?_, body := ⟨_, Γ5, rfl, h7⟩, returns := ?_ }
      · show List.Forall₂ _ (ps.map (·.2)) (ps.map _)
        rw [List.forall₂_map_left_iff, List.forall₂_map_right_iff, List.forall₂_same]
        intro p hp
        obtain ⟨u, hu⟩ := hvt p hp
        show X.vty p.2 = _
        rw [hu]
        rfl
      · intro q hq
        obtain ⟨p, hp, rfl⟩ := List.mem_map.mp hq
        obtain ⟨q1, z, u, q2, q3, q4⟩ := hm.params p hp
        obtain ⟨w, hw, _, _, e3⟩ := hl1.syms p.2 z q2
        refine ⟨w.toSym, ?_, by show w.isGlobal = _; rw [e3, q4]⟩
        rw [hL]
        show (X.sf.syms.map CSym.toSym)[p.2]? = _
        rw [List.getElem?_map, hw]
        rfl
      · intro j hj
        obtain ⟨_, _, q3⟩ := needs_global hj
        obtain ⟨z, u, hz, hgz, _⟩ := isGlobalVar_iff.mp q3
        refine ⟨z.toSym, ?_, hgz⟩
        rw [hL]
        show (X.sf.syms.map CSym.toSym)[j]? = _
        rw [List.getElem?_map, hz]
        rfl
      · show toTy [] t = .vazio ∨ mustReturns bd = true
        rcases hrets with hn | hr
        · left
          rw [hm.void (by simpa using hn)]
          rfl
        · right
          rw [h8, hr]
    · obtain ⟨z, hz, -⟩ := hfn2
      exact (List.getElem?_eq_some_iff.mp hz).1
    · intro j z u qs hz hn hb
      refine ⟨(i, sc, bd), by simp [funcDecls], ?_⟩
      show i = j
      by_contra hne
      have hz5 : s5.syms[j]? = some z := by rw [e6] at hz; exact hz
      cases h4 : s4.syms[j]? with
      | none =>
          obtain ⟨w, hw⟩ := hst5.vars j z hz5 h4
          rw [hb] at hw
          cases hw
      | some w =>
          obtain ⟨w', hw', e1, _⟩ := hst5.later.syms j w h4
          rw [hz5] at hw'
          cases hw'
          rcases hm.fresh j w (by rw [e4] at h4; exact h4) (by rw [e0]; exact hn) with ⟨v, hv⟩ | hji
          · rw [← e1, hb] at hv; cases hv
          · exact hne hji.symm

end

end Amanda.Check

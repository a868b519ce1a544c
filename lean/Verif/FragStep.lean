import Verif.FragExpr

/-!
# Changes of the tables of symbols and scopes
-/

namespace Amanda.Check

open Source

/-! ## Definitions in scopes -/

theorem find_assign (key : String) (v : SymId) (n : String) : ∀ l : List (String × SymId),
    ((assign key v l).find? (·.1 == n)).map (·.2) = if n = key then some v else (l.find? (·.1 == n)).map (·.2)
  | [] => by
      unfold assign
      by_cases h : n = key
      · subst h; simp
      · have : (key == n) = false := by simpa using Ne.symm h
        simp [this, h]
  | (k, w) :: rest => by
      unfold assign
      by_cases hk : k = key
      · subst hk
        rw [if_pos rfl]
        by_cases h : n = k
        · subst h; simp
        · have : (k == n) = false := by simpa using Ne.symm h
          simp [this, h]
      · rw [if_neg hk]
        by_cases h : k = n
        · subst h
          simp [hk]
        · have hb : (k == n) = false := by simpa using h
          simp only [List.find?_cons, hb]
          exact find_assign key v n rest

theorem mem_assign {key n : String} {v j : SymId} : ∀ {l : List (String × SymId)}, (n, j) ∈ assign key v l →
    j = v ∨ (n, j) ∈ l
  | [], h => by simp only [assign, List.mem_singleton, Prod.mk.injEq] at h; exact .inl h.2
  | (k, w) :: rest, h => by
      unfold assign at h
      split at h
      · rcases List.mem_cons.mp h with h | h
        · simp only [Prod.mk.injEq] at h; exact .inl h.2
        · exact .inr (List.mem_cons_of_mem _ h)
      · rcases List.mem_cons.mp h with h | h
        · exact .inr (h ▸ List.mem_cons_self)
        · exact (mem_assign h).imp_right (List.mem_cons_of_mem _)

/-- Scopes after a definition. -/
def bindIn (scopes : List ScopeTab) (sc : Nat) (n : String) (i : Nat) : List ScopeTab :=
  scopes.modify sc fun t => { t with symbols := assign n i t.symbols }

theorem bindIn_length (scopes : List ScopeTab) (sc : Nat) (n : String) (i : Nat) :
    (bindIn scopes sc n i).length = scopes.length := by simp [bindIn]

theorem bindIn_get (scopes : List ScopeTab) (sc : Nat) (n : String) (i k : Nat) :
    (bindIn scopes sc n i)[k]? =
      if k = sc then (scopes[k]?).map fun t => { t with symbols := assign n i t.symbols } else scopes[k]? := by
  unfold bindIn
  rw [List.getElem?_modify]
  by_cases h : sc = k
  · subst h; simp
  · have h' : ¬ k = sc := fun e => h e.symm
    rw [if_neg h']
    simp [h]

theorem bindIn_parent {scopes : List ScopeTab} {sc : Nat} {n : String} {i k : Nat} {tab : ScopeTab}
    (h : (bindIn scopes sc n i)[k]? = some tab) : ∃ tab', scopes[k]? = some tab' ∧ tab'.parent = tab.parent := by
  rw [bindIn_get] at h
  split at h
  · cases hk : scopes[k]? with
    | none => rw [hk] at h; cases h
    | some t => rw [hk] at h; simp at h; exact ⟨t, rfl, by rw [← h]⟩
  · exact ⟨tab, h, rfl⟩

theorem bindIn_look (scopes : List ScopeTab) (sc : Nat) (n : String) (i k : Nat) (m : String) :
    lookIn (bindIn scopes sc n i) k m =
      if k = sc ∧ m = n ∧ sc < scopes.length then some i else lookIn scopes k m := by
  unfold lookIn
  rw [bindIn_get]
  by_cases hk : k = sc
  · subst hk
    rw [if_pos rfl]
    cases hs : scopes[k]? with
    | none =>
        have : ¬ k < scopes.length := by
          intro hl
          rw [List.getElem?_eq_getElem hl] at hs
          cases hs
        simp [this]
    | some t =>
        have : k < scopes.length := (List.getElem?_eq_some_iff.mp hs).1
        simp only [Option.map_some, Option.bind_some]
        unfold look
        simp only
        rw [find_assign]
        simp [this]
  · simp [hk]

/-- Scopes with one more. -/
theorem push_look (scopes : List ScopeTab) (p : Option ScopeId) (k : Nat) (n : String) :
    lookIn (scopes ++ [⟨[], p⟩]) k n = lookIn scopes k n := by
  unfold lookIn
  by_cases hk : k < scopes.length
  · rw [List.getElem?_append_left hk]
  · rw [List.getElem?_append_right (Nat.le_of_not_lt hk)]
    have : scopes[k]? = none := List.getElem?_eq_none (Nat.le_of_not_lt hk)
    rw [this]
    cases hd : k - scopes.length with
    | zero => simp [look]
    | succ m => simp

theorem push_get {scopes : List ScopeTab} {p : Option ScopeId} {k : Nat} {tab : ScopeTab}
    (h : (scopes ++ [⟨[], p⟩])[k]? = some tab) : scopes[k]? = some tab ∨ (k = scopes.length ∧ tab = ⟨[], p⟩) := by
  by_cases hk : k < scopes.length
  · rw [List.getElem?_append_left hk] at h
    exact .inl h
  · rw [List.getElem?_append_right (Nat.le_of_not_lt hk)] at h
    have hle := Nat.le_of_not_lt hk
    cases hd : k - scopes.length with
    | zero =>
        rw [hd] at h
        simp at h
        exact .inr ⟨by omega, h.symm⟩
    | succ m => rw [hd] at h; simp at h

theorem modify_get {syms : List CSym} {i : Nat} {x : CSym} (hx : syms[i]? = some x) (f : CSym → CSym) :
    syms.modify i f = syms.set i (f x) := by
  rw [List.modify_eq_set_getElem?, hx]
  rfl

theorem set_same {syms : List CSym} {i : Nat} {x : CSym} (hx : syms[i]? = some x) : syms.set i x = syms := by
  obtain ⟨hl, rfl⟩ := List.getElem?_eq_some_iff.mp hx
  exact List.set_getElem_self hl

theorem updSym_ok {i : SymId} {f : CSym → CSym} {u : Unit} {s s' : CState} {x : CSym} (hx : s.syms[i]? = some x) :
    updSym i f s = .ok (u, s') ↔ s' = { s with syms := s.syms.set i (f x) } := by
  unfold updSym
  rw [C.modify_ok, modify_get hx]

theorem defineSymbol_ok {cfg : CCfg} {i : SymId} {d : Nat} {sc : ScopeId} {u : Unit} {s s' : CState}
    (h : defineSymbol cfg i d sc s = .ok (u, s')) :
    ∃ x o, s.syms[i]? = some x ∧
      s' = { s with syms := s.syms.set i { x with outId := o }, scopes := bindIn s.scopes sc x.name i } ∧
      (1 ≤ d → o = innerName d (tabLen s.scopes sc)) := by
  unfold defineSymbol at h
  rw [C.bind_ok] at h
  obtain ⟨x, s1, h1, h⟩ := h
  rw [symOf_ok] at h1
  obtain ⟨hx, e1⟩ := h1
  have := e1.symm; subst this
  rw [C.bind_ok] at h
  obtain ⟨l, s2, h2, h⟩ := h
  rw [symbolsOf_ok] at h2
  obtain ⟨el, e2⟩ := h2
  have := e2.symm; subst this
  have hl : l.length = tabLen s.scopes sc := by
    rw [el]
    unfold tabLen
    cases s.scopes[sc]? <;> rfl
  simp only at h
  split at h
  · rw [C.bind_ok] at h
    obtain ⟨_, s3, h3, h⟩ := h
    rw [updSym_ok hx] at h3
    simp only [define, C.modify_ok] at h
    exact ⟨x, _, hx, by rw [h, h3]; rfl, fun _ => by rw [hl]; rfl⟩
  · rename_i hc
    simp only [define, C.modify_ok] at h
    exact ⟨x, x.outId, hx, by rw [h, set_same hx]; rfl, fun hd => by simp at hc; omega⟩

theorem assign_fresh {tab : ScopeTab} {n : String} {i : SymId} (h : look tab n = none) :
    ({ tab with symbols := assign n i tab.symbols } : ScopeTab) = { tab with symbols := tab.symbols ++ [(n, i)] } := by
  have : ∀ l : List (String × SymId), l.find? (·.1 == n) = none → assign n i l = l ++ [(n, i)] := by
    intro l
    induction l with
    | nil => intro _; rfl
    | cons p l ih =>
        intro h
        rw [List.find?_cons] at h
        split at h
        · cases h
        · rename_i hp
          have hp' : p.1 ≠ n := by simpa using hp
          unfold assign
          rw [if_neg hp', ih h]
          rfl
  rw [this]
  unfold look at h
  simpa using h

theorem bindIn_kept {scopes : List ScopeTab} {sc : Nat} {n : String} {i k : Nat} {tab : ScopeTab} (h : scopes[k]? = some tab) :
    ∃ tab', (bindIn scopes sc n i)[k]? = some tab' ∧ tab'.parent = tab.parent := by
  rw [bindIn_get, h]
  split
  · exact ⟨_, rfl, rfl⟩
  · exact ⟨tab, rfl, rfl⟩

/-- The entries of the scopes after a definition. -/
theorem bindIn_entry {scopes : List ScopeTab} {k k' : Nat} {n n' : String} {i j : Nat} {tab : ScopeTab} (hfree : lookIn scopes k n = none)
    (ht : (bindIn scopes k n i)[k']? = some tab) (he : (n', j) ∈ tab.symbols) : look tab n' = some j ∨
      ∃ tab0, scopes[k']? = some tab0 ∧ (n', j) ∈ tab0.symbols ∧ ∀ m l, look tab0 m = some l → look tab m = some l := by
  rw [bindIn_get] at ht
  split at ht
  · rename_i hkk
    subst hkk
    cases ht0 : scopes[k']? with
    | none => rw [ht0] at ht; cases ht
    | some t =>
        rw [ht0] at ht
        simp only [Option.map_some, Option.some.injEq] at ht
        have hl : look t n = none := by
          unfold lookIn at hfree
          rw [ht0] at hfree
          exact hfree
        rw [← ht, assign_fresh hl] at he
        rcases List.mem_append.mp he with he | he
        · refine .inr ⟨t, rfl, he, fun m l hm => ?_⟩
          have hne : m ≠ n := by
            rintro rfl
            rw [hl] at hm
            cases hm
          rw [← ht]
          unfold look at hm ⊢
          simp only
          rw [find_assign, if_neg hne]
          exact hm
        · simp only [List.mem_singleton, Prod.mk.injEq] at he
          obtain ⟨rfl, rfl⟩ := he
          refine .inl ?_
          rw [← ht]
          unfold look
          simp only
          rw [find_assign, if_pos rfl]
  · exact .inr ⟨tab, ht, he, fun _ _ h => h⟩

theorem push_kept {scopes : List ScopeTab} {new tab : ScopeTab} {k : Nat} (h : scopes[k]? = some tab) :
    (scopes ++ [new])[k]? = some tab := by
  rw [List.getElem?_append_left (List.getElem?_eq_some_iff.mp h).1]; exact h

/-! ## What is kept -/

section
variable {X : World} {s s' : CState}

theorem Mine.mono {x : CSym} (h : Mine X s x)
    (hs : ∀ (i : Nat) y t, s.syms[i]? = some y → y.body = .var t → ∃ y', s'.syms[i]? = some y' ∧ y'.body = .var t) :
    Mine X s' x := by
  obtain ⟨hm, hb, h | ⟨t, ps, h1, h2, h3, h4, h5⟩⟩ := h
  · exact ⟨hm, hb, .inl h⟩
  · refine ⟨hm, hb, .inr ⟨t, ps, h1, h2, h3, h4, fun p hp => ?_⟩⟩
    obtain ⟨h6, y, u, h7, h8⟩ := h5 p hp
    obtain ⟨y', h9, h10⟩ := hs _ y u h7 h8
    exact ⟨h6, y', u, h9, h10⟩

theorem Inv.change (h : Inv X s) (hana : s'.ana = s.ana) (hlen : s.syms.length ≤ s'.syms.length)
    (hsl : s.scopes.length ≤ s'.scopes.length)
    (hparent : ∀ (k : Nat) tab', s'.scopes[k]? = some tab' → (∃ tab, s.scopes[k]? = some tab ∧ tab.parent = tab'.parent) ∨
      (X.sb ≤ k ∧ ∃ p : Nat, tab'.parent = some p ∧ (p = X.g ∨ X.sb ≤ p) ∧ p < k))
    (hlook : ∀ (k : Nat) n (i : Nat), lookIn s'.scopes k n = some i → lookIn s.scopes k n = some i ∨
      (X.b ≤ i ∧ (X.sb ≤ k → n ∈ X.K.vars) ∧ ∃ x, s'.syms[i]? = some x ∧ x.name = n))
    (hkeep : ∀ n (i : Nat), lookIn s.scopes X.g n = some i → lookIn s'.scopes X.g n = some i)
    (hold : ∀ i, i < X.b → s'.syms[i]? = s.syms[i]?)
    (hnames : ∀ (i : Nat) x, s.syms[i]? = some x → ∃ y, s'.syms[i]? = some y ∧ y.name = x.name)
    (hmine : ∀ (i : Nat) x, X.b ≤ i → s'.syms[i]? = some x → Mine X s' x)
    (hglobal : ∀ (i : Nat) x, X.b ≤ i → s'.syms[i]? = some x → x.isGlobal = true → lookIn s'.scopes X.g x.name = some i)
    (k₀ : Nat)
    (hids : ∀ (k : Nat) tab' (i : Nat), s'.scopes[k]? = some tab' → i ∈ ScopeTab.ids tab' →
      (∃ tab, s.scopes[k]? = some tab ∧ i ∈ ScopeTab.ids tab) ∨
      (k = k₀ ∧ i < s'.syms.length ∧ ∀ (k' : Nat) tab, s.scopes[k']? = some tab → i ∉ ScopeTab.ids tab))
    (hpar : ∀ (k : Nat) tab, s.scopes[k]? = some tab → ∃ tab', s'.scopes[k]? = some tab' ∧ tab'.parent = tab.parent)
    (hnum : ∀ (k m : Nat) tab n (i : Nat) x, k ≠ X.g → s'.scopes[k]? = some tab → tab.symbols[m]? = some (n, i) → s'.syms[i]? = some x →
      (∃ d, X.sb ≤ k ∧ Deep s'.scopes k d ∧ x.outId = innerName d m) ∨
      ∃ tab0 x0, s.scopes[k]? = some tab0 ∧ tab0.symbols[m]? = some (n, i) ∧ s.syms[i]? = some x0 ∧ x0.outId = x.outId)
    (hent : ∀ (k : Nat) tab n (i : Nat), s'.scopes[k]? = some tab → (n, i) ∈ tab.symbols → look tab n = some i ∨
      ∃ tab0, s.scopes[k]? = some tab0 ∧ (n, i) ∈ tab0.symbols ∧ ∀ m j, look tab0 m = some j → look tab m = some j) :
    Inv X s' where
  reg := by rw [hana]; exact h.reg
  yield := by rw [hana]; exact h.yield
  glob := by rw [hana]; exact h.glob
  ctx := by rw [hana]; exact h.ctx
  ctxLt := by rw [hana]; exact Nat.lt_of_lt_of_le h.ctxLt hsl
  top := by rw [hana]; exact h.top
  base := Nat.le_trans h.base hlen
  gsb := h.gsb
  sbase := Nat.le_trans h.sbase hsl
  wf := by
    intro k tab p hk hp
    rcases hparent k tab hk with ⟨t, ht, he⟩ | ⟨_, q, hq, _, hlt⟩
    · exact h.wf k t p ht (he.trans hp)
    · rw [hq] at hp; cases hp; exact hlt
  root := by
    intro tab hk
    rcases hparent _ tab hk with ⟨t, ht, he⟩ | ⟨hle, _⟩
    · rw [← he]; exact h.root t ht
    · exact absurd hle (Nat.not_le_of_lt h.gsb)
  inner := by
    intro k tab hk hs
    rcases hparent k tab hk with ⟨t, ht, he⟩ | ⟨_, q, hq, hg, _⟩
    · rw [← he]; exact h.inner k t ht hs
    · exact ⟨q, hq, hg⟩
  innerNames := by
    intro k n i hk hl
    rcases hlook k n i hl with hl | ⟨hb, hv, _⟩
    · exact h.innerNames k n i hk hl
    · exact ⟨hv hk, hb⟩
  old := by
    intro n i hl hi
    rcases hlook _ n i hl with hl | ⟨hb, _⟩
    · rw [hold i hi]; exact h.old n i hl hi
    · exact absurd hb (Nat.not_le_of_lt hi)
  new := by
    intro k n i hk hl hi
    rcases hlook k n i hl with hl | ⟨_, _, hx⟩
    · obtain ⟨x, hx, hn⟩ := h.new k n i hk hl hi
      obtain ⟨y, hy, he⟩ := hnames i x hx
      exact ⟨y, hy, he.trans hn⟩
    · exact hx
  prims := by
    intro w t hw
    obtain ⟨i, x, hl, hx, hb⟩ := h.prims w t hw
    have hi : i < X.b := by
      by_contra hge
      have hm := h.syms i x (Nat.le_of_not_lt hge) hx
      obtain ⟨_, _, ⟨_, hc, _⟩ | ⟨_, _, hc, _⟩⟩ := hm <;> rw [hb] at hc <;> cases hc
    exact ⟨i, x, hkeep w i hl, (hold i hi).trans hx, hb⟩
  syms := hmine
  global := hglobal
  libs := by
    intro n hn
    obtain ⟨i, hl, hi, x, ps, tags, t, hx, h1, h2, h3, h4, h5, h6, hp⟩ := h.libs n hn
    refine ⟨i, hkeep n i hl, hi, x, ps, tags, t, (hold i hi).trans hx, h1, h2, h3, h4, h5, h6, hp.imp ?_⟩
    rintro p tag ⟨hlt, y, hy, hb⟩
    exact ⟨hlt, y, (hold _ hlt).trans hy, hb⟩
  deep := by rw [hana]; exact h.deep.mono hpar
  numbered := by
    intro k m tab n i x hk hb ht he hx
    rcases hnum k m tab n i x hk ht he hx with h' | ⟨tab0, x0, h1, h2, h3, h4⟩
    · exact h'
    · obtain ⟨d, hs, hd, e⟩ := h.numbered k m tab0 n i x0 hk hb h1 h2 h3
      exact ⟨d, hs, hd.mono hpar, h4 ▸ e⟩
  away := fun i x hi hx => h.away i x hi (by rw [← hold i hi]; exact hx)
  entry := by
    intro k tab n i hb ht he
    rcases hent k tab n i ht he with h' | ⟨tab0, h1, h2, h3⟩
    · exact h'
    · exact h3 n i (h.entry k tab0 n i hb h1 h2)
  bound := by
    intro k tab i hk hi
    rcases hids k tab i hk hi with ⟨t, ht, h'⟩ | ⟨_, h', _⟩
    · exact Nat.lt_of_lt_of_le (h.bound k t i ht h') hlen
    · exact h'
  once := by
    intro k k' tab tab' i hb hk hi hk' hi'
    rcases hids k tab i hk hi with ⟨t, ht, h'⟩ | ⟨e, _, hn⟩
    · rcases hids k' tab' i hk' hi' with ⟨t', ht', h''⟩ | ⟨_, _, hn⟩
      · exact h.once k k' t t' i hb ht h' ht' h''
      · exact absurd h' (hn k t ht)
    · rcases hids k' tab' i hk' hi' with ⟨t', ht', h''⟩ | ⟨e', _, _⟩
      · exact absurd h'' (hn k' t' ht')
      · exact e.trans e'.symm

/-- A new variable. -/
theorem Inv.addVar (h : Inv X s) (v : CSym) (hm : v.modPath = X.mod) (hb : v.builtin = false) {t : CTy} (hv : v.body = .var t)
    (ht : dataTy X.K.reals t = true) (hn : v.name ∈ X.K.vars) (hg : v.isGlobal = false) :
    Inv X { s with syms := s.syms ++ [v] } := by
  have hpre : ∀ (i : Nat) x, s.syms[i]? = some x → (s.syms ++ [v])[i]? = some x := fun i x hx => by
    rw [List.getElem?_append_left (List.getElem?_eq_some_iff.mp hx).1]; exact hx
  have hcase : ∀ (i : Nat) x, (s.syms ++ [v])[i]? = some x → s.syms[i]? = some x ∨ x = v := by
    intro i x hx
    by_cases hi : i < s.syms.length
    · rw [List.getElem?_append_left hi] at hx; exact .inl hx
    · rw [List.getElem?_append_right (Nat.le_of_not_lt hi)] at hx
      right
      cases hd : i - s.syms.length with
      | zero => rw [hd] at hx; simpa using hx.symm
      | succ m => rw [hd] at hx; simp at hx
  refine h.change rfl (by simp) (Nat.le_refl _) (fun k tab hk => .inl ⟨tab, hk, rfl⟩) (fun k n i hl => .inl hl)
    (fun n i hl => hl) (fun i hi => ?_) (fun i x hx => ⟨x, hpre i x hx, rfl⟩) (fun i x hi hx => ?_) (fun i x hi hx hgl => ?_)
    0 (fun k tab i hk hi => .inl ⟨tab, hk, hi⟩) (fun k tab hk => ⟨tab, hk, rfl⟩) (fun k m tab n i x hk ht he hx => ?_)
    (fun k tab n i ht he => .inr ⟨tab, ht, he, fun _ _ h => h⟩)
  · exact List.getElem?_append_left (Nat.lt_of_lt_of_le hi h.base)
  · rcases hcase i x hx with hx | rfl
    · exact (h.syms i x hi hx).mono fun i y t hy ht => ⟨y, hpre i y hy, ht⟩
    · exact ⟨hm, hb, .inl ⟨t, hv, ht, hn⟩⟩
  · rcases hcase i x hx with hx | rfl
    · exact h.global i x hi hx hgl
    · rw [hg] at hgl; cases hgl
  · have hlt := h.bound k tab i ht (List.mem_map.mpr ⟨_, List.mem_of_getElem? he, rfl⟩)
    rw [show (s.syms ++ [v])[i]? = s.syms[i]? from List.getElem?_append_left hlt] at hx
    exact .inr ⟨tab, x, ht, he, hx, rfl⟩

/-- A symbol is changed in what is not looked at. -/
theorem Inv.setSym (h : Inv X s) {i : Nat} {x y : CSym} (hi : X.b ≤ i) (hx : s.syms[i]? = some x) (hn : y.name = x.name)
    (hm : y.modPath = x.modPath) (hb : y.builtin = x.builtin) (hbody : y.body = x.body)
    (hg : y.isGlobal = x.isGlobal ∨ (y.isGlobal = true ∧ lookIn s.scopes X.g x.name = some i))
    (ho : y.outId = x.outId ∨ ∀ (k : Nat) tab, s.scopes[k]? = some tab → i ∉ ScopeTab.ids tab) :
    Inv X { s with syms := s.syms.set i y } := by
  have hlt := (List.getElem?_eq_some_iff.mp hx).1
  have hget : ∀ j : Nat, (s.syms.set i y)[j]? = if j = i then some y else s.syms[j]? := by
    intro j
    rw [List.getElem?_set]
    by_cases he : i = j
    · subst he; simp [hlt]
    · have : ¬ j = i := fun e => he e.symm
      simp [he, this]
  have hmono : ∀ (j : Nat) z t, s.syms[j]? = some z → z.body = .var t →
      ∃ z', (s.syms.set i y)[j]? = some z' ∧ z'.body = .var t := by
    intro j z t hz ht
    rw [hget]
    split
    · rename_i he; subst he; rw [hx] at hz; cases hz; exact ⟨y, rfl, hbody.trans ht⟩
    · exact ⟨z, hz, ht⟩
  refine h.change rfl (by simp) (Nat.le_refl _) (fun k tab hk => .inl ⟨tab, hk, rfl⟩) (fun k n i hl => .inl hl)
    (fun n i hl => hl) (fun j hj => ?_) (fun j z hz => ?_) (fun j z hj hz => ?_) (fun j z hj hz hgl => ?_)
    0 (fun k tab i hk hi => .inl ⟨tab, hk, hi⟩) (fun k tab hk => ⟨tab, hk, rfl⟩) (fun k m tab n j z hk ht he hz => .inr ?_)
    (fun k tab n i ht he => .inr ⟨tab, ht, he, fun _ _ h => h⟩)
  · show (s.syms.set i y)[j]? = _
    rw [hget, if_neg (fun e => by subst e; exact absurd hi (Nat.not_le_of_lt hj))]
  · show ∃ y', (s.syms.set i y)[j]? = _ ∧ _
    rw [hget]
    split
    · rename_i he; subst he; rw [hx] at hz; cases hz; exact ⟨y, rfl, hn⟩
    · exact ⟨z, hz, rfl⟩
  · change (s.syms.set i y)[j]? = _ at hz
    rw [hget] at hz
    split at hz
    · cases hz
      have hm' := (h.syms i x hi hx).mono (s' := { s with syms := s.syms.set i y }) hmono
      obtain ⟨h1, h2, ⟨t, h3, h4, h5⟩ | ⟨t, ps, h3, h4, h5, h6, h7⟩⟩ := hm'
      · exact ⟨hm.trans h1, hb.trans h2, .inl ⟨t, hbody.trans h3, h4, hn ▸ h5⟩⟩
      · refine ⟨hm.trans h1, hb.trans h2, .inr ⟨t, ps, hbody.trans h3, h4, hn ▸ h5, ?_, h7⟩⟩
        rcases hg with hg | hg
        · exact hg.trans h6
        · exact hg.1
    · exact (h.syms j z hj hz).mono hmono
  · change (s.syms.set i y)[j]? = _ at hz
    rw [hget] at hz
    split at hz
    · rename_i he
      subst he
      cases hz
      show lookIn s.scopes X.g y.name = _
      rw [hn]
      rcases hg with hg | hg
      · exact h.global j x hi hx (hg ▸ hgl)
      · exact hg.2
    · exact h.global j z hj hz hgl
  · change (s.syms.set i y)[j]? = _ at hz
    rw [hget] at hz
    split at hz
    · rename_i he'
      subst he'
      cases hz
      rcases ho with ho | ho
      · exact ⟨tab, x, ht, he, hx, ho.symm⟩
      · exact absurd (List.mem_map.mpr ⟨_, List.mem_of_getElem? he, rfl⟩) (ho k tab ht)
    · exact ⟨tab, z, ht, he, hz, rfl⟩

/-- A variable is defined in a scope. -/
theorem Inv.bind (h : Inv X s) {i k : Nat} {x : CSym} (hi : X.b ≤ i) (hx : s.syms[i]? = some x)
    (hn : X.sb ≤ k → x.name ∈ X.K.vars) (hfree : lookIn s.scopes k x.name = none)
    (hnew : ∀ (k' : Nat) tab, s.scopes[k']? = some tab → i ∉ ScopeTab.ids tab)
    (ho : k ≠ X.g → ∃ d, X.sb ≤ k ∧ Deep s.scopes k d ∧ x.outId = innerName d (tabLen s.scopes k)) :
    Inv X { s with scopes := bindIn s.scopes k x.name i } := by
  refine h.change rfl (Nat.le_refl _) (Nat.le_of_eq (bindIn_length _ _ _ _).symm) (fun k' tab hk => ?_) (fun k' n j hl => ?_)
    (fun n j hl => ?_) (fun _ _ => rfl) (fun j y hy => ⟨y, hy, rfl⟩) (fun j y hj hy => ?_) (fun j y hj hy hgl => ?_)
    k (fun k' tab j hk hj => ?_) (fun k' tab hk => bindIn_kept hk) (fun k' m tab n j z hk ht he hz => ?_)
    (fun k' tab n j ht he => bindIn_entry hfree ht he)
  · exact .inl (bindIn_parent hk)
  · change lookIn (bindIn s.scopes k x.name i) k' n = _ at hl
    rw [bindIn_look] at hl
    split at hl
    · rename_i hc
      obtain ⟨rfl, rfl, _⟩ := hc
      cases hl
      exact .inr ⟨hi, hn, x, hx, rfl⟩
    · exact .inl hl
  · show lookIn (bindIn s.scopes k x.name i) X.g n = _
    rw [bindIn_look]
    split
    · rename_i hc
      obtain ⟨hk, rfl, _⟩ := hc
      rw [hk, hfree] at hl
      cases hl
    · exact hl
  · exact (h.syms j y hj hy).mono fun j z t hz ht => ⟨z, hz, ht⟩
  · show lookIn (bindIn s.scopes k x.name i) X.g y.name = _
    have hl := h.global j y hj hy hgl
    rw [bindIn_look]
    split
    · rename_i hc
      obtain ⟨hk, he, _⟩ := hc
      rw [hk, he, hfree] at hl
      cases hl
    · exact hl
  · change (bindIn s.scopes k x.name i)[k']? = _ at hk
    rw [bindIn_get] at hk
    split at hk
    · rename_i he
      cases ht : s.scopes[k']? with
      | none => rw [ht] at hk; cases hk
      | some t =>
          rw [ht] at hk
          simp only [Option.map_some, Option.some.injEq] at hk
          subst hk
          obtain ⟨⟨n, j'⟩, h', rfl⟩ := List.mem_map.mp hj
          rcases mem_assign h' with e | h'
          · have e : j' = i := e
            subst e
            exact .inr ⟨he, (List.getElem?_eq_some_iff.mp hx).1, hnew⟩
          · exact .inl ⟨t, rfl, List.mem_map.mpr ⟨_, h', rfl⟩⟩
    · exact .inl ⟨tab, hk, hj⟩
  · change (bindIn s.scopes k x.name i)[k']? = _ at ht
    rw [bindIn_get] at ht
    split at ht
    · rename_i hkk
      subst hkk
      cases ht0 : s.scopes[k']? with
      | none => rw [ht0] at ht; cases ht
      | some t =>
          rw [ht0] at ht
          simp only [Option.map_some, Option.some.injEq] at ht
          subst ht
          have hl : look t x.name = none := by
            unfold lookIn at hfree
            rw [ht0] at hfree
            exact hfree
          rw [assign_fresh hl] at he
          simp only at he
          rw [List.getElem?_append] at he
          split at he
          · exact .inr ⟨t, z, rfl, he, hz, rfl⟩
          · obtain ⟨d, hs, hd, e⟩ := ho hk
            have hm : m = t.symbols.length := by
              rename_i hm
              have := (List.getElem?_eq_some_iff.mp he).1
              simp at this
              omega
            subst hm
            simp only [Nat.sub_self, List.getElem?_cons_zero, Option.some.injEq, Prod.mk.injEq] at he
            obtain ⟨-, rfl⟩ := he
            rw [hx] at hz
            cases hz
            refine .inl ⟨d, hs, hd.mono fun k' tab hk => bindIn_kept hk, ?_⟩
            rw [e]
            unfold tabLen
            rw [ht0]
            rfl
    · exact .inr ⟨tab, z, ht, he, hz, rfl⟩

/-- A new scope. -/
theorem Inv.push (h : Inv X s) {p : Nat} (hp : p = X.g ∨ X.sb ≤ p) (hlt : p < s.scopes.length) :
    Inv X { s with scopes := s.scopes ++ [⟨[], some p⟩] } := by
  refine h.change rfl (Nat.le_refl _) (by simp) (fun k' tab hk => ?_) (fun k' n j hl => ?_)
    (fun n j hl => ?_) (fun _ _ => rfl) (fun j y hy => ⟨y, hy, rfl⟩) (fun j y hj hy => ?_) (fun j y hj hy hgl => ?_)
    0 (fun k' tab j hk hj => ?_) (fun k' tab hk => ⟨tab, push_kept hk, rfl⟩) (fun k' m tab n j z hk ht he hz => ?_)
    (fun k' tab n j ht he => ?_)
  · rcases push_get hk with hk | ⟨rfl, rfl⟩
    · exact .inl ⟨tab, hk, rfl⟩
    · exact .inr ⟨h.sbase, p, rfl, hp, hlt⟩
  · change lookIn (s.scopes ++ _) k' n = _ at hl
    rw [push_look] at hl
    exact .inl hl
  · show lookIn (s.scopes ++ _) X.g n = _
    rw [push_look]; exact hl
  · exact (h.syms j y hj hy).mono fun j z t hz ht => ⟨z, hz, ht⟩
  · show lookIn (s.scopes ++ _) X.g y.name = _
    rw [push_look]; exact h.global j y hj hy hgl
  · rcases push_get hk with hk | ⟨rfl, rfl⟩
    · exact .inl ⟨tab, hk, hj⟩
    · simp [ScopeTab.ids] at hj
  · rcases push_get ht with ht | ⟨rfl, rfl⟩
    · exact .inr ⟨tab, z, ht, he, hz, rfl⟩
    · simp at he
  · rcases push_get ht with ht | ⟨rfl, rfl⟩
    · exact .inr ⟨tab, ht, he, fun _ _ h => h⟩
    · simp at he

/-- Another place of the analyzer. -/
theorem Inv.move (h : Inv X s) {a : Ana} (hr : a.ctxReg = s.ana.ctxReg) (hy : a.yield = s.ana.yield)
    (hg : a.globalScope = s.ana.globalScope) (hc : a.ctxScope = X.g ∨ X.sb ≤ a.ctxScope) (hl : a.ctxScope < s.scopes.length)
    (ht : a.depth = 0 ↔ a.ctxScope = X.g) (hd : Deep s.scopes a.ctxScope a.depth) : Inv X { s with ana := a } :=
  ⟨hr.trans h.reg, hy.trans h.yield, hg.trans h.glob, hc, hl, ht, h.base, h.gsb, h.sbase, h.wf, h.root, h.inner, h.innerNames,
    h.old, h.new, h.prims, h.syms, h.global, h.bound, h.once, h.libs, hd, h.numbered, h.away, h.entry⟩

/-! ## Later states -/

/-- The symbols of a scope after a definition. -/
theorem assign_ids {tab : ScopeTab} {key : String} {v j : SymId}
    (h : j ∈ ScopeTab.ids { tab with symbols := assign key v tab.symbols }) : j ∈ ScopeTab.ids tab ∨ v ≤ j := by
  obtain ⟨⟨n, j'⟩, h', rfl⟩ := List.mem_map.mp h
  rcases mem_assign h' with e | h'
  · exact .inr (Nat.le_of_eq e.symm)
  · exact .inl (List.mem_map.mpr ⟨_, h', rfl⟩)

/-- The tables have grown, and symbols before `m` were defined in no further scopes. -/
structure LaterFrom (m : Nat) (s s' : CState) : Prop where
  syms : ∀ (i : Nat) x, s.syms[i]? = some x →
    ∃ y, s'.syms[i]? = some y ∧ y.body = x.body ∧ y.name = x.name ∧ y.isGlobal = x.isGlobal
  scopes : ∀ (k : Nat) tab, s.scopes[k]? = some tab → ∃ tab', s'.scopes[k]? = some tab' ∧ tab'.parent = tab.parent ∧
    (∀ n i, look tab n = some i → look tab' n = some i) ∧ ∀ j ∈ ScopeTab.ids tab', j ∈ ScopeTab.ids tab ∨ m ≤ j

/-- The tables have grown, and only new symbols were defined in the scopes there are. -/
abbrev Later (s s' : CState) : Prop := LaterFrom s.syms.length s s'

theorem Later.refl (s : CState) : Later s s :=
  ⟨fun _ x hx => ⟨x, hx, rfl, rfl, rfl⟩, fun _ tab ht => ⟨tab, ht, rfl, fun _ _ h => h, fun _ h => .inl h⟩⟩

theorem LaterFrom.parents {m : Nat} (h : LaterFrom m s s') :
    ∀ (k : Nat) tab, s.scopes[k]? = some tab → ∃ tab', s'.scopes[k]? = some tab' ∧ tab'.parent = tab.parent := by
  intro k tab hk
  obtain ⟨t, ht, e, _⟩ := h.scopes k tab hk
  exact ⟨t, ht, e⟩

theorem LaterFrom.symsLen {m : Nat} (h : LaterFrom m s s') : s.syms.length ≤ s'.syms.length := by
  by_contra hc
  have hlt : s'.syms.length < s.syms.length := Nat.lt_of_not_le hc
  obtain ⟨t, ht, _⟩ := h.syms s'.syms.length _ (List.getElem?_eq_getElem hlt)
  have := (List.getElem?_eq_some_iff.mp ht).1
  exact absurd this (Nat.lt_irrefl _)

theorem LaterFrom.trans' {m m' : Nat} {s1 s2 s3 : CState} (h : LaterFrom m s1 s2) (h' : LaterFrom m' s2 s3) (hm : m ≤ m') :
    LaterFrom m s1 s3 := by
  constructor
  · intro i x hx
    obtain ⟨y, hy, e1, e2, e3⟩ := h.syms i x hx
    obtain ⟨z, hz, f1, f2, f3⟩ := h'.syms i y hy
    exact ⟨z, hz, f1.trans e1, f2.trans e2, f3.trans e3⟩
  · intro k tab ht
    obtain ⟨t1, h1, e1, f1, g1⟩ := h.scopes k tab ht
    obtain ⟨t2, h2, e2, f2, g2⟩ := h'.scopes k t1 h1
    refine ⟨t2, h2, e2.trans e1, fun n i hl => f2 n i (f1 n i hl), fun j hj => ?_⟩
    rcases g2 j hj with hj | hj
    · exact g1 j hj
    · exact .inr (Nat.le_trans hm hj)

theorem LaterFrom.trans {s1 s2 s3 : CState} (h : LaterFrom s1.syms.length s1 s2) (h' : LaterFrom s2.syms.length s2 s3) :
    Later s1 s3 := h.trans' h' h.symsLen

theorem LaterFrom.look {m : Nat} (h : LaterFrom m s s') {k : Nat} {n : String} {i : Nat} (hl : lookIn s.scopes k n = some i) :
    lookIn s'.scopes k n = some i := by
  unfold lookIn at hl ⊢
  cases ht : s.scopes[k]? with
  | none => rw [ht] at hl; cases hl
  | some tab =>
      rw [ht] at hl
      obtain ⟨t', h1, _, h2, _⟩ := h.scopes k tab ht
      rw [h1]
      exact h2 n i hl

theorem LaterFrom.scopesLen {m : Nat} (h : LaterFrom m s s') : s.scopes.length ≤ s'.scopes.length := by
  by_contra hc
  have hlt : s'.scopes.length < s.scopes.length := Nat.lt_of_not_le hc
  obtain ⟨t, ht, _⟩ := h.scopes s'.scopes.length _ (List.getElem?_eq_getElem hlt)
  have := (List.getElem?_eq_some_iff.mp ht).1
  exact absurd this (Nat.lt_irrefl _)

theorem LaterFrom.agree {m : Nat} (h : LaterFrom m s X.sf) : Agree X s :=
  ⟨fun i x hx => by obtain ⟨y, hy, e1, e2, _⟩ := h.syms i x hx; exact ⟨y, hy, e1, e2⟩, fun _ _ hl => h.look hl⟩

/-- What a statement in scope `k` does to the state; symbols before `m` are defined in no further scopes. -/
structure StepFrom (m k : Nat) (s s' : CState) : Prop where
  ana : ∃ l, s'.ana = { s.ana with line := l }
  later : LaterFrom m s s'
  vars : ∀ (i : Nat) y, s'.syms[i]? = some y → s.syms[i]? = none → ∃ t, y.body = .var t
  frame : ∀ (j : Nat) tab, j ≠ k → s.scopes[j]? = some tab → s'.scopes[j]? = some tab
  mods : s'.mods = s.mods
  open_ : s'.open_ = s.open_

theorem LaterFrom.weaken {m m' : Nat} (h : LaterFrom m s s') (hm : m' ≤ m) : LaterFrom m' s s' :=
  ⟨h.syms, fun k tab ht => by
    obtain ⟨tab', h1, h2, h3, h4⟩ := h.scopes k tab ht
    exact ⟨tab', h1, h2, h3, fun j hj => (h4 j hj).imp_right (Nat.le_trans hm)⟩⟩

theorem StepFrom.weaken {m m' k : Nat} (h : StepFrom m k s s') (hm : m' ≤ m) : StepFrom m' k s s' :=
  ⟨h.ana, h.later.weaken hm, h.vars, h.frame, h.mods, h.open_⟩

/-- What a statement in scope `k` does to the state. -/
abbrev Step (k : Nat) (s s' : CState) : Prop := StepFrom s.syms.length k s s'

theorem Step.refl (k : Nat) (s : CState) : Step k s s :=
  ⟨⟨s.ana.line, rfl⟩, Later.refl s, (fun i y hy hn => by rw [hn] at hy; cases hy), fun _ _ _ h => h, rfl, rfl⟩

theorem Step.line (k : Nat) (s : CState) (l : Nat) : Step k s (s.atLine l) :=
  ⟨⟨l, rfl⟩, ⟨(Later.refl s).syms, (Later.refl s).scopes⟩, (fun i y hy hn => by rw [show s.syms[i]? = some y from hy] at hn; cases hn),
    fun _ _ _ h => h, rfl, rfl⟩

theorem StepFrom.trans' {m m' k : Nat} {s1 s2 s3 : CState} (h : StepFrom m k s1 s2) (h' : StepFrom m' k s2 s3) (hm : m ≤ m') :
    StepFrom m k s1 s3 := by
  refine ⟨?_, h.later.trans' h'.later hm, ?_, fun j tab hj ht => h'.frame j tab hj (h.frame j tab hj ht),
    h'.mods.trans h.mods, h'.open_.trans h.open_⟩
  · obtain ⟨l, hl⟩ := h.ana
    obtain ⟨m, hm⟩ := h'.ana
    exact ⟨m, by rw [hm, hl]⟩
  · intro i y hy hn
    cases h2 : s2.syms[i]? with
    | none => exact h'.vars i y hy h2
    | some z =>
        obtain ⟨t, ht⟩ := h.vars i z h2 hn
        obtain ⟨w, hw, e, _⟩ := h'.later.syms i z h2
        rw [hw] at hy
        cases hy
        exact ⟨t, e.trans ht⟩

theorem StepFrom.trans {k : Nat} {s1 s2 s3 : CState} (h : StepFrom s1.syms.length k s1 s2) (h' : StepFrom s2.syms.length k s2 s3) :
    Step k s1 s3 := h.trans' h' h.later.symsLen

end

end Amanda.Check

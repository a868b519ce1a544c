import Verif.ScopeMain

/-!
# The `out_id`s of the locals the checker sees at once
-/

namespace Amanda.Names

/-- `alvo` as a name. -/
def alvoName : List Char := ['a', 'l', 'v', 'o']

/-- Names a program can give a variable, other than those kept for the compiler. -/
def Plain (n : List Char) : Prop := reserved n = false ∧ n ≠ alvoName

/-! ## The names are different -/

theorem toDigits_inj {a b : Nat} (h : Nat.toDigits 10 a = Nat.toDigits 10 b) : a = b := by
  have ha := Nat.ofDigitChars_toDigits (b := 10) (n := a) (by omega) (by omega)
  have hb := Nat.ofDigitChars_toDigits (b := 10) (n := b) (by omega) (by omega)
  rw [← ha, ← hb, h]

theorem toDigits_single {d : Nat} (h : d < 10) : Nat.toDigits 10 d = [Nat.digitChar d] :=
  Nat.toDigits_of_lt_base h

theorem digitChar_inj {a b : Nat} (ha : a < 10) (hb : b < 10) (h : Nat.digitChar a = Nat.digitChar b) : a = b :=
  (by decide : ∀ a < 10, ∀ b < 10, Nat.digitChar a = Nat.digitChar b → a = b) a ha b hb h

theorem localName_inj_right {d j k : Nat} (h : localName d j = localName d k) : j = k := by
  simp only [localName, List.append_assoc, List.append_cancel_left_eq] at h
  exact toDigits_inj (List.append_cancel_right h)

theorem localName_inj {d e j k : Nat} (hd : d < 10) (he : e < 10) (h : localName d j = localName e k) : d = e := by
  simp only [localName, List.append_assoc, List.append_cancel_left_eq, toDigits_single hd, toDigits_single he] at h
  exact digitChar_inj hd he (List.cons.inj h).1

theorem reserved_local (d k : Nat) : reserved (localName d k) = true := by
  simp [reserved, localName, List.isPrefixOf]

theorem plain_ne_local {n : List Char} (h : Plain n) (d k : Nat) : n ≠ localName d k := by
  intro e
  have := h.1
  rw [e, reserved_local] at this
  cases this

/-! ## One scope -/

/-- The variables of a scope at depth `d`: each is stored under its own name or under `_r{d}{k}_`, and
no two are stored under the same name. -/
structure LocalOk (d : Nat) (sc : NScope) : Prop where
  form : ∀ n y, assocGet sc.symbols n = some y → Plain n → y.isVar = true →
    y.outId = n ∨ ∃ k < sc.symbols.length, y.outId = localName d k
  apart : ∀ n m y z, assocGet sc.symbols n = some y → assocGet sc.symbols m = some z → Plain n → Plain m →
    y.isVar = true → z.isVar = true → n ≠ m → y.outId ≠ z.outId

theorem localOk_empty (d : Nat) (p : Option Nat) : LocalOk d { symbols := [], parent := p } :=
  ⟨fun _ _ h => by simp [assocGet] at h, fun _ _ _ _ h => by simp [assocGet] at h⟩

theorem assocSet_length_le {V : Type} (l : List (List Char × V)) (n : List Char) (v : V) :
    l.length ≤ (assocSet l n v).length := by
  induction l with
  | nil => simp
  | cons x rest ih =>
    obtain ⟨k, w⟩ := x
    simp only [assocSet]
    split <;> simp_all

theorem assocSet_length_new {V : Type} (l : List (List Char × V)) (n : List Char) (v : V) (h : assocGet l n = none) :
    (assocSet l n v).length = l.length + 1 := by
  induction l with
  | nil => rfl
  | cons x rest ih =>
    obtain ⟨k, w⟩ := x
    simp only [assocGet] at h
    simp only [assocSet]
    split
    · rename_i hk; simp [hk] at h
    · rename_i hk
      simp only [hk, ↓reduceIte] at h
      simp [ih h]

/-- What is not a variable, or has no plain name, does not matter. -/
theorem LocalOk.other {d : Nat} {sc : NScope} {n : List Char} {y : NSym} (h : LocalOk d sc) (hy : y.isVar = false ∨ ¬Plain n) :
    LocalOk d { sc with symbols := assocSet sc.symbols n y } := by
  have key : ∀ m z, assocGet (assocSet sc.symbols n y) m = some z → Plain m → z.isVar = true → assocGet sc.symbols m = some z := by
    intro m z hz hp hv
    rw [assocGet_assocSet] at hz
    split at hz
    · rename_i he
      subst he
      cases hz
      rcases hy with hy | hy
      · rw [hy] at hv; cases hv
      · exact (hy hp).elim
    · exact hz
  constructor
  · intro m z hz hp hv
    rcases h.form m z (key m z hz hp hv) hp hv with h1 | ⟨k, hk, h1⟩
    · exact .inl h1
    · exact .inr ⟨k, Nat.lt_of_lt_of_le hk (assocSet_length_le ..), h1⟩
  · intro m m' z z' hz hz' hp hp' hv hv' hne
    exact h.apart m m' z z' (key m z hz hp hv) (key m' z' hz' hp' hv') hp hp' hv hv' hne

/-- A new variable. -/
theorem LocalOk.fresh {d : Nat} {sc : NScope} {n : List Char} {y : NSym} (h : LocalOk d sc) (hn : assocGet sc.symbols n = none)
    (hy : y.outId = localName d sc.symbols.length) : LocalOk d { sc with symbols := assocSet sc.symbols n y } := by
  have hlen := assocSet_length_new sc.symbols n y hn
  have far : ∀ m z, assocGet sc.symbols m = some z → Plain m → z.isVar = true → z.outId ≠ localName d sc.symbols.length := by
    intro m z hz hp hv
    rcases h.form m z hz hp hv with h1 | ⟨k, hk, h1⟩
    · rw [h1]; exact plain_ne_local hp _ _
    · rw [h1]; intro e; have := localName_inj_right e; omega
  constructor
  · intro m z hz hp hv
    rw [assocGet_assocSet] at hz
    split at hz
    · cases hz
      exact .inr ⟨sc.symbols.length, by simp only [hlen]; omega, hy⟩
    · rcases h.form m z hz hp hv with h1 | ⟨k, hk, h1⟩
      · exact .inl h1
      · exact .inr ⟨k, by simp only [hlen]; omega, h1⟩
  · intro m m' z z' hz hz' hp hp' hv hv' hne
    rw [assocGet_assocSet] at hz hz'
    split at hz <;> split at hz'
    · rename_i e1 e2; exact (hne (e1.symm.trans e2)).elim
    · cases hz; rw [hy]; exact fun e => far m' z' hz' hp' hv' e.symm
    · cases hz'; rw [hy]; exact far m z hz hp hv
    · exact h.apart m m' z z' hz hz' hp hp' hv hv' hne

/-- A variable stored under its own name. -/
theorem LocalOk.named {d : Nat} {sc : NScope} {n : List Char} {y : NSym} (h : LocalOk d sc) (hy : y.outId = n) :
    LocalOk d { sc with symbols := assocSet sc.symbols n y } := by
  have far : ∀ m z, assocGet sc.symbols m = some z → Plain m → Plain n → z.isVar = true → n ≠ m → z.outId ≠ n := by
    intro m z hz hp hpn hv hne
    rcases h.form m z hz hp hv with h1 | ⟨k, hk, h1⟩
    · rw [h1]; exact Ne.symm hne
    · rw [h1]; exact Ne.symm (plain_ne_local hpn _ _)
  constructor
  · intro m z hz hp hv
    rw [assocGet_assocSet] at hz
    split at hz
    · rename_i e; cases hz; exact .inl (hy.trans e)
    · rcases h.form m z hz hp hv with h1 | ⟨k, hk, h1⟩
      · exact .inl h1
      · exact .inr ⟨k, Nat.lt_of_lt_of_le hk (assocSet_length_le ..), h1⟩
  · intro m m' z z' hz hz' hp hp' hv hv' hne
    rw [assocGet_assocSet] at hz hz'
    split at hz <;> split at hz'
    · rename_i e1 e2; exact (hne (e1.symm.trans e2)).elim
    · rename_i e1 e2; cases hz; rw [hy]; subst e1; exact fun e => far m' z' hz' hp' hp hv' e2 e.symm
    · rename_i e1 e2; cases hz'; rw [hy]; subst e2; exact far m z hz hp hp' hv e1
    · exact h.apart m m' z z' hz hz' hp hp' hv hv' hne

/-! ## Chains of scopes -/

/-- The scope `i` at depth `d`, and those around it: at the bottom the globals. -/
def ChainOk (scopes : List NScope) : Nat → Nat → Prop
  | 0, i => ∃ sc, scopes[i]? = some sc ∧ sc.parent = none ∧
      ∀ n y, assocGet sc.symbols n = some y → y.isVar = true → y.isGlobal = true
  | d + 1, i => ∃ sc p, scopes[i]? = some sc ∧ sc.parent = some p ∧ p < i ∧ LocalOk (d + 1) sc ∧ ChainOk scopes d p

/-- The current scope and those around it. -/
def NState.Ok (s : NState) : Prop := ChainOk s.scopes s.depth s.cur

/-- The look-ups made meanwhile were made in such scopes. -/
def UsesOk (s t : NState) : Prop := ∀ u ∈ t.uses, u ∈ s.uses ∨ ∃ d, ChainOk u.scopes d u.cur

variable {s t u : NState}

theorem ChainOk.congr {a b : List NScope} : ∀ {d i : Nat}, ChainOk a d i → (∀ j ≤ i, b[j]? = a[j]?) → ChainOk b d i
  | 0, i, ⟨sc, h1, h2⟩, h => ⟨sc, by rw [h i (Nat.le_refl _)]; exact h1, h2⟩
  | d + 1, i, ⟨sc, p, h1, h2, h3, h4, h5⟩, h =>
    ⟨sc, p, by rw [h i (Nat.le_refl _)]; exact h1, h2, h3, h4, ChainOk.congr h5 fun j hj => h j (by omega)⟩

theorem ChainOk.lt {a : List NScope} {d i : Nat} (h : ChainOk a d i) : i < a.length := by
  cases d with
  | zero => obtain ⟨sc, h1, -⟩ := h; exact get_lt h1
  | succ d => obtain ⟨sc, p, h1, -⟩ := h; exact get_lt h1

theorem UsesOk.refl (s : NState) : UsesOk s s := fun _ h => .inl h

theorem UsesOk.trans (h : UsesOk s t) (k : UsesOk t u) : UsesOk s u := fun x hx =>
  match k x hx with
  | .inl h' => h x h'
  | .inr h' => .inr h'

theorem UsesOk.of_eq (h : t.uses = s.uses) : UsesOk s t := fun _ hx => .inl (h ▸ hx)

/-- After an expression. -/
def QE (s t : NState) : Prop := Same s t ∧ UsesOk s t

/-- After statements. -/
def QS (s t : NState) : Prop := Kept s t ∧ t.Ok ∧ UsesOk s t

theorem Same.ok (h : Same s t) (hs : s.Ok) : t.Ok := by
  unfold NState.Ok at *
  rw [h.depth, h.cur]
  exact hs.congr fun j hj => h.old j (Nat.lt_of_le_of_lt hj hs.lt)

theorem QE.refl (s : NState) : QE s s := ⟨Same.refl s, UsesOk.refl s⟩
theorem QE.trans (h : QE s t) (k : QE t u) : QE s u := ⟨h.1.trans k.1, h.2.trans k.2⟩
theorem QE.qs (h : QE s t) (hs : s.Ok) : QS s t := ⟨h.1.kept hs.lt, h.1.ok hs, h.2⟩
theorem QS.refl (hs : s.Ok) : QS s s := (QE.refl s).qs hs
theorem QS.trans (h : QS s t) (k : QS t u) : QS s u := ⟨h.1.trans k.1, k.2.1, h.2.2.trans k.2.2⟩

/-- Success of one step after another. -/
theorem bind_ok {m : Except PyErr NState} {g : NState → Except PyErr NState} (h : (m >>= g) = .ok u) :
    ∃ t, m = .ok t ∧ g t = .ok u := by
  cases m with
  | error e => cases h
  | ok t => exact ⟨t, rfl, h⟩

theorem use_ok {tok : Token} (hs : s.Ok) (h : s.use tok = .ok t) : QE s t := by
  unfold NState.use at h
  split at h
  · cases h
  · cases h
    refine ⟨⟨rfl, rfl, Nat.le_refl _, fun _ _ => rfl⟩, fun x hx => ?_⟩
    rcases List.mem_append.1 hx with hx | hx
    · exact .inl hx
    · cases List.mem_singleton.1 hx
      exact .inr ⟨_, hs⟩

/-- A change of the current scope that keeps it in order. -/
theorem define_qs {n : List Char} {y : NSym} (hs : s.Ok)
    (h0 : s.depth = 0 → y.isVar = true → y.isGlobal = true)
    (h1 : ∀ sc, s.scopes[s.cur]? = some sc → s.depth ≠ 0 → LocalOk s.depth sc →
      LocalOk s.depth { sc with symbols := assocSet sc.symbols n y }) : QS s (s.define s.cur n y) := by
  refine ⟨define_kept .., ?_, UsesOk.of_eq rfl⟩
  unfold NState.Ok at *
  show ChainOk _ s.depth s.cur
  cases hd : s.depth with
  | zero =>
    rw [hd] at hs
    obtain ⟨sc, e1, e2, e3⟩ := hs
    refine ⟨{ sc with symbols := assocSet sc.symbols n y }, by rw [define_get, if_pos rfl, e1]; rfl, e2, fun m z hz hv => ?_⟩
    rw [assocGet_assocSet] at hz
    split at hz
    · cases hz; exact h0 hd hv
    · exact e3 m z hz hv
  | succ d =>
    rw [hd] at hs
    obtain ⟨sc, p, e1, e2, e3, e4, e5⟩ := hs
    refine ⟨{ sc with symbols := assocSet sc.symbols n y }, p, by rw [define_get, if_pos rfl, e1]; rfl, e2, e3, ?_, ?_⟩
    · have := h1 sc e1 (by omega); rw [hd] at this; exact this e4
    · exact e5.congr fun j hj => by rw [define_get, if_neg (by omega)]

/-- `define_symbol` of a new name in the current scope. -/
theorem defineSymbol_qs (cfg : NCfg) {y : NSym} (hs : s.Ok) (h0 : s.depth = 0 → y.isVar = true → y.isGlobal = true)
    (h1 : s.depth ≠ 0 → y.isVar = true → Plain y.name → s.get s.cur y.name = none) :
    QS s (s.defineSymbol cfg y s.depth s.cur) := by
  unfold NState.defineSymbol
  refine define_qs hs (fun hd => by split <;> exact h0 hd) fun sc hsc hd hl => ?_
  rw [if_pos (by simp; exact .inr (by omega))]
  by_cases hv : y.isVar = true ∧ Plain y.name
  · have hn := h1 hd hv.1 hv.2
    simp only [NState.get, hsc, Option.bind_some] at hn
    refine hl.fresh hn ?_
    simp [NState.count, hsc]
  · refine hl.other ?_
    by_cases h : y.isVar = true
    · exact .inr fun hp => hv ⟨h, hp⟩
    · exact .inl (by simpa using h)

/-! ## Blocks -/

/-- A state inside a block of `s`, its scope in order. -/
structure Within (s b : NState) : Prop where
  cur : s.cur < b.cur
  depth : b.depth = s.depth + 1
  len : s.scopes.length ≤ b.scopes.length
  old : ∀ i < s.scopes.length, i ≠ b.cur → b.scopes[i]? = s.scopes[i]?
  scope : ∃ sc, b.scopes[b.cur]? = some sc ∧ sc.parent = some s.cur ∧ LocalOk b.depth sc
  uses : UsesOk s b

theorem Within.ok {b : NState} (h : Within s b) (hs : s.Ok) : b.Ok := by
  obtain ⟨sc, h1, h2, h3⟩ := h.scope
  unfold NState.Ok at *
  have hd := h.depth
  rw [hd] at h3 ⊢
  refine ⟨sc, s.cur, h1, h2, h.cur, h3, hs.congr fun j hj => h.old j (Nat.lt_of_le_of_lt hj hs.lt) ?_⟩
  have := h.cur; omega

/-- Leaving it: the scopes that were there are as before, except perhaps the block's own. -/
theorem Within.leave {b : NState} (h : Within s b) (k : QS b t) :
    t.leave.cur = s.cur ∧ t.leave.depth = s.depth ∧ s.scopes.length ≤ t.leave.scopes.length ∧
      (∀ i < s.scopes.length, i ≠ b.cur → t.leave.scopes[i]? = s.scopes[i]?) ∧ UsesOk s t.leave := by
  obtain ⟨sc, h1, h2, -⟩ := h.scope
  refine ⟨?_, ?_, Nat.le_trans h.len k.1.len, fun i hi hne => ?_, h.uses.trans (fun x hx => k.2.2 x hx)⟩
  · simp only [NState.leave, k.1.cur]
    rw [k.1.parent, h1]
    simp [h2]
  · simp [NState.leave, k.1.depth, h.depth]
  · show t.scopes[i]? = _
    rw [k.1.old i (Nat.lt_of_lt_of_le hi h.len) hne]
    exact h.old i hi hne

theorem Within.leave_qe {b : NState} (h : Within s b) (hn : s.scopes.length ≤ b.cur) (k : QS b t) : QE s t.leave := by
  obtain ⟨h1, h2, h3, h4, h5⟩ := h.leave k
  exact ⟨⟨h1, h2, h3, fun i hi => h4 i hi (by omega)⟩, h5⟩

theorem within_alloc (hs : s.Ok) : Within s (s.alloc.enter s.scopes.length) where
  cur := hs.lt
  depth := rfl
  len := by simp [NState.alloc, NState.enter]
  old := fun i hi _ => alloc_old s i hi
  scope := ⟨_, alloc_new s, rfl, localOk_empty _ _⟩
  uses := UsesOk.of_eq rfl

/-- A scope for a block of `s`, not entered yet. -/
structure Ready (s : NState) (i : Nat) (b : NState) : Prop where
  cur : b.cur = s.cur
  depth : b.depth = s.depth
  len : s.scopes.length ≤ b.scopes.length
  old : ∀ j < s.scopes.length, j ≠ i → b.scopes[j]? = s.scopes[j]?
  scope : ∃ sc, b.scopes[i]? = some sc ∧ sc.parent = some s.cur ∧ LocalOk (s.depth + 1) sc
  uses : UsesOk s b

theorem ready_alloc (s : NState) : Ready s s.scopes.length s.alloc where
  cur := rfl
  depth := rfl
  len := by simp [NState.alloc]
  old := fun j hj _ => alloc_old s j hj
  scope := ⟨_, alloc_new s, rfl, localOk_empty _ _⟩
  uses := UsesOk.of_eq rfl

theorem Ready.enter {i : Nat} {b : NState} (h : Ready s i b) (hi : s.cur < i) : Within s (b.enter i) where
  cur := hi
  depth := by simp [NState.enter, h.depth]
  len := h.len
  old := h.old
  scope := by
    obtain ⟨sc, h1, h2, h3⟩ := h.scope
    exact ⟨sc, h1, h2, by simpa [NState.enter, h.depth] using h3⟩
  uses := h.uses

theorem Ready.define {i : Nat} {b : NState} {n : List Char} {y : NSym} (h : Ready s i b)
    (hl : ∀ sc, b.scopes[i]? = some sc → LocalOk (s.depth + 1) sc →
      LocalOk (s.depth + 1) { sc with symbols := assocSet sc.symbols n y }) : Ready s i (b.define i n y) where
  cur := h.cur
  depth := h.depth
  len := by rw [define_len]; exact h.len
  old := fun j hj hne => by rw [define_get, if_neg (Ne.symm hne)]; exact h.old j hj hne
  scope := by
    obtain ⟨sc, h1, h2, h3⟩ := h.scope
    exact ⟨{ sc with symbols := assocSet sc.symbols n y }, by rw [define_get, if_pos rfl, h1]; rfl, h2, hl sc h1 h3⟩
  uses := h.uses

theorem Ready.symbol (cfg : NCfg) {i : Nat} {b : NState} {y : NSym} (h : Ready s i b)
    (hn : y.isVar = true → Plain y.name → b.get i y.name = none) :
    Ready s i (b.defineSymbol cfg y (s.depth + 1) i) := by
  unfold NState.defineSymbol
  refine h.define fun sc hsc hl => ?_
  rw [if_pos (by simp)]
  by_cases hv : y.isVar = true ∧ Plain y.name
  · have hn := hn hv.1 hv.2
    simp only [NState.get, hsc, Option.bind_some] at hn
    refine hl.fresh hn ?_
    simp [NState.count, hsc]
  · refine hl.other ?_
    by_cases h : y.isVar = true
    · exact .inr fun hp => hv ⟨h, hp⟩
    · exact .inl (by simpa using h)

theorem Ready.qe {i : Nat} {b : NState} (h : Ready s i b) (hi : s.scopes.length ≤ i) : QE s b :=
  ⟨⟨h.cur, h.depth, h.len, fun j hj => h.old j hj (by omega)⟩, h.uses⟩

/-! ## Parameters and patterns -/

theorem define_get_none {b : NState} {i : Nat} {n m : List Char} {y : NSym} (h : b.get i m = none) (hne : n ≠ m) :
    (b.define i n y).get i m = none := by
  simp only [NState.get, define_get, ↓reduceIte] at *
  cases hb : b.scopes[i]? with
  | none => rfl
  | some sc =>
    rw [hb] at h
    simp only [Option.bind_some, Option.map_some] at *
    rw [assocGet_assocSet, if_neg hne]
    exact h

theorem defineSymbol_get_none (cfg : NCfg) {b : NState} {i d : Nat} {m : List Char} {y : NSym} (h : b.get i m = none)
    (hne : y.name ≠ m) : (b.defineSymbol cfg y d i).get i m = none := by
  obtain ⟨o, ho⟩ := defineSymbol_eq cfg b y d i
  rw [ho]
  exact define_get_none h hne

theorem defineParams_ready (cfg : NCfg) {i : Nat} : ∀ (ts : List Token) (seen : List (List Char)) (b : NState),
    Ready s i b → distinctParams ts seen = .ok () → (∀ t ∈ ts, t.chars ∉ seen → b.get i t.chars = none) →
      Ready s i (defineParams cfg i ts b)
  | [], _, _, h, _, _ => h
  | tok :: ts, seen, b, h, hd, hn => by
    simp only [distinctParams] at hd
    split at hd
    · cases hd
    · rename_i hc
      simp only [defineParams]
      have hc' : tok.chars ∉ seen := by simpa using hc
      have h' := h.symbol cfg (y := sym tok false true) fun _ _ => hn tok (List.mem_cons_self ..) hc'
      rw [← h.depth] at h'
      refine defineParams_ready cfg ts (tok.chars :: seen) _ h' hd fun t ht hs => ?_
      rw [List.mem_cons, not_or] at hs
      exact defineSymbol_get_none cfg (hn t (List.mem_cons_of_mem _ ht) hs.2) (Ne.symm hs.1)

theorem defineGenerics_ready {i : Nat} : ∀ (ts : List Token) (b : NState), Ready s i b → Ready s i (defineGenerics i ts b)
  | [], _, h => h
  | _ :: ts, _, h => defineGenerics_ready ts _ (h.define fun _ _ hl => hl.other (.inl rfl))

theorem defineVars_ready (cfg : NCfg) {i : Nat} : ∀ (ts : List Token) (b c : NState),
    Ready s i b → defineVars cfg i ts b = .ok c → Ready s i c
  | [], b, c, h, hc => by cases hc; exact h
  | t :: ts, b, c, h, hc => by
    simp only [defineVars] at hc
    split at hc
    · cases hc
    · rename_i hg
      have h' := h.symbol cfg (y := sym t false true) fun _ _ => hg
      rw [← h.depth] at h'
      exact defineVars_ready cfg ts _ c h' hc

theorem defineVars_len (cfg : NCfg) {i : Nat} : ∀ (ts : List Token) (b c : NState),
    defineVars cfg i ts b = .ok c → c.scopes.length = b.scopes.length
  | [], b, c, hc => by cases hc; rfl
  | t :: ts, b, c, hc => by
    simp only [defineVars] at hc
    split at hc
    · cases hc
    · have := defineVars_len cfg ts _ c hc
      obtain ⟨o, ho⟩ := defineSymbol_eq cfg b (sym t false true) (b.depth + 1) i
      rw [this, ho, define_len]

/-- The scopes from `base` on, `n` of them, are scopes of blocks of the current one. -/
def ArmsOk (c : NState) (base n : Nat) : Prop :=
  ∀ j < n, ∃ sc, c.scopes[base + j]? = some sc ∧ sc.parent = some c.cur ∧ LocalOk (c.depth + 1) sc

theorem checkPat_ok (cfg : NCfg) (p : Pat) (hs : s.Ok) (h : checkPat cfg s.scopes.length p s.alloc = .ok t) :
    QE s t ∧ ArmsOk t s.scopes.length 1 ∧ t.scopes.length = s.scopes.length + 1 := by
  have fin : ∀ c ts, Ready s s.scopes.length c → c.scopes.length = s.scopes.length + 1 →
      defineVars cfg s.scopes.length ts c = .ok t →
      QE s t ∧ ArmsOk t s.scopes.length 1 ∧ t.scopes.length = s.scopes.length + 1 := by
    intro c ts hc hl ht
    have hr := defineVars_ready cfg ts c t hc ht
    refine ⟨hr.qe (Nat.le_refl _), fun j hj => ?_, (defineVars_len cfg ts c t ht).trans hl⟩
    obtain rfl : j = 0 := by omega
    obtain ⟨sc, h1, h2, h3⟩ := hr.scope
    exact ⟨sc, h1, by rw [h2, hr.cur], by rw [hr.depth]; exact h3⟩
  have hl : s.alloc.scopes.length = s.scopes.length + 1 := by simp [NState.alloc]
  have hadt : ∀ tok (args : List Pat), (s.alloc.use tok >>= fun s' => argVars args >>= fun ts => defineVars cfg s.scopes.length ts s') = .ok t →
      QE s t ∧ ArmsOk t s.scopes.length 1 ∧ t.scopes.length = s.scopes.length + 1 := by
    intro tok args h
    obtain ⟨c, h1, h2⟩ := bind_ok h
    have hra : s.alloc.Ok := Same.ok (s := s) ⟨rfl, rfl, by simp [NState.alloc], alloc_old s⟩ hs
    have hu := use_ok hra h1
    have hc : c.scopes = s.alloc.scopes := by
      unfold NState.use at h1
      split at h1
      · cases h1
      · cases h1; rfl
    cases ha : argVars args with
    | error e => rw [ha] at h2; cases h2
    | ok ts =>
      rw [ha] at h2
      refine fin c ts ⟨hu.1.cur, hu.1.depth, by rw [hc, hl]; omega, fun j hj hne => ?_, ?_, ?_⟩ (by rw [hc, hl]) h2
      · rw [hc]; exact alloc_old s j hj
      · exact ⟨_, by rw [hc]; exact alloc_new s, rfl, localOk_empty _ _⟩
      · exact fun x hx => hu.2 x hx
  cases p with
  | int tok => exact fin s.alloc [] (ready_alloc s) hl h
  | str tok => exact fin s.alloc [] (ready_alloc s) hl h
  | bind tok => exact fin s.alloc [tok] (ready_alloc s) hl h
  | adtVar tok args => exact hadt tok args h
  | adtPath comps args => exact hadt _ args h

theorem checkArms_ok (cfg : NCfg) : ∀ (ps : List Pat) (s t : NState), s.Ok → checkArms cfg ps s = .ok t →
    QE s t ∧ ArmsOk t s.scopes.length ps.length
  | [], s, t, _, h => by cases h; exact ⟨QE.refl s, fun j hj => absurd hj (Nat.not_lt_zero _)⟩
  | p :: ps, s, t, hs, h => by
    simp only [checkArms] at h
    obtain ⟨c, h1, h2⟩ := bind_ok h
    obtain ⟨q1, a1, l1⟩ := checkPat_ok cfg p hs h1
    obtain ⟨q2, a2⟩ := checkArms_ok cfg ps c t (q1.1.ok hs) h2
    refine ⟨q1.trans q2, fun j hj => ?_⟩
    cases j with
    | zero =>
      obtain ⟨sc, e1, e2, e3⟩ := a1 0 (by omega)
      exact ⟨sc, by rw [q2.1.old _ (get_lt e1)]; exact e1, by rw [q2.1.cur]; exact e2, by rw [q2.1.depth]; exact e3⟩
    | succ j =>
      obtain ⟨sc, e1, e2, e3⟩ := a2 j (by simpa using hj)
      exact ⟨sc, by rw [← e1, l1]; congr 1; omega, e2, e3⟩

theorem ArmsOk.of_kept {c d : NState} {base n : Nat} (h : ArmsOk c base n) (k : Kept c d) (hb : c.cur < base) : ArmsOk d base n := by
  intro j hj
  obtain ⟨sc, e1, e2, e3⟩ := h j hj
  exact ⟨sc, by rw [k.old _ (get_lt e1) (by omega)]; exact e1, by rw [k.cur]; exact e2, by rw [k.depth]; exact e3⟩

theorem defineTarget_qs (cfg : NCfg) (e : Expr) (hs : s.Ok) (hd : s.depth ≠ 0) : QS s (defineTarget cfg e s) := by
  have key : ∀ tok : Token, QS s (s.defineSymbol cfg { sym tok false true with name := targetName, outId := targetName } s.depth s.cur) :=
    fun tok => defineSymbol_qs cfg hs (fun h => absurd h hd) fun _ _ hp => by
      have := hp.1; rw [show reserved targetName = true from by decide] at this; cases this
  cases e <;> first | exact QS.refl hs | exact key _

theorem defineHidden_qs (tok : Token) : ∀ (n : Nat) (s : NState), s.Ok → s.depth ≠ 0 → QS s (defineHidden tok n s)
  | 0, s, hs, _ => QS.refl hs
  | n + 1, s, hs, hd => by
    simp only [defineHidden]
    have h := define_qs (s := s) (n := hiddenName (s.count s.cur))
      (y := { name := hiddenName (s.count s.cur), outId := hiddenName (s.count s.cur), decl := tok, isGlobal := false, isVar := true })
      hs (fun h => absurd h hd) fun sc _ _ hl => hl.other (.inr fun hp => by
        have := hp.1; rw [reserved_hidden] at this; cases this)
    exact h.trans (defineHidden_qs tok n _ h.2.1 (by rw [h.1.depth]; exact hd))

/-- Only the scopes of the arms differ, and they are in order. -/
structure Rearmed (c d : NState) (base n : Nat) : Prop where
  cur : d.cur = c.cur
  depth : d.depth = c.depth
  len : d.scopes.length = c.scopes.length
  old : ∀ j < base, d.scopes[j]? = c.scopes[j]?
  arms : ArmsOk d base n
  uses : d.uses = c.uses

theorem Rearmed.trans {a b c : NState} {base n : Nat} (h : Rearmed a b base n) (k : Rearmed b c base n) : Rearmed a c base n :=
  ⟨k.cur.trans h.cur, k.depth.trans h.depth, k.len.trans h.len, fun j hj => (k.old j hj).trans (h.old j hj), k.arms,
    k.uses.trans h.uses⟩

theorem defineAgain_arms {base n j : Nat} : ∀ (ts : List Token) (c : NState), ArmsOk c base n →
    Rearmed c (defineAgain (base + j) ts c) base n
  | [], c, h => ⟨rfl, rfl, rfl, fun _ _ => rfl, h, rfl⟩
  | tok :: ts, c, h => by
    have h' : ArmsOk (c.define (base + j) tok.chars (sym tok false true)) base n := by
      intro k hk
      obtain ⟨sc, e1, e2, e3⟩ := h k hk
      by_cases hkj : k = j
      · subst hkj
        exact ⟨{ sc with symbols := assocSet sc.symbols tok.chars (sym tok false true) },
          by rw [define_get, if_pos rfl, e1]; rfl, e2, e3.named rfl⟩
      · exact ⟨sc, by rw [define_get, if_neg (by omega)]; exact e1, e2, e3⟩
    have := defineAgain_arms (j := j) ts _ h'
    simp only [defineAgain]
    exact ⟨this.cur, this.depth, this.len.trans (define_len ..),
      fun k hk => by rw [this.old k hk, define_get, if_neg (by omega)], this.arms, this.uses⟩

theorem defineAgains_arms (plan : Plan) {base n : Nat} : ∀ (ps : List Pat) (k j : Nat) (c : NState), ArmsOk c base n →
    Rearmed c (defineAgains plan ps k (base + j) c) base n
  | [], _, _, c, h => ⟨rfl, rfl, rfl, fun _ _ => rfl, h, rfl⟩
  | p :: ps, k, j, c, h => by
    simp only [defineAgains]
    have step : Rearmed c (if plan.again k = true then defineAgain (base + j) (patVars p) c else c) base n := by
      split
      · exact defineAgain_arms _ c h
      · exact ⟨rfl, rfl, rfl, fun _ _ => rfl, h, rfl⟩
    exact step.trans (defineAgains_arms plan ps (k + 1) (j + 1) _ step.arms)

/-! ## The visitor -/

/-- If the visitor accepts, then `P`. -/
def Fine (P : NState → Prop) (m : Except PyErr NState) : Prop := ∀ t, m = .ok t → P t

theorem Fine.ret {P : NState → Prop} (h : P t) : Fine P (.ok t) := fun _ e => by cases e; exact h
theorem Fine.fail {P : NState → Prop} {e : PyErr} : Fine P (.error e) := fun _ h => by cases h
theorem Fine.mono {P Q : NState → Prop} {m : Except PyErr NState} (h : Fine P m) (k : ∀ t, P t → Q t) : Fine Q m :=
  fun t e => k t (h t e)

theorem Fine.bind {P Q : NState → Prop} {m : Except PyErr NState} {g : NState → Except PyErr NState} (h : Fine P m)
    (k : ∀ t, P t → Fine Q (g t)) : Fine Q (m >>= g) := fun u e => by
  obtain ⟨t, h1, h2⟩ := bind_ok e
  exact k t (h t h1) u h2

theorem Fine.check {P : NState → Prop} {m : Except PyErr Unit} {g : Unit → Except PyErr NState}
    (k : m = .ok () → Fine P (g ())) : Fine P (m >>= g) := by
  cases m with
  | error e => exact Fine.fail
  | ok x => exact k rfl

theorem pair_fine {m : Except PyErr NState} {g : NState → Except PyErr NState} (hs : s.Ok) (h : Fine (QE s) m)
    (k : ∀ t, t.Ok → Fine (QE t) (g t)) : Fine (QE s) (m >>= g) :=
  h.bind fun t ht => (k t (ht.1.ok hs)).mono fun _ hu => ht.trans hu

/-- A block in a scope made after `s`. -/
theorem leave_qs {c b : NState} (h : QS s c) (hw : Within c b) (hn : s.scopes.length ≤ b.cur) (k : QS b t) : QS s t.leave := by
  obtain ⟨h1, h2, h3, h4, h5⟩ := hw.leave k
  have hok := h.2.1
  have hcur := hw.cur
  refine ⟨⟨h1.trans h.1.cur, h2.trans h.1.depth, Nat.le_trans h.1.len h3, fun i hi hne => ?_, ?_⟩, ?_, h.2.2.trans h5⟩
  · rw [h4 i (Nat.lt_of_lt_of_le hi h.1.len) (by omega)]
    exact h.1.old i hi hne
  · rw [h4 s.cur (by rw [← h.1.cur]; exact hok.lt) (by rw [← h.1.cur]; omega)]
    exact h.1.parent
  · unfold NState.Ok at *
    rw [h1, h2]
    exact hok.congr fun j hj => h4 j (Nat.lt_of_le_of_lt hj hok.lt) (by omega)

theorem block_fine {m : Except PyErr NState} (hs : s.Ok)
    (h : Fine (QS (s.alloc.enter s.scopes.length)) m) : Fine (QE s) (m >>= fun s => .ok s.leave) :=
  h.bind fun _ ht => Fine.ret ((within_alloc hs).leave_qe (Nat.le_refl _) ht)

theorem alloc_qe (s : NState) : QE s s.alloc := (ready_alloc s).qe (Nat.le_refl _)

theorem alloc_get_none (s : NState) (n : List Char) : s.alloc.get s.scopes.length n = none := by
  simp [NState.get, alloc_new, assocGet]

theorem params_ready (cfg : NCfg) (ts : List Token) (h : distinctParams ts [] = .ok ()) :
    Ready s s.scopes.length (defineParams cfg s.scopes.length ts s.alloc) :=
  defineParams_ready cfg ts [] s.alloc (ready_alloc s) h fun t _ _ => alloc_get_none s t.chars

/-- What is left of `iguala` after its target. -/
theorem iguala_fine (cfg : NCfg) (t : Token) (target : Expr) (arms : List Arm) {s1 s2 : NState} (h : QE s1 s2) (h1 : s1.Ok)
    (hd : s1.depth ≠ 0)
    (hv : ∀ c, c.Ok → c.cur < s2.scopes.length → ArmsOk c s2.scopes.length arms.length →
      Fine (fun d => d.cur = c.cur ∧ d.depth = c.depth ∧ c.scopes.length ≤ d.scopes.length ∧
        (∀ j < s2.scopes.length, d.scopes[j]? = c.scopes[j]?) ∧ UsesOk c d) (visitArms cfg (cfg.plan t) arms 0 s2.scopes.length c)) :
    Fine (QS s1) (checkArms cfg (arms.map armPat) s2 >>= fun s =>
      visitArms cfg (cfg.plan t) arms 0 s2.scopes.length
        (defineAgains (cfg.plan t) (arms.map armPat) 0 s2.scopes.length
          (defineHidden t (cfg.plan t).hidden (defineTarget cfg target s)))) := by
  have h2 := h.1.ok h1
  refine Fine.bind (P := fun c => QE s2 c ∧ ArmsOk c s2.scopes.length (arms.map armPat).length)
    (fun c hc => checkArms_ok cfg _ s2 c h2 hc) fun c hc => ?_
  obtain ⟨q3, a3⟩ := hc
  have h3 := q3.1.ok h2
  have hc3 : c.cur < s2.scopes.length := by rw [q3.1.cur]; exact h2.lt
  have hd3 : c.depth ≠ 0 := by rw [q3.1.depth, h.1.depth]; exact hd
  have q4 := defineTarget_qs cfg target h3 hd3
  have q5 := defineHidden_qs t (cfg.plan t).hidden _ q4.2.1 (by rw [q4.1.depth]; exact hd3)
  have q := (h.trans q3 |>.qs h1).trans (q4.trans q5)
  have q45 := q4.trans q5
  generalize hb : defineHidden t (cfg.plan t).hidden (defineTarget cfg target c) = b at q q45
  have a5 := a3.of_kept q45.1 hc3
  have red : Rearmed b (defineAgains (cfg.plan t) (arms.map armPat) 0 s2.scopes.length b) s2.scopes.length _ :=
    defineAgains_arms (cfg.plan t) (arms.map armPat) 0 0 b a5
  generalize defineAgains (cfg.plan t) (arms.map armPat) 0 s2.scopes.length b = d at red
  have hbc : b.cur < s2.scopes.length := by rw [q45.1.cur]; exact hc3
  have hdo : d.Ok := by
    have := q.2.1
    unfold NState.Ok at *
    rw [red.cur, red.depth]
    exact this.congr fun j hj => red.old j (by omega)
  refine (hv d hdo (by rw [red.cur]; exact hbc) (by simpa using red.arms)).mono fun x hx => ?_
  obtain ⟨x1, x2, x3, x4, x5⟩ := hx
  have hl := h.1.len
  refine ⟨⟨by rw [x1, red.cur, q.1.cur], by rw [x2, red.depth, q.1.depth], ?_, fun i hi hne => ?_, ?_⟩, ?_, ?_⟩
  · rw [red.len] at x3; exact Nat.le_trans q.1.len x3
  · rw [x4 i (by omega), red.old i (by omega), q.1.old i hi hne]
  · have hc1 : s1.cur < s2.scopes.length := Nat.lt_of_lt_of_le h1.lt hl
    rw [x4 _ hc1, red.old _ hc1, q.1.parent]
  · unfold NState.Ok at *
    rw [x1, x2]
    exact hdo.congr fun j hj => x4 j (by rw [red.cur] at hj; omega)
  · exact q.2.2.trans ((UsesOk.of_eq red.uses).trans x5)

mutual
theorem visitE_fine (cfg : NCfg) : ∀ (e : Expr) {s : NState}, s.Ok → Fine (QE s) (visitE cfg e s)
  | .const _, s, _ => Fine.ret (QE.refl s)
  | .alvo _, s, _ => Fine.ret (QE.refl s)
  | .fmtStr _ parts, _, hs => visitEs_fine cfg parts hs
  | .var _, _, hs => fun _ h => use_ok hs h
  | .path _, _, hs => fun _ h => use_ok hs h
  | .converta _ e _, _, hs => visitE_fine cfg e hs
  | .bin _ a b, _, hs => pair_fine hs (visitE_fine cfg a hs) fun _ h => visitE_fine cfg b h
  | .un _ e, _, hs => visitE_fine cfg e hs
  | .assign _ l r, _, hs => pair_fine hs (visitE_fine cfg r hs) fun _ h => visitE_fine cfg l h
  | .list _ _ es, _, hs => visitEs_fine cfg es hs
  | .named _ e, _, hs => visitE_fine cfg e hs
  | .get e _, _, hs => visitE_fine cfg e hs
  | .index _ a b, _, hs => pair_fine hs (visitE_fine cfg a hs) fun _ h => visitE_fine cfg b h
  | .indexSet _ a b, _, hs => pair_fine hs (visitE_fine cfg a hs) fun _ h => visitE_fine cfg b h
  | .set a b, _, hs => pair_fine hs (visitE_fine cfg a hs) fun _ h => visitE_fine cfg b h
  | .call c args, _, hs => pair_fine hs (visitCallee_fine cfg c hs) fun _ h => visitArgs_fine cfg (isVec c) args h
  | .iguala t target arms, s, hs => by
    simp only [visitE]
    have hw := within_alloc hs
    have h1 := hw.ok hs
    have ht := visitE_fine cfg target h1
    have hd : (s.alloc.enter s.scopes.length).depth ≠ 0 := by simp [NState.enter]
    have hc : (s.alloc.enter s.scopes.length).cur = s.scopes.length := rfl
    generalize s.alloc.enter s.scopes.length = s1 at hw h1 ht hd hc
    refine ht.bind fun s2 h2 => ?_
    have hr := iguala_fine cfg t target arms h2 h1 hd fun c a1 a2 a3 => visitArms_fine cfg (cfg.plan t) arms 0 _ a1 a2 a3
    have := Fine.bind hr (g := fun s => .ok s.leave) fun x hx => Fine.ret (hw.leave_qe (by omega) hx)
    rw [bind_assoc] at this
    exact this
theorem visitCallee_fine (cfg : NCfg) : ∀ (e : Expr) {s : NState}, s.Ok → Fine (QE s) (visitCallee cfg e s)
  | .var _, _, hs => fun _ h => use_ok hs h
  | .get e _, _, hs => visitE_fine cfg e hs
  | .path _, _, hs => fun _ h => use_ok hs h
  | .const _, _, _ | .fmtStr _ _, _, _ | .converta _ _ _, _, _ | .alvo _, _, _ | .bin _ _ _, _, _
  | .un _ _, _, _ | .assign _ _ _, _, _ | .iguala _ _ _, _, _ | .call _ _, _, _ | .list _ _ _, _, _
  | .named _ _, _, _ | .index _ _ _, _, _ | .indexSet _ _ _, _, _ | .set _ _, _, _ => Fine.fail
theorem visitArgs_fine (cfg : NCfg) (vec : Bool) : ∀ (es : List Expr) {s : NState}, s.Ok → Fine (QE s) (visitArgs cfg vec es s)
  | [], s, _ => Fine.ret (QE.refl s)
  | e :: es, s, hs => by
    have h1 := visitE_fine cfg e hs
    have h2 := fun (t : NState) (h : t.Ok) => visitEs_fine cfg es h
    cases vec with
    | true => exact pair_fine hs (Fine.ret (QE.refl s)) h2
    | false => exact pair_fine hs h1 h2
theorem visitEs_fine (cfg : NCfg) : ∀ (es : List Expr) {s : NState}, s.Ok → Fine (QE s) (visitEs cfg es s)
  | [], s, _ => Fine.ret (QE.refl s)
  | e :: es, _, hs => pair_fine hs (visitE_fine cfg e hs) fun _ h => visitEs_fine cfg es h
theorem visitArms_fine (cfg : NCfg) (plan : Plan) : ∀ (arms : List Arm) (k base : Nat) {c : NState},
    c.Ok → c.cur < base → ArmsOk c base arms.length →
      Fine (fun d => d.cur = c.cur ∧ d.depth = c.depth ∧ c.scopes.length ≤ d.scopes.length ∧
        (∀ j < base, d.scopes[j]? = c.scopes[j]?) ∧ UsesOk c d) (visitArms cfg plan arms k base c)
  | [], _, _, c, _, _, _ => Fine.ret ⟨rfl, rfl, Nat.le_refl _, fun _ _ => rfl, UsesOk.refl c⟩
  | .mk _ _ _ body :: rest, k, base, c, hc, hlt, ha => by
    have hbody := fun (b : NState) (h : b.Ok) => visitSs_fine cfg body h
    have hrest := fun (d : NState) (h1 : d.Ok) (h2 : d.cur < base + 1) (h3 : ArmsOk d (base + 1) rest.length) =>
      visitArms_fine cfg plan rest (k + 1) (base + 1) h1 h2 h3
    simp only [visitArms]
    obtain ⟨sc, e1, e2, e3⟩ := ha 0 (by simp)
    have hb : base < c.scopes.length := get_lt e1
    refine Fine.bind (P := fun d => d.cur = c.cur ∧ d.depth = c.depth ∧ c.scopes.length ≤ d.scopes.length ∧
        (∀ j < c.scopes.length, j ≠ base → d.scopes[j]? = c.scopes[j]?) ∧ UsesOk c d) ?_ fun d hd => ?_
    · split
      · have hr : Ready c base c := ⟨rfl, rfl, Nat.le_refl _, fun _ _ _ => rfl, ⟨sc, e1, e2, e3⟩, UsesOk.refl c⟩
        have hw := hr.enter hlt
        exact (hbody _ (hw.ok hc)).bind fun x hx => Fine.ret (hw.leave hx)
      · exact Fine.ret ⟨rfl, rfl, Nat.le_refl _, fun _ _ _ => rfl, UsesOk.refl c⟩
    · obtain ⟨d1, d2, d3, d4, d5⟩ := hd
      have hdo : d.Ok := by
        unfold NState.Ok at *
        rw [d1, d2]
        exact hc.congr fun j hj => d4 j (by omega) (by omega)
      refine (hrest d hdo (by omega) fun j hj => ?_).mono fun x hx => ?_
      · obtain ⟨sc', f1, f2, f3⟩ := ha (j + 1) (by simp; exact hj)
        have : base + (j + 1) = base + 1 + j := by omega
        rw [this] at f1
        exact ⟨sc', by rw [d4 _ (get_lt f1) (by omega)]; exact f1, by rw [d1]; exact f2, by rw [d2]; exact f3⟩
      · obtain ⟨x1, x2, x3, x4, x5⟩ := hx
        exact ⟨x1.trans d1, x2.trans d2, Nat.le_trans d3 x3,
          fun j hj => by rw [x4 j (by omega), d4 j (by omega) (by omega)], d5.trans x5⟩
theorem visitS_fine (cfg : NCfg) : ∀ (x : Stmt) {s : NState}, s.Ok → Fine (QS s) (visitS cfg x s)
  | .expr e, _, hs => (visitE_fine cfg e hs).mono fun _ h => h.qs hs
  | .varDecl tok name ty none, s, hs => by
    simp only [visitS]
    split
    · exact Fine.fail
    · rename_i hg
      exact Fine.ret (defineSymbol_qs cfg hs (fun h _ => by simpa [sym] using h) fun _ _ _ => hg)
  | .varDecl tok name ty (some e), s, hs => by
    have hv := fun (b : NState) (h : b.Ok) => visitE_fine cfg e h
    simp only [visitS]
    split
    · exact Fine.fail
    · rename_i hg
      have q := defineSymbol_qs cfg (y := sym name (decide (s.depth = 0)) true) hs (fun h _ => by simpa [sym] using h)
        fun _ _ _ => hg
      split
      · exact Fine.fail
      · split
        · exact Fine.fail
        · exact (hv _ q.2.1).mono fun _ h => q.trans (h.qs q.2.1)
  | .loopCtl _, _, hs => Fine.ret (QS.refl hs)
  | .retorna _ none, _, hs => Fine.ret (QS.refl hs)
  | .retorna _ (some e), _, hs => (visitE_fine cfg e hs).mono fun _ h => h.qs hs
  | .produz _ e, _, hs => (visitE_fine cfg e hs).mono fun _ h => h.qs hs
  | .mostra _ e, _, hs => (visitE_fine cfg e hs).mono fun _ h => h.qs hs
  | .se _ c a elsifs none, s, hs => by
    simp only [visitS]
    refine Fine.mono (P := QE s) ?_ fun _ h => h.qs hs
    refine (visitE_fine cfg c hs).bind fun t ht => ?_
    have h1 := ht.1.ok hs
    refine (visitSs_fine cfg a ((within_alloc h1).ok h1)).bind fun u hu => ?_
    have hu := ht.trans ((within_alloc h1).leave_qe (Nat.le_refl _) hu)
    exact (visitElses_fine cfg elsifs (hu.1.ok hs)).bind fun v hv => Fine.ret (hu.trans hv)
  | .se _ c a elsifs (some b), s, hs => by
    simp only [visitS]
    refine Fine.mono (P := QE s) ?_ fun _ h => h.qs hs
    refine (visitE_fine cfg c hs).bind fun t ht => ?_
    have h1 := ht.1.ok hs
    refine (visitSs_fine cfg a ((within_alloc h1).ok h1)).bind fun u hu => ?_
    have hu := ht.trans ((within_alloc h1).leave_qe (Nat.le_refl _) hu)
    refine (visitElses_fine cfg elsifs (hu.1.ok hs)).bind fun v hv => ?_
    have hv := hu.trans hv
    have h3 := hv.1.ok hs
    exact (block_fine h3 (visitSs_fine cfg b ((within_alloc h3).ok h3))).mono fun _ h => hv.trans h
  | .enquanto _ c b, s, hs => by
    simp only [visitS]
    refine Fine.mono (P := QE s) ?_ fun _ h => h.qs hs
    refine (visitE_fine cfg c hs).bind fun t ht => ?_
    have h3 := ht.1.ok hs
    exact (block_fine h3 (visitSs_fine cfg b ((within_alloc h3).ok h3))).mono fun _ h => ht.trans h
  | .escolha _ c cases none, s, hs => by
    simp only [visitS]
    refine Fine.mono (P := QE s) ?_ fun _ h => h.qs hs
    refine (visitE_fine cfg c hs).bind fun t ht => ?_
    exact (visitElses_fine cfg cases (ht.1.ok hs)).bind fun v hv => Fine.ret (ht.trans hv)
  | .escolha _ c cases (some b), s, hs => by
    simp only [visitS]
    refine Fine.mono (P := QE s) ?_ fun _ h => h.qs hs
    refine (visitE_fine cfg c hs).bind fun t ht => ?_
    refine (visitElses_fine cfg cases (ht.1.ok hs)).bind fun v hv => ?_
    have hv := ht.trans hv
    have h3 := hv.1.ok hs
    exact (block_fine h3 (visitSs_fine cfg b ((within_alloc h3).ok h3))).mono fun _ h => hv.trans h
  | .para _ name a b none body, s, hs => by
    have hb := fun (c : NState) (h : c.Ok) => visitSs_fine cfg body h
    simp only [visitS]
    refine Fine.mono (P := QE s) ?_ fun _ h => h.qs hs
    refine (visitE_fine cfg a hs).bind fun t ht => ?_
    refine (visitE_fine cfg b (ht.1.ok hs)).bind fun u hu => ?_
    have hu := ht.trans hu
    have h3 := hu.1.ok hs
    have hw := ((ready_alloc u).symbol cfg (y := sym name false true) fun _ _ => alloc_get_none u _).enter h3.lt
    exact (hb _ (hw.ok h3)).bind fun x hx => Fine.ret (hu.trans (hw.leave_qe (Nat.le_refl _) hx))
  | .para _ name a b (some e) body, s, hs => by
    have hb := fun (c : NState) (h : c.Ok) => visitSs_fine cfg body h
    simp only [visitS]
    refine Fine.mono (P := QE s) ?_ fun _ h => h.qs hs
    refine (visitE_fine cfg a hs).bind fun t ht => ?_
    refine (visitE_fine cfg b (ht.1.ok hs)).bind fun v hv => ?_
    have hv := ht.trans hv
    refine (visitE_fine cfg e (hv.1.ok hs)).bind fun u hu => ?_
    have hu := hv.trans hu
    have h3 := hu.1.ok hs
    have hw := ((ready_alloc u).symbol cfg (y := sym name false true) fun _ _ => alloc_get_none u _).enter h3.lt
    exact (hb _ (hw.ok h3)).bind fun x hx => Fine.ret (hu.trans (hw.leave_qe (Nat.le_refl _) hx))
  | .func name params _ none native ann, s, hs => by
    simp only [visitS]
    split
    · exact Fine.fail
    · split
      · exact Fine.fail
      · have q := defineSymbol_qs cfg (y := sym name true false) hs (fun _ h => by cases h) fun _ h => by cases h
        refine Fine.check fun hd => Fine.ret ?_
        exact q.trans (((params_ready cfg _ hd).qe (Nat.le_refl _)).qs q.2.1)
  | .func name params _ (some b) native ann, s, hs => by
    have hb := fun (c : NState) (h : c.Ok) => visitSs_fine cfg b h
    simp only [visitS]
    split
    · exact Fine.fail
    · split
      · exact Fine.fail
      · have q := defineSymbol_qs cfg (y := sym name true false) hs (fun _ h => by cases h) fun _ h => by cases h
        refine Fine.check fun hd => ?_
        have hr := params_ready (s := s.defineSymbol cfg (sym name true false) s.depth s.cur) cfg _ hd
        split
        · exact Fine.ret (q.trans ((hr.qe (Nat.le_refl _)).qs q.2.1))
        · have hw := hr.enter q.2.1.lt
          exact (hb _ (hw.ok q.2.1)).bind fun x hx => Fine.ret (leave_qs q hw q.1.len hx)
  | .method generics _ name params _ body ann, s, hs => by
    have hb := fun (c : NState) (h : c.Ok) => visitSs_fine cfg body h
    simp only [visitS]
    split
    · exact Fine.fail
    · have q := defineSymbol_qs cfg (y := sym name true false) hs (fun _ h => by cases h) fun _ h => by cases h
      refine Fine.check fun hd => ?_
      have hr := params_ready (s := s.defineSymbol cfg (sym name true false) s.depth s.cur) cfg _ hd
      have hr' := hr.symbol cfg (y := alvoSym name) fun _ hp => absurd rfl hp.2
      rw [← hr.depth] at hr'
      have hr'' := defineGenerics_ready generics _ hr'
      split
      · exact Fine.ret (q.trans ((hr''.qe (Nat.le_refl _)).qs q.2.1))
      · have hw := hr''.enter q.2.1.lt
        exact (hb _ (hw.ok q.2.1)).bind fun x hx => Fine.ret (leave_qs q hw q.1.len hx)
  | .registo name _ fields _, s, hs => by
    have hb := fun (c : NState) (h : c.Ok) => visitSs_fine cfg fields h
    simp only [visitS]
    split
    · exact Fine.fail
    · have qa := (alloc_qe s).qs hs
      have q := qa.trans (defineSymbol_qs cfg (y := sym name false false) qa.2.1 (fun _ h => by cases h) fun _ h => by cases h)
      have hlt := hs.lt
      have hw : Within (s.alloc.defineSymbol cfg (sym name false false) s.depth s.cur)
          ((s.alloc.defineSymbol cfg (sym name false false) s.depth s.cur).enter s.scopes.length) := by
        refine Ready.enter ⟨rfl, rfl, Nat.le_refl _, fun _ _ _ => rfl, ⟨_, ?_, rfl, localOk_empty _ _⟩, UsesOk.refl _⟩ hlt
        unfold NState.defineSymbol
        rw [define_get, if_neg (by omega), alloc_new]
        rfl
      refine (hb _ (hw.ok q.2.1)).bind fun x hx => Fine.ret ?_
      have ql := leave_qs q hw (Nat.le_refl _) hx
      exact ql.trans (defineSymbol_qs cfg (y := sym name false false) ql.2.1 (fun _ h => by cases h) fun _ h => by cases h)
  | .uniao name _ _ _, s, hs => by
    simp only [visitS]
    split
    · exact Fine.fail
    · have qa := (alloc_qe s).qs hs
      exact Fine.ret (qa.trans (defineSymbol_qs cfg (y := sym name false false) qa.2.1 (fun _ h => by cases h)
        fun _ h => by cases h))
  | .usa _ _ _, _, hs => Fine.ret (QS.refl hs)
theorem visitSs_fine (cfg : NCfg) : ∀ (xs : List Stmt) {s : NState}, s.Ok → Fine (QS s) (visitSs cfg xs s)
  | [], _, hs => Fine.ret (QS.refl hs)
  | x :: xs, s, hs => by
    simp only [visitSs]
    exact (visitS_fine cfg x hs).bind fun t ht => (visitSs_fine cfg xs ht.2.1).mono fun _ h => ht.trans h
theorem visitElses_fine (cfg : NCfg) : ∀ (xs : List ElseIf) {s : NState}, s.Ok → Fine (QE s) (visitElses cfg xs s)
  | [], s, _ => Fine.ret (QE.refl s)
  | .mk _ c b :: rest, s, hs => by
    simp only [visitElses]
    refine (visitE_fine cfg c hs).bind fun t ht => ?_
    have h1 := ht.1.ok hs
    refine (visitSs_fine cfg b ((within_alloc h1).ok h1)).bind fun u hu => ?_
    have hu := ht.trans ((within_alloc h1).leave_qe (Nat.le_refl _) hu)
    exact (visitElses_fine cfg rest (hu.1.ok hs)).mono fun _ h => hu.trans h
end

/-! ## What the locals seen from one place are stored under -/

/-- Where the look-up of a plain name that is not a global variable ends. -/
theorem lookup_local {scopes : List NScope} {n : List Char} {y : NSym} : ∀ (k d i : Nat), ChainOk scopes d i →
    lookup scopes n k i = some y → y.isVar = true → y.isGlobal = false →
      ∃ e j sc, 1 ≤ e ∧ e ≤ d ∧ j ≤ i ∧ scopes[j]? = some sc ∧ LocalOk e sc ∧ assocGet sc.symbols n = some y ∧
        (e = d ↔ j = i)
  | 0, _, _, _, h, _, _ => by cases h
  | k + 1, 0, i, hc, h, hv, hg => by
    obtain ⟨sc, e1, e2, e3⟩ := hc
    simp only [lookup, e1, e2] at h
    split at h
    · rename_i z hz
      cases h
      rw [e3 n y hz hv] at hg; cases hg
    · cases h
  | k + 1, d + 1, i, hc, h, hv, hg => by
    obtain ⟨sc, p, e1, e2, e3, e4, e5⟩ := hc
    simp only [lookup, e1, e2] at h
    split at h
    · rename_i z hz
      cases h
      exact ⟨d + 1, i, sc, by omega, Nat.le_refl _, Nat.le_refl _, e1, e4, hz, by simp⟩
    · obtain ⟨e, j, sc', a1, a2, a3, a4, a5, a6, -⟩ := lookup_local k d p e5 h hv hg
      exact ⟨e, j, sc', a1, by omega, by omega, a4, a5, a6, by omega⟩

end Amanda.Names

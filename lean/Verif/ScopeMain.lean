import Verif.ScopeSpec

/-!
# The checker's scopes give names their meaning
-/

namespace Amanda.Names

/-! ## Specification and checker side by side -/

/-- Both succeed, with results related by `P`, or both reject; nothing is said about what the
specification leaves out. -/
def Ag {α : Type} (P : α → NState → Prop) (r : Except Reason α) (m : Except PyErr NState) : Prop :=
  match r with
  | .ok a => ∃ t, m = .ok t ∧ P a t
  | .error .outside => True
  | .error _ => ∃ e, m = .error e

section
variable {α β : Type} {P : α → NState → Prop} {Q : β → NState → Prop}

theorem Ag.ret {a : α} {t : NState} (h : P a t) : Ag P (.ok a) (.ok t) := ⟨t, rfl, h⟩

theorem Ag.bind {r : Except Reason α} {m : Except PyErr NState} {f : α → Except Reason β}
    {g : NState → Except PyErr NState} (h : Ag P r m) (k : ∀ a t, P a t → Ag Q (f a) (g t)) :
    Ag Q (r >>= f) (m >>= g) := by
  cases r with
  | ok a =>
    obtain ⟨t, rfl, hp⟩ := h
    exact k a t hp
  | error e =>
    cases e with
    | outside => trivial
    | _ => obtain ⟨e', rfl⟩ := h; exact ⟨e', rfl⟩

theorem Ag.map {r : Except Reason α} {m : Except PyErr NState} {f : α → β} (h : Ag P r m)
    (k : ∀ a t, P a t → Q (f a) t) : Ag Q (r >>= fun a => .ok (f a)) m := by
  cases r with
  | ok a =>
    obtain ⟨t, rfl, hp⟩ := h
    exact ⟨t, rfl, k a t hp⟩
  | error e =>
    cases e with
    | outside => trivial
    | _ => exact h

theorem Ag.imp {P' : α → NState → Prop} {r : Except Reason α} {m : Except PyErr NState} (h : Ag P r m)
    (k : ∀ a t, P a t → P' a t) : Ag P' r m := by
  cases r with
  | ok a =>
    obtain ⟨t, rfl, hp⟩ := h
    exact ⟨t, rfl, k a t hp⟩
  | error e =>
    cases e with
    | outside => trivial
    | _ => exact h

/-- A step of the specification alone that cannot leave the checker behind. -/
theorem Ag.left {γ : Type} {r : Except Reason γ} {m : Except PyErr NState} {f : γ → Except Reason α}
    (hok : ∀ c, r = .ok c → Ag P (f c) m) (herr : ∀ e, r = .error e → e ≠ .outside → ∃ e', m = .error e') :
    Ag P (r >>= f) m := by
  cases hr : r with
  | ok c => exact hok c hr
  | error e =>
    have := herr e hr
    cases e with
    | outside => trivial
    | _ => exact this (by simp)
end

/-! ## Scopes and environments -/

/-- The scope declares what the block declares. -/
def Match (sc : NScope) (f : Frame) : Prop :=
  ∀ n, reserved n = false → (assocGet sc.symbols n).map (·.decl) = assocGet f n

/-- The chain of scopes from `i` on declares what the blocks declare. -/
def RepO (scopes : List NScope) : Option Nat → Env → Prop
  | none, [] => True
  | some i, f :: fs => ∃ sc, scopes[i]? = some sc ∧ Match sc f ∧ (∀ p, sc.parent = some p → p < i) ∧
      RepO scopes sc.parent fs
  | _, _ => False

/-- The current scope stands for the environment. -/
structure Rep (s : NState) (E : Env) : Prop where
  chain : RepO s.scopes (some s.cur) E
  depth : E.length = s.depth + 1

/-- What the uses so far refer to. -/
def NState.meaning (s : NState) : Meaning := s.uses.map fun u => (u.tok, u.sym.decl)

/-- No scope that was there has changed. -/
structure Same (s t : NState) : Prop where
  cur : t.cur = s.cur
  depth : t.depth = s.depth
  len : s.scopes.length ≤ t.scopes.length
  old : ∀ i < s.scopes.length, t.scopes[i]? = s.scopes[i]?

/-- Of the scopes that were there only the current one may have changed. -/
structure Kept (s t : NState) : Prop where
  cur : t.cur = s.cur
  depth : t.depth = s.depth
  len : s.scopes.length ≤ t.scopes.length
  old : ∀ i < s.scopes.length, i ≠ s.cur → t.scopes[i]? = s.scopes[i]?
  parent : t.scopes[s.cur]?.bind (·.parent) = s.scopes[s.cur]?.bind (·.parent)

/-- After an expression. -/
def PE (s : NState) (u : Meaning) (t : NState) : Prop := Same s t ∧ t.meaning = s.meaning ++ u

/-- After a statement. -/
def PS (s : NState) (r : Meaning × Env) (t : NState) : Prop :=
  Kept s t ∧ Rep t r.2 ∧ t.meaning = s.meaning ++ r.1

/-- After a block, in its own scope. -/
def PB (s : NState) (u : Meaning) (t : NState) : Prop := Kept s t ∧ t.meaning = s.meaning ++ u

variable {s t u : NState}

theorem Same.refl (s : NState) : Same s s := ⟨rfl, rfl, Nat.le_refl _, fun _ _ => rfl⟩

theorem Same.trans (h : Same s t) (k : Same t u) : Same s u :=
  ⟨k.cur.trans h.cur, k.depth.trans h.depth, Nat.le_trans h.len k.len, fun i hi =>
    (k.old i (Nat.lt_of_lt_of_le hi h.len)).trans (h.old i hi)⟩

theorem get_lt {l : List NScope} {i : Nat} {sc : NScope} (h : l[i]? = some sc) : i < l.length :=
  (List.getElem?_eq_some_iff.1 h).1

theorem Rep.lt {E : Env} (h : Rep s E) : s.cur < s.scopes.length := by
  have := h.chain
  cases E with
  | nil => exact this.elim
  | cons f fs => obtain ⟨sc, h1, -⟩ := this; exact get_lt h1

theorem Same.kept (h : Same s t) (hc : s.cur < s.scopes.length) : Kept s t :=
  ⟨h.cur, h.depth, h.len, fun i hi _ => h.old i hi, by rw [h.old _ hc]⟩

theorem Kept.refl (s : NState) : Kept s s := ⟨rfl, rfl, Nat.le_refl _, fun _ _ _ => rfl, rfl⟩

theorem Kept.trans (h : Kept s t) (k : Kept t u) : Kept s u :=
  ⟨k.cur.trans h.cur, k.depth.trans h.depth, Nat.le_trans h.len k.len, fun i hi hne =>
    (k.old i (Nat.lt_of_lt_of_le hi h.len) (by rw [h.cur]; exact hne)).trans (h.old i hi hne),
    by rw [← h.parent]; have := k.parent; rw [h.cur] at this; exact this⟩

theorem RepO.congr {a b : List NScope} : ∀ {E : Env} {i : Nat}, RepO a (some i) E →
    (∀ j, j ≤ i → b[j]? = a[j]?) → RepO b (some i) E
  | [], _, h, _ => h.elim
  | f :: fs, i, h, hab => by
    obtain ⟨sc, h1, h2, h3, h4⟩ := h
    refine ⟨sc, by rw [hab i (Nat.le_refl _)]; exact h1, h2, h3, ?_⟩
    cases hp : sc.parent with
    | none => rw [hp] at h4; cases fs with
      | nil => trivial
      | cons => exact h4
    | some p =>
      rw [hp] at h4
      exact RepO.congr h4 fun j hj => hab j (Nat.le_trans hj (Nat.le_of_lt (h3 p hp)))

theorem Same.rep {E : Env} (h : Same s t) (hr : Rep s E) : Rep t E :=
  ⟨by rw [h.cur]; exact RepO.congr hr.chain fun j hj => h.old j (Nat.lt_of_le_of_lt hj hr.lt), by rw [h.depth]; exact hr.depth⟩

/-! ## Looking names up -/

theorem lookup_find {scopes : List NScope} {n : List Char} (hn : reserved n = false) :
    ∀ {E : Env} {i fuel : Nat}, RepO scopes (some i) E → i < fuel →
      (lookup scopes n fuel i).map (·.decl) = E.find n
  | [], _, _, h, _ => h.elim
  | f :: fs, i, 0, _, hf => absurd hf (Nat.not_lt_zero _)
  | f :: fs, i, fuel + 1, h, hf => by
    obtain ⟨sc, h1, h2, h3, h4⟩ := h
    have hm := h2 n hn
    simp only [lookup, h1, Env.find]
    rw [← hm]
    cases hg : assocGet sc.symbols n with
    | some y => rfl
    | none =>
      simp only [Option.map_none]
      cases hp : sc.parent with
      | none =>
        rw [hp] at h4
        cases fs with
        | nil => rfl
        | cons => exact h4.elim
      | some p =>
        rw [hp] at h4
        exact lookup_find hn h4 (Nat.lt_of_lt_of_le (h3 p hp) (Nat.lt_succ_iff.1 hf))

/-- A look-up changes nothing but the list of look-ups. -/
def PU (s : NState) (u : Meaning) (t : NState) : Prop :=
  t = { s with uses := t.uses } ∧ t.meaning = s.meaning ++ u

theorem PU.pe {s : NState} {u : Meaning} {t : NState} (h : PU s u t) : PE s u t := by
  obtain ⟨h1, h2⟩ := h
  refine ⟨?_, h2⟩
  rw [h1]
  exact ⟨rfl, rfl, Nat.le_refl _, fun _ _ => rfl⟩

theorem use_pu {E : Env} (hr : Rep s E) (tok : Token) : Ag (PU s) (E.use tok) (s.use tok) := by
  unfold Env.use NState.use
  cases hn : reserved tok.chars with
  | true => trivial
  | false =>
    have hl := lookup_find hn hr.chain hr.lt
    rw [← hl]
    simp only [Bool.false_eq_true, ↓reduceIte, NState.resolve]
    cases hk : lookup s.scopes tok.chars s.scopes.length s.cur with
    | none => exact ⟨_, rfl⟩
    | some y =>
      refine ⟨_, rfl, rfl, ?_⟩
      simp [NState.meaning]

theorem use_ag {E : Env} (hr : Rep s E) (tok : Token) : Ag (PE s) (E.use tok) (s.use tok) :=
  (use_pu hr tok).imp fun _ _ h => h.pe

/-! ## Defining names -/

theorem assocGet_assocSet {V : Type} (l : List (List Char × V)) (a b : List Char) (v : V) :
    assocGet (assocSet l a v) b = if a = b then some v else assocGet l b := by
  induction l with
  | nil => simp [assocSet, assocGet]
  | cons x rest ih =>
    obtain ⟨k, w⟩ := x
    simp only [assocSet]
    by_cases hk : k = a
    · subst hk
      simp only [↓reduceIte, assocGet]
      by_cases hb : k = b <;> simp [hb]
    · simp only [hk, ↓reduceIte, assocGet, ih]
      by_cases hb : k = b
      · subst hb; simp [Ne.symm hk]
      · simp [hb]

theorem define_get (s : NState) (i j : Nat) (n : List Char) (y : NSym) :
    (s.define i n y).scopes[j]? =
      if i = j then s.scopes[j]?.map fun sc => { sc with symbols := assocSet sc.symbols n y } else s.scopes[j]? := by
  simp only [NState.define, List.getElem?_modify]
  by_cases h : i = j
  · simp [h]
  · simp [h]

theorem define_len (s : NState) (i : Nat) (n : List Char) (y : NSym) :
    (s.define i n y).scopes.length = s.scopes.length := by simp [NState.define]

/-- `define_symbol` stores some symbol with the same declaration. -/
theorem defineSymbol_eq (cfg : NCfg) (s : NState) (y : NSym) (d i : Nat) :
    ∃ o, s.defineSymbol cfg y d i = s.define i y.name { y with outId := o } := by
  unfold NState.defineSymbol
  split
  · exact ⟨_, rfl⟩
  · exact ⟨y.outId, rfl⟩

theorem Match.set {sc : NScope} {f : Frame} {n : List Char} {y : NSym} (h : Match sc f) :
    Match { sc with symbols := assocSet sc.symbols n y } ((n, y.decl) :: f) := by
  intro m hm
  simp only [assocGet_assocSet, assocGet]
  by_cases hb : n = m
  · simp [hb]
  · simp only [hb, ↓reduceIte]; exact h m hm

/-- Defining a name again with the same declaration, or a reserved name, changes nothing. -/
theorem Match.reset {sc : NScope} {f : Frame} {n : List Char} {y : NSym} (h : Match sc f)
    (hn : reserved n = true ∨ assocGet f n = some y.decl) :
    Match { sc with symbols := assocSet sc.symbols n y } f := by
  intro m hm
  simp only [assocGet_assocSet]
  by_cases hb : n = m
  · subst hb
    rcases hn with hn | hn
    · rw [hn] at hm; cases hm
    · simp [hn]
  · simp only [hb, ↓reduceIte]; exact h m hm

theorem define_kept (s : NState) (n : List Char) (y : NSym) : Kept s (s.define s.cur n y) := by
  refine ⟨rfl, rfl, by rw [define_len]; exact Nat.le_refl _, fun i _ hne => ?_, ?_⟩
  · rw [define_get, if_neg (Ne.symm hne)]
  · rw [define_get, if_pos rfl]
    cases s.scopes[s.cur]? <;> rfl

theorem define_rep {f : Frame} {fs : Env} {g : Frame} {n : List Char} {y : NSym} (hr : Rep s (f :: fs))
    (hm : ∀ sc, Match sc f → Match { sc with symbols := assocSet sc.symbols n y } g) :
    Rep (s.define s.cur n y) (g :: fs) := by
  refine ⟨?_, hr.depth⟩
  obtain ⟨sc, h1, h2, h3, h4⟩ := hr.chain
  refine ⟨{ sc with symbols := assocSet sc.symbols n y }, ?_, hm sc h2, h3, ?_⟩
  · show (s.define s.cur n y).scopes[s.cur]? = _
    rw [define_get, if_pos rfl, h1]; rfl
  · show RepO _ sc.parent fs
    cases hp : sc.parent with
    | none =>
      rw [hp] at h4
      cases fs with
      | nil => trivial
      | cons => exact h4
    | some p =>
      rw [hp] at h4
      refine RepO.congr h4 fun j hj => ?_
      rw [define_get, if_neg]
      have := h3 p hp; omega

theorem rep_cons {E : Env} (hr : Rep s E) : ∃ f fs, E = f :: fs := by
  cases E with
  | nil => exact hr.chain.elim
  | cons f fs => exact ⟨f, fs, rfl⟩

theorem get_cur {f : Frame} {fs : Env} (hr : Rep s (f :: fs)) {n : List Char} (hn : reserved n = false) :
    (s.get s.cur n).map (·.decl) = assocGet f n := by
  obtain ⟨sc, h1, h2, -⟩ := hr.chain
  simp only [NState.get, h1, Option.bind_some]
  exact h2 n hn

/-- The check for a name in use, followed by its definition in the current scope. -/
theorem declare_ag {α : Type} {P : α → NState → Prop} {E : Env} (hr : Rep s E) (tok : Token) {f : Env → Except Reason α}
    {m : Except PyErr NState} {g : Except PyErr NState} (hused : ∀ y, s.get s.cur tok.chars = some y → ∃ e, m = .error e)
    (hnew : s.get s.cur tok.chars = none → m = g)
    (k : ∀ g' fs, E = g' :: fs → Ag P (f (((tok.chars, tok) :: g') :: fs)) g) :
    Ag P (E.declare tok >>= f) m := by
  obtain ⟨g', fs, rfl⟩ := rep_cons hr
  refine Ag.left ?_ ?_
  · intro c hc
    simp only [Env.declare, Frame.declare] at hc
    split at hc
    · cases hc
    · rename_i hres
      have hg := get_cur hr (n := tok.chars) (by simpa using hres)
      cases ha : assocGet g' tok.chars with
      | some d => rw [ha] at hc; cases hc
      | none =>
        rw [ha] at hc hg
        have hc' := Except.ok.inj hc
        rw [hnew (by simpa using hg), ← hc']
        exact k g' fs rfl
  · intro e he hne
    simp only [Env.declare, Frame.declare] at he
    split at he
    · cases he; exact (hne rfl).elim
    · rename_i hres
      have hg := get_cur hr (n := tok.chars) (by simpa using hres)
      cases ha : assocGet g' tok.chars with
      | none => rw [ha] at he; cases he
      | some d =>
        rw [ha] at hg
        cases hk : s.get s.cur tok.chars with
        | none => rw [hk] at hg; cases hg
        | some y => exact hused y hk

theorem reserved_target : reserved targetName = true := by decide
theorem reserved_hidden (n : Nat) : reserved (hiddenName n) = true := by
  simp [reserved, hiddenName, List.isPrefixOf]

/-! ## Entering and leaving blocks -/

/-- A state inside a block of `s`: a scope `s.cur` does not see, with `s.cur` around it. -/
structure Inside (s : NState) (f : Frame) (b : NState) : Prop where
  cur : s.scopes.length ≤ b.cur
  depth : b.depth = s.depth + 1
  len : s.scopes.length ≤ b.scopes.length
  old : ∀ i < s.scopes.length, b.scopes[i]? = s.scopes[i]?
  scope : ∃ sc, b.scopes[b.cur]? = some sc ∧ sc.parent = some s.cur ∧ Match sc f
  meaning : b.meaning = s.meaning

theorem Inside.rep {f : Frame} {b : NState} {E : Env} (h : Inside s f b) (hr : Rep s E) : Rep b (f :: E) := by
  obtain ⟨sc, h1, h2, h3⟩ := h.scope
  refine ⟨⟨sc, h1, h3, fun p hp => ?_, ?_⟩, by simp [h.depth, hr.depth]⟩
  · rw [h2] at hp; cases hp
    exact Nat.lt_of_lt_of_le hr.lt h.cur
  · rw [h2]
    exact RepO.congr hr.chain fun j hj => h.old j (Nat.lt_of_le_of_lt hj hr.lt)

theorem Inside.leave {f : Frame} {b t : NState} (h : Inside s f b) (k : Kept b t) : Same s t.leave := by
  obtain ⟨sc, h1, h2, -⟩ := h.scope
  refine ⟨?_, ?_, Nat.le_trans h.len k.len, fun i hi => ?_⟩
  · simp only [NState.leave, k.cur]
    rw [k.parent, h1]
    simp [h2]
  · simp [NState.leave, k.depth, h.depth]
  · show t.scopes[i]? = _
    rw [k.old i (Nat.lt_of_lt_of_le hi h.len) (by have := h.cur; omega)]
    exact h.old i hi

theorem alloc_old (s : NState) : ∀ i < s.scopes.length, s.alloc.scopes[i]? = s.scopes[i]? := fun i hi => by
  simp only [NState.alloc]
  rw [List.getElem?_append_left hi]

theorem alloc_new (s : NState) : s.alloc.scopes[s.scopes.length]? = some { symbols := [], parent := some s.cur } := by
  simp [NState.alloc]

theorem inside_alloc (s : NState) : Inside s [] (s.alloc.enter s.scopes.length) where
  cur := Nat.le_refl _
  depth := rfl
  len := by simp [NState.alloc, NState.enter]
  old := alloc_old s
  scope := ⟨_, alloc_new s, rfl, fun _ _ => rfl⟩
  meaning := rfl

theorem leave_meaning (s : NState) : s.leave.meaning = s.meaning := rfl

/-! ## Parameters and patterns -/

/-- The scope `i`, which is not visible yet, declares `f`. -/
structure Held (s : NState) (i : Nat) (f : Frame) (b : NState) : Prop where
  cur : b.cur = s.cur
  depth : b.depth = s.depth
  size : b.scopes.length = s.scopes.length + 1
  old : ∀ j < s.scopes.length, b.scopes[j]? = s.scopes[j]?
  scope : ∃ sc, b.scopes[i]? = some sc ∧ sc.parent = some s.cur ∧ Match sc f
  meaning : b.meaning = s.meaning

theorem held_alloc (s : NState) : Held s s.scopes.length [] s.alloc where
  cur := rfl
  depth := rfl
  size := by simp [NState.alloc]
  old := alloc_old s
  scope := ⟨_, alloc_new s, rfl, fun _ _ => rfl⟩
  meaning := rfl

theorem Held.define {i : Nat} {f g : Frame} {b : NState} {n : List Char} {y : NSym} (h : Held s i f b)
    (hi : s.scopes.length ≤ i) (hm : ∀ sc, Match sc f → Match { sc with symbols := assocSet sc.symbols n y } g) :
    Held s i g (b.define i n y) where
  cur := h.cur
  depth := h.depth
  size := by rw [define_len]; exact h.size
  old := fun j hj => by
    rw [define_get, if_neg (by omega)]; exact h.old j hj
  scope := by
    obtain ⟨sc, h1, h2, h3⟩ := h.scope
    exact ⟨{ sc with symbols := assocSet sc.symbols n y }, by rw [define_get, if_pos rfl, h1]; rfl, h2, hm sc h3⟩
  meaning := h.meaning

theorem Held.symbol {i : Nat} {f : Frame} {b : NState} (cfg : NCfg) {y : NSym} {d : Nat} (h : Held s i f b)
    (hi : s.scopes.length ≤ i) : Held s i ((y.name, y.decl) :: f) (b.defineSymbol cfg y d i) := by
  obtain ⟨o, ho⟩ := defineSymbol_eq cfg b y d i
  rw [ho]
  exact h.define hi fun sc hm => hm.set (y := { y with outId := o })

theorem Held.enter {i : Nat} {f : Frame} {b : NState} (h : Held s i f b) (hi : s.scopes.length ≤ i) :
    Inside s f (b.enter i) where
  cur := hi
  depth := by simp [NState.enter, h.depth]
  len := by simp [NState.enter, h.size]
  old := h.old
  scope := h.scope
  meaning := h.meaning

theorem Held.get {i : Nat} {f : Frame} {b : NState} (h : Held s i f b) {n : List Char} (hn : reserved n = false) :
    (b.get i n).map (·.decl) = assocGet f n := by
  obtain ⟨sc, h1, -, h3⟩ := h.scope
  simp only [NState.get, h1, Option.bind_some]
  exact h3 n hn

/-- `Frame.declare`, when it answers. -/
theorem declare_cases (f : Frame) (tok : Token) :
    f.declare tok = .error .outside ∨
    (reserved tok.chars = false ∧ ∃ d, assocGet f tok.chars = some d ∧ f.declare tok = .error .redeclared) ∨
    (reserved tok.chars = false ∧ assocGet f tok.chars = none ∧ f.declare tok = .ok ((tok.chars, tok) :: f)) := by
  unfold Frame.declare
  cases hn : reserved tok.chars with
  | true => exact .inl rfl
  | false =>
    cases ha : assocGet f tok.chars with
    | some d => exact .inr (.inl ⟨rfl, d, rfl, rfl⟩)
    | none => exact .inr (.inr ⟨rfl, rfl, rfl⟩)

theorem defineVars_ag (cfg : NCfg) {i : Nat} (hi : s.scopes.length ≤ i) :
    ∀ (ts : List Token) (f : Frame) (b : NState), Held s i f b →
      Ag (fun g c => Held s i g c) (f.declareAll ts) (defineVars cfg i ts b)
  | [], f, b, h => Ag.ret h
  | tok :: ts, f, b, h => by
    simp only [Frame.declareAll, defineVars]
    rcases declare_cases f tok with hd | ⟨hn, d, ha, hd⟩ | ⟨hn, ha, hd⟩
    · rw [hd]; trivial
    · rw [hd]
      have := h.get hn
      rw [ha] at this
      cases hg : b.get i tok.chars with
      | none => rw [hg] at this; cases this
      | some y => exact ⟨_, rfl⟩
    · rw [hd]
      have := h.get hn
      rw [ha] at this
      cases hg : b.get i tok.chars with
      | some y => rw [hg] at this; cases this
      | none => exact defineVars_ag cfg hi ts _ _ (h.symbol cfg (y := sym tok false true) hi)

theorem distinct_error : ∀ (ts : List Token) (f : Frame) (seen : List (List Char)),
    (∀ n, seen.contains n = (assocGet f n).isSome) → ∀ e, f.declareAll ts = .error e → e ≠ .outside →
      ∃ e', distinctParams ts seen = .error e'
  | [], _, _, _, e, he, _ => by cases he
  | tok :: ts, f, seen, hs, e, he, hne => by
    simp only [Frame.declareAll] at he
    simp only [distinctParams]
    rcases declare_cases f tok with hd | ⟨hn, d, ha, hd⟩ | ⟨hn, ha, hd⟩
    · rw [hd] at he; cases he; exact (hne rfl).elim
    · rw [if_pos (by rw [hs, ha]; rfl)]; exact ⟨_, rfl⟩
    · rw [hd] at he
      rw [if_neg (by rw [hs, ha]; simp)]
      refine distinct_error ts _ _ (fun n => ?_) e he hne
      simp only [assocGet, List.contains_cons, hs]
      by_cases hb : tok.chars = n
      · simp [hb]
      · simp [hb, Ne.symm hb]

theorem distinct_ok : ∀ (ts : List Token) (f : Frame) (seen : List (List Char)),
    (∀ n, seen.contains n = (assocGet f n).isSome) → ∀ g, f.declareAll ts = .ok g → distinctParams ts seen = .ok ()
  | [], _, _, _, _, _ => rfl
  | tok :: ts, f, seen, hs, g, he => by
    simp only [Frame.declareAll] at he
    simp only [distinctParams]
    rcases declare_cases f tok with hd | ⟨hn, d, ha, hd⟩ | ⟨hn, ha, hd⟩
    · rw [hd] at he; cases he
    · rw [hd] at he; cases he
    · rw [hd] at he
      rw [if_neg (by rw [hs, ha]; simp)]
      refine distinct_ok ts _ _ (fun n => ?_) g he
      simp only [assocGet, List.contains_cons, hs]
      by_cases hb : tok.chars = n
      · simp [hb]
      · simp [hb, Ne.symm hb]

theorem defineParams_held (cfg : NCfg) {i : Nat} (hi : s.scopes.length ≤ i) :
    ∀ (ts : List Token) (f g : Frame) (b : NState), Held s i f b → f.declareAll ts = .ok g →
      Held s i g (defineParams cfg i ts b)
  | [], f, g, b, h, he => by cases he; exact h
  | tok :: ts, f, g, b, h, he => by
    simp only [Frame.declareAll] at he
    simp only [defineParams]
    rcases declare_cases f tok with hd | ⟨hn, d, ha, hd⟩ | ⟨hn, ha, hd⟩
    · rw [hd] at he; cases he
    · rw [hd] at he; cases he
    · rw [hd] at he
      exact defineParams_held cfg hi ts _ g _ (h.symbol cfg (y := sym tok false true) hi) he

/-- The scopes of the arms from `base` on declare the blocks `fs`. -/
def ArmsAt (c : NState) (base : Nat) (fs : List Frame) : Prop :=
  ∀ j f, fs[j]? = some f → ∃ sc, c.scopes[base + j]? = some sc ∧ sc.parent = some c.cur ∧ Match sc f

theorem checkPat_ag (cfg : NCfg) {E : Env} (hr : Rep s E) (p : Pat) :
    Ag (fun r c => Same s c ∧ c.scopes.length = s.scopes.length + 1 ∧ ArmsAt c s.scopes.length [r.2] ∧
      c.meaning = s.meaning ++ r.1) (patFrame E p) (checkPat cfg s.scopes.length p s.alloc) := by
  have fin : ∀ {v : NState} {f : Frame} {m : Meaning} {c : NState}, v = { s with uses := v.uses } → v.meaning = s.meaning ++ m →
      Held v s.scopes.length f c → Same s c ∧ c.scopes.length = s.scopes.length + 1 ∧
      ArmsAt c s.scopes.length [f] ∧ c.meaning = s.meaning ++ m := by
    intro v f m c hv hm h
    have e1 : v.scopes = s.scopes := by rw [hv]
    have e2 : v.cur = s.cur := by rw [hv]
    have e3 : v.depth = s.depth := by rw [hv]
    refine ⟨⟨h.cur.trans e2, h.depth.trans e3, by rw [h.size, e1]; exact Nat.le_succ _, fun i hi => ?_⟩,
      by rw [h.size, e1], ?_, h.meaning.trans hm⟩
    · rw [h.old i (by rw [e1]; exact hi), e1]
    · intro j g hj
      cases j with
      | succ j => cases hj
      | zero =>
        cases hj
        obtain ⟨sc, h1, h2, h3⟩ := h.scope
        exact ⟨sc, h1, by rw [h2, h.cur], h3⟩
  have adt : ∀ (tok : Token) (args : List Pat), Ag (fun (r : Meaning × Frame) c => Same s c ∧ c.scopes.length = s.scopes.length + 1 ∧
      ArmsAt c s.scopes.length [r.2] ∧ c.meaning = s.meaning ++ r.1)
      (E.use tok >>= fun u => match argVars args with
        | .error _ => .error .outside
        | .ok ts => Frame.declareAll [] ts >>= fun f => .ok (u, f))
      (s.alloc.use tok >>= fun s' => argVars args >>= fun ts => defineVars cfg s.scopes.length ts s') := by
    intro tok args
    have hra : Rep s.alloc E :=
      Same.rep (s := s) ⟨rfl, rfl, by simp [NState.alloc], alloc_old s⟩ hr
    refine Ag.bind (use_pu hra tok) fun u v hv => ?_
    cases argVars args with
    | error e => trivial
    | ok ts =>
      refine Ag.map (f := fun f => (u, f)) (P := Held { s with uses := v.uses } s.scopes.length)
        (defineVars_ag cfg (Nat.le_refl _) ts [] v ?_) fun f c h => ?_
      · rw [hv.1]
        exact ⟨rfl, rfl, by simp [NState.alloc], alloc_old s, ⟨_, alloc_new s, rfl, fun _ _ => rfl⟩, rfl⟩
      · exact fin (v := { s with uses := v.uses }) rfl hv.2 h
  cases p with
  | int tok => exact Ag.ret (fin (v := s) rfl (by simp) (held_alloc s))
  | str tok => exact Ag.ret (fin (v := s) rfl (by simp) (held_alloc s))
  | bind tok =>
    exact Ag.map (f := fun f => ([], f)) (defineVars_ag cfg (Nat.le_refl _) [tok] [] _ (held_alloc s)) fun f c h =>
      fin (v := s) rfl (by simp) h
  | adtVar tok args => exact adt tok args
  | adtPath comps args => exact adt (comps.headD noTok) args

theorem ArmsAt.congr {c d : NState} {base : Nat} {fs : List Frame} (h : ArmsAt c base fs) (hc : d.cur = c.cur)
    (ho : ∀ j, base ≤ j → j < base + fs.length → d.scopes[j]? = c.scopes[j]?) : ArmsAt d base fs := by
  intro j f hj
  obtain ⟨sc, h1, h2, h3⟩ := h j f hj
  have hlt : j < fs.length := (List.getElem?_eq_some_iff.1 hj).1
  exact ⟨sc, by rw [ho _ (Nat.le_add_right _ _) (by omega)]; exact h1, by rw [hc]; exact h2, h3⟩

theorem ArmsAt.bound {c : NState} {base : Nat} {fs : List Frame} (h : ArmsAt c base fs) :
    fs = [] ∨ base + fs.length ≤ c.scopes.length := by
  rcases Nat.eq_zero_or_pos fs.length with h0 | h0
  · exact .inl (List.length_eq_zero_iff.1 h0)
  · right
    obtain ⟨sc, h1, -⟩ := h (fs.length - 1) fs[fs.length - 1] (List.getElem?_eq_getElem _)
    have := get_lt h1
    omega

theorem checkArms_ag (cfg : NCfg) {E : Env} : ∀ (ps : List Pat) (s : NState), Rep s E →
    Ag (fun r c => Same s c ∧ ArmsAt c s.scopes.length r.2 ∧ c.meaning = s.meaning ++ r.1)
      (patFrames E ps) (checkArms cfg ps s)
  | [], s, hr => Ag.ret ⟨Same.refl s, fun j f hj => by simp at hj, by simp⟩
  | p :: ps, s, hr => by
    simp only [patFrames, checkArms]
    refine Ag.bind (checkPat_ag cfg hr p) fun r c hc => ?_
    obtain ⟨hs, hl, ha, hm⟩ := hc
    refine Ag.map (f := fun x : Meaning × List Frame => (r.1 ++ x.1, r.2 :: x.2))
      (checkArms_ag cfg ps c (hs.rep hr)) fun x d hd => ?_
    obtain ⟨hs', ha', hm'⟩ := hd
    refine ⟨hs.trans hs', ?_, by rw [hm', hm, List.append_assoc]⟩
    intro j f hj
    cases j with
    | zero =>
      cases hj
      obtain ⟨sc, h1, h2, h3⟩ := ha 0 _ rfl
      refine ⟨sc, ?_, by rw [hs'.cur]; exact h2, h3⟩
      rw [hs'.old _ (get_lt h1)]; exact h1
    | succ j =>
      obtain ⟨sc, h1, h2, h3⟩ := ha' j f hj
      refine ⟨sc, ?_, h2, h3⟩
      rw [hl] at h1
      rw [← h1]; congr 1; omega

/-- Declaring all of them declares each. -/
theorem declareAll_get : ∀ (ts : List Token) (f g : Frame), f.declareAll ts = .ok g →
    (∀ n d, assocGet f n = some d → assocGet g n = some d) ∧ ∀ t ∈ ts, assocGet g t.chars = some t
  | [], f, g, h => by cases h; exact ⟨fun _ _ h => h, fun t ht => (List.not_mem_nil ht).elim⟩
  | tok :: ts, f, g, h => by
    simp only [Frame.declareAll] at h
    rcases declare_cases f tok with hd | ⟨hn, d, ha, hd⟩ | ⟨hn, ha, hd⟩
    · rw [hd] at h; cases h
    · rw [hd] at h; cases h
    · rw [hd] at h
      obtain ⟨h1, h2⟩ := declareAll_get ts _ g h
      refine ⟨fun n d hf => h1 n d ?_, fun t ht => ?_⟩
      · simp only [assocGet]
        by_cases hb : tok.chars = n
        · subst hb; rw [ha] at hf; cases hf
        · simp [hb, hf]
      · rcases List.mem_cons.1 ht with rfl | ht
        · exact h1 _ _ (by simp [assocGet])
        · exact h2 t ht

theorem argVars_eq : ∀ (args : List Pat) (ts : List Token), argVars args = .ok ts →
    (args.filterMap fun | .bind t => some t | _ => none) = ts
  | [], ts, h => by cases h; rfl
  | .bind t :: rest, ts, h => by
    simp only [argVars] at h
    cases hr : argVars rest with
    | error e => rw [hr] at h; cases h
    | ok us =>
      rw [hr] at h; cases h
      simp only [List.filterMap_cons]
      rw [argVars_eq rest us hr]
  | .int t :: rest, ts, h => by
    simp only [argVars] at h
    simp only [List.filterMap_cons]
    exact argVars_eq rest ts h
  | .str t :: rest, ts, h => by
    simp only [argVars] at h
    simp only [List.filterMap_cons]
    exact argVars_eq rest ts h
  | .adtVar t a :: rest, ts, h => by cases h
  | .adtPath t a :: rest, ts, h => by cases h

theorem patFrame_get {E : Env} {p : Pat} {r : Meaning × Frame} (h : patFrame E p = .ok r) :
    ∀ t ∈ patVars p, assocGet r.2 t.chars = some t := by
  have adt : ∀ (tok : Token) (args : List Pat), (E.use tok >>= fun u => match argVars args with
        | .error _ => (.error .outside : Except Reason (Meaning × Frame))
        | .ok ts => Frame.declareAll [] ts >>= fun f => .ok (u, f)) = .ok r →
      ∀ t ∈ (args.filterMap fun | .bind t => some t | _ => none), assocGet r.2 t.chars = some t := by
    intro tok args h
    cases hu : E.use tok with
    | error e => rw [hu] at h; cases h
    | ok u =>
      rw [hu] at h
      cases ha : argVars args with
      | error e => rw [ha] at h; cases h
      | ok ts =>
        rw [ha] at h
        rw [argVars_eq args ts ha]
        cases hd : Frame.declareAll [] ts with
        | error e => simp only [hd] at h; cases h
        | ok f =>
          simp only [hd] at h
          cases h
          exact (declareAll_get ts [] f hd).2
  cases p with
  | int t => exact fun t ht => (List.not_mem_nil ht).elim
  | str t => exact fun t ht => (List.not_mem_nil ht).elim
  | bind tok =>
    simp only [patFrame] at h
    cases hd : Frame.declareAll [] [tok] with
    | error e => rw [hd] at h; cases h
    | ok f => rw [hd] at h; cases h; exact (declareAll_get [tok] [] f hd).2
  | adtVar tok args => exact adt tok args h
  | adtPath comps args => exact adt (comps.headD noTok) args h

/-- Only the scopes from `base` on may differ, and they still are the arms' scopes. -/
structure Redone (c d : NState) (base : Nat) (fs : List Frame) : Prop where
  cur : d.cur = c.cur
  depth : d.depth = c.depth
  len : d.scopes.length = c.scopes.length
  old : ∀ j < base, d.scopes[j]? = c.scopes[j]?
  arms : ArmsAt d base fs
  meaning : d.meaning = c.meaning

theorem defineAgain_held {base : Nat} {fs : List Frame} {j : Nat} {f : Frame} (hj : fs[j]? = some f) :
    ∀ (ts : List Token) (c : NState), (∀ t ∈ ts, assocGet f t.chars = some t) → ArmsAt c base fs →
      Redone c (defineAgain (base + j) ts c) base fs
  | [], c, _, h => ⟨rfl, rfl, rfl, fun _ _ => rfl, h, rfl⟩
  | tok :: ts, c, ht, h => by
    have h' : ArmsAt (c.define (base + j) tok.chars (sym tok false true)) base fs := by
      intro k g hk
      obtain ⟨sc, h1, h2, h3⟩ := h k g hk
      by_cases hkj : k = j
      · subst hkj
        rw [hj] at hk; cases hk
        refine ⟨{ sc with symbols := assocSet sc.symbols tok.chars (sym tok false true) },
          by rw [define_get, if_pos rfl, h1]; rfl, h2, h3.reset (.inr ?_)⟩
        exact ht tok (List.mem_cons_self ..)
      · exact ⟨sc, by rw [define_get, if_neg (by omega)]; exact h1, h2, h3⟩
    have := defineAgain_held hj ts _ (fun t hm => ht t (List.mem_cons_of_mem _ hm)) h'
    simp only [defineAgain]
    refine ⟨this.cur, this.depth, this.len.trans (define_len ..), fun k hk => ?_, this.arms, this.meaning⟩
    rw [this.old k hk, define_get, if_neg (by omega)]

theorem Redone.trans {a b c : NState} {base : Nat} {fs : List Frame} (h : Redone a b base fs) (k : Redone b c base fs) :
    Redone a c base fs :=
  ⟨k.cur.trans h.cur, k.depth.trans h.depth, k.len.trans h.len, fun j hj => (k.old j hj).trans (h.old j hj), k.arms,
    k.meaning.trans h.meaning⟩

theorem defineAgains_held (plan : Plan) {E : Env} {base : Nat} {fs : List Frame} : ∀ (ps : List Pat) (k j : Nat) (c : NState)
    (r : Meaning × List Frame), patFrames E ps = .ok r → (∀ i f, r.2[i]? = some f → fs[j + i]? = some f) → ArmsAt c base fs →
      Redone c (defineAgains plan ps k (base + j) c) base fs
  | [], _, _, c, _, _, _, h => ⟨rfl, rfl, rfl, fun _ _ => rfl, h, rfl⟩
  | p :: ps, k, j, c, r, hp, hf, h => by
    simp only [patFrames] at hp
    cases h1 : patFrame E p with
    | error e => rw [h1] at hp; cases hp
    | ok r1 =>
      rw [h1] at hp
      cases h2 : patFrames E ps with
      | error e => simp only [h2] at hp; cases hp
      | ok r2 =>
        simp only [h2] at hp
        cases hp
        simp only [defineAgains]
        have hj := hf 0 _ rfl
        have step : Redone c (if plan.again k = true then defineAgain (base + j) (patVars p) c else c) base fs := by
          split
          · exact defineAgain_held hj _ c (patFrame_get h1) h
          · exact ⟨rfl, rfl, rfl, fun _ _ => rfl, h, rfl⟩
        have rest := defineAgains_held plan ps (k + 1) (j + 1) _ r2 h2
          (fun i f hi => by have := hf (i + 1) f hi; rwa [Nat.add_assoc, Nat.add_comm 1 i]) step.arms
        exact step.trans rest

/-- The hidden variables leave the block of an `iguala` as it was. -/
theorem defineHidden_ok (tok : Token) {f : Frame} {fs : Env} : ∀ (n : Nat) (c : NState), Rep c (f :: fs) →
    Kept c (defineHidden tok n c) ∧ Rep (defineHidden tok n c) (f :: fs) ∧ (defineHidden tok n c).meaning = c.meaning
  | 0, c, h => ⟨Kept.refl c, h, rfl⟩
  | n + 1, c, h => by
    simp only [defineHidden]
    obtain ⟨h1, h2, h3⟩ := defineHidden_ok tok n _ (define_rep (g := f) (n := hiddenName (c.count c.cur))
      (y := { name := hiddenName (c.count c.cur), outId := hiddenName (c.count c.cur), decl := tok, isGlobal := false, isVar := true }) h
      fun sc hm => hm.reset (.inl (reserved_hidden _)))
    exact ⟨(define_kept ..).trans h1, h2, h3⟩

theorem defineTarget_ok (cfg : NCfg) (e : Expr) {f : Frame} {fs : Env} {c : NState} (h : Rep c (f :: fs)) :
    Kept c (defineTarget cfg e c) ∧ Rep (defineTarget cfg e c) (f :: fs) ∧ (defineTarget cfg e c).meaning = c.meaning := by
  have key : ∀ tok : Token, ∀ d,
      (c.defineSymbol cfg { sym tok false true with name := targetName, outId := targetName } c.depth c.cur = d) →
      Kept c d ∧ Rep d (f :: fs) ∧ d.meaning = c.meaning := by
    intro tok d hd
    obtain ⟨o, ho⟩ := defineSymbol_eq cfg c { sym tok false true with name := targetName, outId := targetName } c.depth c.cur
    rw [← hd, ho]
    exact ⟨define_kept .., define_rep h fun sc hm => hm.reset (.inl reserved_target), rfl⟩
  cases e <;> first | exact ⟨Kept.refl c, h, rfl⟩ | exact key _ _ rfl

/-! ## The visitor -/

/-- After the arms of an `iguala`: the scopes below `base` are as before. -/
def PA (base : Nat) (c : NState) (u : Meaning) (d : NState) : Prop :=
  d.cur = c.cur ∧ d.depth = c.depth ∧ c.scopes.length ≤ d.scopes.length ∧
    (∀ j < base, d.scopes[j]? = c.scopes[j]?) ∧ d.meaning = c.meaning ++ u

theorem PE.trans {a b : Meaning} (h : PE s a t) (k : PE t b u) : PE s (a ++ b) u :=
  ⟨h.1.trans k.1, by rw [k.2, h.2, List.append_assoc]⟩

theorem PE.refl (s : NState) : PE s [] s := ⟨Same.refl s, by simp⟩

theorem PE.ps {E : Env} {a : Meaning} (hr : Rep s E) (h : PE s a t) : PS s (a, E) t :=
  ⟨h.1.kept hr.lt, h.1.rep hr, h.2⟩

/-- The meanings the plan of an `iguala` leaves in. -/
def NCfg.reached (cfg : NCfg) : Token → Nat → Bool := fun t => (cfg.plan t).reached

/-- A block as part of a statement or an expression. -/
theorem block_ag {f : Frame} {b : NState} {r : Except Reason Meaning} {m : Except PyErr NState} (h : Inside s f b)
    (hb : Ag (PB b) r m) : Ag (PE s) r (m >>= fun s => .ok s.leave) := by
  cases r with
  | ok a =>
    obtain ⟨t, rfl, hk, hm⟩ := hb
    exact ⟨_, rfl, h.leave hk, by rw [leave_meaning, hm, h.meaning]⟩
  | error e =>
    cases e with
    | outside => trivial
    | _ => obtain ⟨e', rfl⟩ := hb; exact ⟨e', rfl⟩

/-- The same, before the block is left. -/
theorem block_step {f : Frame} {b : NState} {r : Except Reason Meaning} {m : Except PyErr NState} (h : Inside s f b)
    (hb : Ag (PB b) r m) : Ag (fun u t => PE s u t.leave) r m :=
  hb.imp fun _ _ ⟨hk, hm⟩ => ⟨h.leave hk, by rw [leave_meaning, hm, h.meaning]⟩

/-- A symbol defined in the current scope. -/
theorem declared_ok (cfg : NCfg) (y : NSym) {f : Frame} {fs : Env} (hr : Rep s (f :: fs)) :
    PS s ([], ((y.name, y.decl) :: f) :: fs) (s.defineSymbol cfg y s.depth s.cur) := by
  obtain ⟨o, ho⟩ := defineSymbol_eq cfg s y s.depth s.cur
  rw [ho]
  exact ⟨define_kept .., define_rep hr fun sc hm => hm.set (y := { y with outId := o }), by simp [NState.meaning, NState.define]⟩

theorem PS.expr {E : Env} {a b : Meaning} (h : PS s (a, E) t) (k : PE t b u) : PS s (a ++ b, E) u :=
  ⟨h.1.trans (k.1.kept h.2.1.lt), k.1.rep h.2.1, by rw [k.2, h.2.2, List.append_assoc]⟩

theorem pair_ag {r1 r2 : Except Reason Meaning} {m : Except PyErr NState} {g : NState → Except PyErr NState}
    (h1 : Ag (PE s) r1 m) (h2 : ∀ t, Same s t → Ag (PE t) r2 (g t)) :
    Ag (PE s) (r1 >>= fun u => r2 >>= fun v => .ok (u ++ v)) (m >>= g) :=
  Ag.bind h1 fun _ t ht => Ag.map (h2 t ht.1) fun _ _ hv => ht.trans hv

theorem patFrames_length {E : Env} : ∀ {ps : List Pat} {r : Meaning × List Frame}, patFrames E ps = .ok r → r.2.length = ps.length
  | [], r, h => by cases h; rfl
  | p :: ps, r, h => by
    simp only [patFrames] at h
    cases h1 : patFrame E p with
    | error e => rw [h1] at h; cases h
    | ok r1 =>
      rw [h1] at h
      cases h2 : patFrames E ps with
      | error e => simp only [h2] at h; cases h
      | ok r2 =>
        simp only [h2] at h
        cases h
        simp [patFrames_length h2]

theorem arm_step (cfg : NCfg) (plan : Plan) {tok btok : Token} {pat : Pat} {body : List Stmt} {rest : List Arm} {k base : Nat} {f : Frame}
    {fs : List Frame} {E : Env} (hr : Rep s E) (ha : ArmsAt s base (f :: fs)) (hc : s.cur < base)
    (hbody : ∀ b, Rep b (f :: E) → Ag (PB b) (meanBlock cfg.reached (f :: E) body) (visitSs cfg body b))
    (hrest : ∀ t, Rep t E → ArmsAt t (base + 1) fs → t.cur < base + 1 →
      Ag (PA (base + 1) t) (meanArms cfg.reached plan.reached E rest (k + 1) fs) (visitArms cfg plan rest (k + 1) (base + 1) t)) :
    Ag (PA base s) (meanArms cfg.reached plan.reached E (.mk tok pat btok body :: rest) k (f :: fs))
      (visitArms cfg plan (.mk tok pat btok body :: rest) k base s) := by
  obtain ⟨sc, h1, h2, h3⟩ := ha 0 f rfl
  have first : Ag (fun u t => PA base s u t ∧ Rep t E ∧ ArmsAt t (base + 1) fs)
      (if plan.reached k then meanBlock cfg.reached (f :: E) body else .ok [])
      (if plan.reached k then visitSs cfg body (s.enter base) >>= fun s => .ok s.leave else .ok s) := by
    have tail : ArmsAt s (base + 1) fs := by
      intro j g hj
      obtain ⟨sc', g1, g2, g3⟩ := ha (j + 1) g hj
      exact ⟨sc', by rw [← g1]; congr 1; omega, g2, g3⟩
    cases plan.reached k with
    | false => exact Ag.ret ⟨⟨rfl, rfl, Nat.le_refl _, fun _ _ => rfl, by simp⟩, hr, tail⟩
    | true =>
      have hrb : Rep (s.enter base) (f :: E) := by
        refine ⟨⟨sc, h1, h3, fun p hp => ?_, ?_⟩, by simp [NState.enter, hr.depth]⟩
        · rw [h2] at hp; cases hp; exact hc
        · rw [h2]; exact hr.chain
      refine Ag.imp (P := fun u t => PA base s u t ∧ Rep t E ∧ ArmsAt t (base + 1) fs) ?_ fun _ _ h => h
      simp only [↓reduceIte]
      have hb := hbody _ hrb
      have post : ∀ u t, PB (s.enter base) u t → PA base s u t.leave ∧ Rep t.leave E ∧ ArmsAt t.leave (base + 1) fs := by
        intro u t ⟨hk, hm⟩
        have hcur : t.leave.cur = s.cur := by
          simp only [NState.leave, hk.cur]
          have := hk.parent
          simp only [NState.enter] at this ⊢
          rw [this]
          have h1' : s.scopes[base]? = some sc := h1
          rw [h1']
          simp [h2]
        have hold : ∀ j < s.scopes.length, j ≠ base → t.leave.scopes[j]? = s.scopes[j]? := fun j hj hne => hk.old j hj hne
        have hlt : base < s.scopes.length := get_lt h1
        refine ⟨⟨hcur, by simp [NState.leave, hk.depth, NState.enter], hk.len, fun j hj => hold j (by omega) (by omega), hm⟩, ⟨?_, ?_⟩, ?_⟩
        · rw [hcur]
          exact RepO.congr hr.chain fun j hj => hold j (by have := hr.lt; omega) (by omega)
        · simp [NState.leave, hk.depth, NState.enter, hr.depth]
        · rcases tail.bound with h0 | hbd
          · rw [h0]; intro j g hj; simp at hj
          · exact tail.congr hcur fun j g1 g2 => hold j (by omega) (by omega)
      cases hmb : meanBlock cfg.reached (f :: E) body with
      | ok u =>
        rw [hmb] at hb
        obtain ⟨t, ht, hp⟩ := hb
        rw [ht]
        exact ⟨_, rfl, post u t hp⟩
      | error e =>
        rw [hmb] at hb
        cases e with
        | outside => trivial
        | _ => obtain ⟨e', he⟩ := hb; rw [he]; exact ⟨e', rfl⟩
  refine Ag.bind first fun u t ht => ?_
  obtain ⟨⟨p1, p2, p3, p4, p5⟩, hrt, hat⟩ := ht
  refine Ag.map (f := fun v => u ++ v) (hrest t hrt hat (by rw [p1]; omega)) fun v w hw => ?_
  obtain ⟨q1, q2, q3, q4, q5⟩ := hw
  exact ⟨q1.trans p1, q2.trans p2, Nat.le_trans p3 q3, fun j hj => (q4 j (by omega)).trans (p4 j hj), by rw [q5, p5, List.append_assoc]⟩

theorem init_step (cfg : NCfg) (tok name : Token) (ty : TyExpr) {e : Expr} {E : Env} (hr : Rep s E)
    (hv : ∀ F b, Rep b F → Ag (PE b) (meanE cfg.reached F e) (visitE cfg e b)) :
    Ag (PS s) (meanS cfg.reached E (.varDecl tok name ty (some e))) (visitS cfg (.varDecl tok name ty (some e)) s) := by
  refine declare_ag hr name
    (g := match initTok e with
        | none => .error (.exc "AttributeError")
        | some r =>
          if r.lexeme = name.lexeme then
            fail name "Erro ao inicializar variável. Não pode referenciar uma variável durante a sua declaração"
          else visitE cfg e (s.defineSymbol cfg (sym name (decide (s.depth = 0)) true) s.depth s.cur))
    (fun y hy => ⟨_, by simp only [visitS, hy]; rfl⟩) (fun hn => by simp only [visitS, hn]; rfl) fun f fs he => ?_
  have hd := declared_ok cfg (sym name (decide (s.depth = 0)) true) (he ▸ hr)
  simp only
  cases initTok e with
  | none => trivial
  | some r =>
    simp only
    by_cases hl : r.lexeme = name.lexeme
    · simp only [hl, ↓reduceIte]
      exact ⟨_, rfl⟩
    · simp only [hl, ↓reduceIte]
      exact Ag.map (f := fun u => (u, ((name.chars, name) :: f) :: fs)) (hv _ _ hd.2.1) fun u t ht => hd.expr ht

theorem para_step (cfg : NCfg) (name : Token) {body : List Stmt} {E : Env} {a : Meaning} (hr : Rep s E) (h : PE s a t)
    (hb : ∀ F b, Rep b F → Ag (PB b) (meanBlock cfg.reached F body) (visitSs cfg body b)) :
    Ag (PS s) (Frame.declare [] name >>= fun f => meanBlock cfg.reached (f :: E) body >>= fun x => .ok (a ++ x, E))
      (visitSs cfg body ((t.alloc.defineSymbol cfg (sym name false true) (t.depth + 1) t.scopes.length).enter t.scopes.length) >>=
        fun s => .ok s.leave) := by
  rcases declare_cases [] name with hd | ⟨-, d, ha, -⟩ | ⟨hn, -, hd⟩
  · rw [hd]; trivial
  · cases ha
  · rw [hd]
    have hin := ((held_alloc t).symbol cfg (y := sym name false true) (d := t.depth + 1) (Nat.le_refl _)).enter (Nat.le_refl _)
    exact Ag.map (f := fun x => (a ++ x, E)) (block_ag hin (hb _ _ (hin.rep (h.1.rep hr)))) fun x w hw => (h.trans hw).ps hr

theorem alloc_ps {E : Env} (hr : Rep s E) : PS s ([], E) s.alloc := by
  have h : Same s s.alloc := ⟨rfl, rfl, by simp [NState.alloc], alloc_old s⟩
  exact ⟨h.kept hr.lt, h.rep hr, by simp [NState.meaning, NState.alloc]⟩

/-- A symbol defined in the current scope, later. -/
theorem PS.symbol (cfg : NCfg) (y : NSym) {f : Frame} {fs : Env} {a : Meaning} (h : PS s (a, f :: fs) t) :
    PS s (a, ((y.name, y.decl) :: f) :: fs) (t.defineSymbol cfg y t.depth t.cur) := by
  have hd := declared_ok cfg y h.2.1
  exact ⟨h.1.trans hd.1, hd.2.1, by rw [hd.2.2, h.2.2]; simp⟩

/-- A symbol defined again with the same declaration. -/
theorem PS.again (cfg : NCfg) (y : NSym) {f : Frame} {fs : Env} {a : Meaning} (h : PS s (a, f :: fs) t)
    (hg : assocGet f y.name = some y.decl) : PS s (a, f :: fs) (t.defineSymbol cfg y t.depth t.cur) := by
  obtain ⟨o, ho⟩ := defineSymbol_eq cfg t y t.depth t.cur
  rw [ho]
  exact ⟨h.1.trans (define_kept ..), define_rep h.2.1 fun sc hm => hm.reset (y := { y with outId := o }) (.inr hg), h.2.2⟩

theorem func_step (cfg : NCfg) (name : Token) (params : List Param) (ret : Option TyExpr) (body : Option (List Stmt)) (native : Bool)
    (ann : List Annotation) {E : Env} (hr : Rep s E)
    (hb : ∀ b, body = some b → ∀ F c, Rep c F → Ag (PB c) (meanBlock cfg.reached F b) (visitSs cfg b c)) :
    Ag (PS s) (meanS cfg.reached E (.func name params ret body native ann)) (visitS cfg (.func name params ret body native ann) s) := by
  have hdep := hr.depth
  rw [meanS, visitS]
  by_cases hd : s.depth > 0
  · rw [if_pos (by omega), if_pos hd]; exact ⟨_, rfl⟩
  · rw [if_neg (by omega), if_neg hd]
    refine declare_ag hr name (g := do
        let s := s.defineSymbol cfg (sym name true false) s.depth s.cur
        distinctParams (params.map (·.name)) []
        let k := s.scopes.length
        let s := defineParams cfg k (params.map (·.name)) s.alloc
        match body with
        | none => .ok s
        | some b =>
          if native || isBuiltin ann then .ok s
          else do
            let s ← visitSs cfg b (s.enter k)
            .ok s.leave)
      (fun y hy => ⟨_, by simp only [hy]; rfl⟩) (fun hn => by simp only [hn]; rfl) fun f fs he => ?_
    have hd := declared_ok cfg (sym name true false) (he ▸ hr)
    generalize s.defineSymbol cfg (sym name true false) s.depth s.cur = t at hd ⊢
    refine Ag.left (fun g hg => ?_) fun e hg hne => ?_
    · have hp := distinct_ok _ [] [] (fun n => rfl) g hg
      simp only [hp]
      have hh := defineParams_held cfg (Nat.le_refl t.scopes.length) _ [] g _ (held_alloc t) hg
      have plain : PS s ([], ((name.chars, name) :: f) :: fs) (defineParams cfg t.scopes.length (params.map (·.name)) t.alloc) := by
        have hs : PE t [] (defineParams cfg t.scopes.length (params.map (·.name)) t.alloc) :=
          ⟨⟨hh.cur, hh.depth, by rw [hh.size]; exact Nat.le_succ _, hh.old⟩, by rw [hh.meaning]; simp⟩
        exact hd.expr hs
      cases body with
      | none => exact Ag.ret plain
      | some b =>
        cases native || isBuiltin ann with
        | true => exact Ag.ret plain
        | false =>
          have hin := hh.enter (Nat.le_refl _)
          exact Ag.map (f := fun u => (u, ((name.chars, name) :: f) :: fs)) (block_ag hin (hb b rfl _ _ (hin.rep hd.2.1)))
            fun u w hw => hd.expr hw
    · obtain ⟨e', he'⟩ := distinct_error _ [] [] (fun n => rfl) e hg hne
      exact ⟨e', by simp only [he']; rfl⟩

theorem registo_step (cfg : NCfg) (name : Token) (gs : List Token) (ann : List Annotation) {fields : List Stmt} {E : Env} (hr : Rep s E)
    (hb : ∀ F c, Rep c F → Ag (PB c) (meanBlock cfg.reached F fields) (visitSs cfg fields c)) :
    Ag (PS s) (meanS cfg.reached E (.registo name gs fields ann)) (visitS cfg (.registo name gs fields ann) s) := by
  refine declare_ag hr name (g := do
      let t ← visitSs cfg fields ((s.alloc.defineSymbol cfg (sym name false false) s.depth s.cur).enter s.scopes.length)
      .ok (t.leave.defineSymbol cfg (sym name false false) t.leave.depth t.leave.cur))
    (fun y hy => ⟨_, by simp only [visitS, hy]; rfl⟩) (fun hn => by simp only [visitS, hn]) fun f fs he => ?_
  subst he
  have hd := declared_ok cfg (sym name false false) hr
  -- the scope of the fields is made before the name is defined; the other order gives the same
  have comm : s.alloc.defineSymbol cfg (sym name false false) s.depth s.cur =
      (s.defineSymbol cfg (sym name false false) s.depth s.cur).alloc := by
    obtain ⟨sc, h1, -⟩ := hr.chain
    have hc : s.alloc.count s.cur = s.count s.cur := by
      simp only [NState.count, alloc_old s _ hr.lt]
    simp only [NState.defineSymbol, hc]
    simp only [NState.define, NState.alloc, NState.mk.injEq, and_self, and_true]
    refine List.ext_getElem? fun i => ?_
    have hlt := hr.lt
    simp only [List.getElem?_modify, List.getElem?_append, List.length_modify]
    by_cases hi : i < s.scopes.length
    · simp [hi]
    · have : ¬s.cur = i := by omega
      simp [hi, this]
  have hlen : (s.defineSymbol cfg (sym name false false) s.depth s.cur).scopes.length = s.scopes.length := by
    obtain ⟨o, ho⟩ := defineSymbol_eq cfg s (sym name false false) s.depth s.cur
    rw [ho, define_len]
  rw [comm, ← hlen]
  generalize s.defineSymbol cfg (sym name false false) s.depth s.cur = t at hd ⊢
  have hin := inside_alloc t
  refine Ag.bind (block_step hin (hb _ _ (hin.rep hd.2.1))) fun u w hw => Ag.ret ?_
  exact (hd.expr hw).again cfg (sym name false false) (by simp [assocGet, sym])

mutual
theorem visitE_ag (cfg : NCfg) : ∀ (e : Expr) {E : Env} {s : NState}, Rep s E →
    Ag (PE s) (meanE cfg.reached E e) (visitE cfg e s)
  | .const _, _, s, _ => Ag.ret (PE.refl s)
  | .alvo _, _, s, _ => Ag.ret (PE.refl s)
  | .fmtStr _ parts, _, _, hr => visitEs_ag cfg parts hr
  | .var t, _, _, hr => use_ag hr t
  | .path _, _, _, hr => use_ag hr _
  | .converta _ e _, _, _, hr => visitE_ag cfg e hr
  | .bin _ a b, _, _, hr => pair_ag (visitE_ag cfg a hr) fun _ h => visitE_ag cfg b (h.rep hr)
  | .un _ e, _, _, hr => visitE_ag cfg e hr
  | .assign _ l r, _, _, hr => pair_ag (visitE_ag cfg r hr) fun _ h => visitE_ag cfg l (h.rep hr)
  | .list _ _ es, _, _, hr => visitEs_ag cfg es hr
  | .named _ e, _, _, hr => visitE_ag cfg e hr
  | .get e _, _, _, hr => visitE_ag cfg e hr
  | .index _ a b, _, _, hr => pair_ag (visitE_ag cfg a hr) fun _ h => visitE_ag cfg b (h.rep hr)
  | .indexSet _ a b, _, _, hr => pair_ag (visitE_ag cfg a hr) fun _ h => visitE_ag cfg b (h.rep hr)
  | .set a b, _, _, hr => pair_ag (visitE_ag cfg a hr) fun _ h => visitE_ag cfg b (h.rep hr)
  | .call c args, _, _, hr => pair_ag (visitCallee_ag cfg c hr) fun _ h => visitArgs_ag cfg (isVec c) args (h.rep hr)
  | .iguala t target arms, E, s, hr => by
    simp only [meanE, visitE]
    have hin := inside_alloc s
    have hr1 := hin.rep hr
    generalize hs1 : s.alloc.enter s.scopes.length = s1 at hin hr1 ⊢
    refine Ag.bind (visitE_ag cfg target hr1) fun u s2 h2 => ?_
    have hr2 := h2.1.rep hr1
    obtain ⟨r, c, hp, hm, hpost⟩ | hb := (show (∃ r c, patFrames ([] :: E) (arms.map armPat) = .ok r ∧
        checkArms cfg (arms.map armPat) s2 = .ok c ∧ (Same s2 c ∧ ArmsAt c s2.scopes.length r.2 ∧
        c.meaning = s2.meaning ++ r.1)) ∨ ∃ e, patFrames ([] :: E) (arms.map armPat) = .error e ∧
        (e ≠ .outside → ∃ e', checkArms cfg (arms.map armPat) s2 = .error e') from by
      have := checkArms_ag cfg (arms.map armPat) s2 hr2
      cases hp : patFrames ([] :: E) (arms.map armPat) with
      | ok r => rw [hp] at this; obtain ⟨c, h1, h2⟩ := this; exact .inl ⟨r, c, rfl, h1, h2⟩
      | error e =>
        refine .inr ⟨e, rfl, fun hne => ?_⟩
        rw [hp] at this
        cases e with
        | outside => exact (hne rfl).elim
        | _ => exact this)
    · obtain ⟨hsc, harms, hmean⟩ := hpost
      rw [hp, hm]
      have hrc := hsc.rep hr2
      have hbase : s1.scopes.length ≤ s2.scopes.length := h2.1.len
      have hcur : c.cur < s2.scopes.length := by rw [hsc.cur]; exact hr2.lt
      obtain ⟨k1, r1, m1⟩ := defineTarget_ok cfg target hrc
      obtain ⟨k2, r2, m2⟩ := defineHidden_ok t (cfg.plan t).hidden _ r1
      have k12 := k1.trans k2
      have a2 : ArmsAt (defineHidden t (cfg.plan t).hidden (defineTarget cfg target c)) s2.scopes.length r.2 := by
        rcases harms.bound with h0 | hbd
        · rw [h0]; intro j f hj; simp at hj
        · exact harms.congr k12.cur fun j h1 h2 => k12.old j (by omega) (by omega)
      have red := defineAgains_held (cfg.plan t) (arms.map armPat) 0 0 _ r hp (fun i f hi => by simpa using hi) a2
      generalize hd : defineAgains (cfg.plan t) (arms.map armPat) 0 (s2.scopes.length + 0)
        (defineHidden t (cfg.plan t).hidden (defineTarget cfg target c)) = d at red
      have hd' : defineAgains (cfg.plan t) (arms.map armPat) 0 s2.scopes.length
        (defineHidden t (cfg.plan t).hidden (defineTarget cfg target c)) = d := hd
      have hrd : Rep d ([] :: E) := by
        refine ⟨?_, by rw [red.depth]; exact r2.depth⟩
        rw [red.cur]
        refine RepO.congr r2.chain fun j hj => red.old j ?_
        rw [k12.cur] at hj; omega
      have harm := visitArms_ag cfg (cfg.plan t) arms 0 s2.scopes.length r.2 hrd red.arms
        (by rw [red.cur, k12.cur]; exact hcur) (by rw [patFrames_length hp, List.length_map])
      simp only [Except.bind, bind, hd']
      have hres : Ag (PE s) (meanArms cfg.reached (cfg.plan t).reached ([] :: E) arms 0 r.2 >>= fun w => .ok (u ++ r.1 ++ w))
          (visitArms cfg (cfg.plan t) arms 0 s2.scopes.length d >>= fun s => .ok s.leave) := by
        refine Ag.bind harm fun w x hx => Ag.ret ?_
        obtain ⟨x1, x2, x3, x4, x5⟩ := hx
        have kx : Kept s1 x := by
          have ks1c : Kept s1 c := (h2.1.trans hsc).kept hr1.lt
          refine ⟨by rw [x1, red.cur, k12.cur, ks1c.cur], by rw [x2, red.depth, k12.depth, ks1c.depth],
            by rw [red.len] at x3; exact Nat.le_trans (Nat.le_trans ks1c.len k12.len) x3, fun i hi hne => ?_, ?_⟩
          · rw [x4 i (by omega), red.old i (by omega), k12.old i (by have := ks1c.len; omega) (by rw [ks1c.cur]; exact hne),
              ks1c.old i hi hne]
          · have hc1 : s1.cur < s2.scopes.length := Nat.lt_of_lt_of_le hr1.lt hbase
            rw [x4 _ hc1, red.old _ hc1]
            have := k12.parent
            rw [ks1c.cur] at this
            rw [this, ks1c.parent]
        refine ⟨hin.leave kx, ?_⟩
        rw [leave_meaning, x5, red.meaning, m2, m1, hmean, h2.2, hin.meaning]
        simp
      exact hres
    · obtain ⟨e, hp, he⟩ := hb
      rw [hp]
      cases e with
      | outside => trivial
      | _ => obtain ⟨e', he'⟩ := he (by simp); rw [he']; exact ⟨e', rfl⟩
theorem visitCallee_ag (cfg : NCfg) : ∀ (e : Expr) {E : Env} {s : NState}, Rep s E →
    Ag (PE s) (meanCallee cfg.reached E e) (visitCallee cfg e s)
  | .var t, _, _, hr => use_ag hr t
  | .get e _, _, _, hr => visitE_ag cfg e hr
  | .path _, _, _, hr => use_ag hr _
  | .const _, _, _, _ | .fmtStr _ _, _, _, _ | .converta _ _ _, _, _, _ | .alvo _, _, _, _ | .bin _ _ _, _, _, _
  | .un _ _, _, _, _ | .assign _ _ _, _, _, _ | .iguala _ _ _, _, _, _ | .call _ _, _, _, _ | .list _ _ _, _, _, _
  | .named _ _, _, _, _ | .index _ _ _, _, _, _ | .indexSet _ _ _, _, _, _ | .set _ _, _, _, _ => ⟨_, rfl⟩
theorem visitArgs_ag (cfg : NCfg) (vec : Bool) : ∀ (es : List Expr) {E : Env} {s : NState}, Rep s E →
    Ag (PE s) (meanArgs cfg.reached E vec es) (visitArgs cfg vec es s)
  | [], _, s, _ => Ag.ret (PE.refl s)
  | e :: es, E, s, hr => by
    have h1 := visitE_ag cfg e hr
    have h2 := fun t (h : Same s t) => visitEs_ag cfg es (h.rep hr)
    cases vec with
    | true => exact pair_ag (Ag.ret (PE.refl s)) h2
    | false => exact pair_ag h1 h2
theorem visitEs_ag (cfg : NCfg) : ∀ (es : List Expr) {E : Env} {s : NState}, Rep s E →
    Ag (PE s) (meanEs cfg.reached E es) (visitEs cfg es s)
  | [], _, s, _ => Ag.ret (PE.refl s)
  | e :: es, _, _, hr => pair_ag (visitE_ag cfg e hr) fun _ h => visitEs_ag cfg es (h.rep hr)
theorem visitArms_ag (cfg : NCfg) (plan : Plan) : ∀ (arms : List Arm) (k base : Nat) (fs : List Frame) {E : Env} {s : NState},
    Rep s E → ArmsAt s base fs → s.cur < base → arms.length = fs.length →
      Ag (PA base s) (meanArms cfg.reached plan.reached E arms k fs) (visitArms cfg plan arms k base s)
  | [], _, _, _, _, s, _, _, _, _ => Ag.ret ⟨rfl, rfl, Nat.le_refl _, fun _ _ => rfl, by simp⟩
  | .mk _ _ _ _ :: _, _, _, [], _, _, _, _, _, hl => by simp at hl
  | .mk _ _ _ body :: rest, k, base, f :: fs, E, s, hr, ha, hc, hl => by
    have hbody := fun (b : NState) (h : Rep b (f :: E)) => visitBlock_ag cfg body h
    have hrest := fun (t : NState) (h1 : Rep t E) (h2 : ArmsAt t (base + 1) fs) (h3 : t.cur < base + 1) =>
      visitArms_ag cfg plan rest (k + 1) (base + 1) fs h1 h2 h3 (by simpa using hl)
    exact arm_step cfg plan hr ha hc hbody hrest
theorem visitS_ag (cfg : NCfg) : ∀ (x : Stmt) {E : Env} {s : NState}, Rep s E →
    Ag (PS s) (meanS cfg.reached E x) (visitS cfg x s)
  | .expr e, E, _, hr => Ag.map (f := fun u => (u, E)) (visitE_ag cfg e hr) fun _ _ h => h.ps hr
  | .varDecl tok name ty none, E, s, hr => by
    refine declare_ag hr name (f := fun E => .ok ([], E)) (g := .ok (s.defineSymbol cfg (sym name (decide (s.depth = 0)) true) s.depth s.cur))
      (fun y hy => ⟨_, by simp only [visitS, hy]; rfl⟩) (fun hn => by simp only [visitS, hn]) fun f fs he => ?_
    exact Ag.ret (declared_ok cfg (sym name (decide (s.depth = 0)) true) (he ▸ hr))
  | .varDecl tok name ty (some e), E, s, hr => by
    have hv := fun (F : Env) (b : NState) (h : Rep b F) => visitE_ag cfg e h
    exact init_step cfg tok name ty hr hv
  | .loopCtl _, _, _, hr => Ag.ret ((PE.refl _).ps hr)
  | .retorna _ none, _, _, hr => Ag.ret ((PE.refl _).ps hr)
  | .retorna _ (some e), E, _, hr => Ag.map (f := fun u => (u, E)) (visitE_ag cfg e hr) fun _ _ h => h.ps hr
  | .produz _ e, E, _, hr => Ag.map (f := fun u => (u, E)) (visitE_ag cfg e hr) fun _ _ h => h.ps hr
  | .mostra _ e, E, _, hr => Ag.map (f := fun u => (u, E)) (visitE_ag cfg e hr) fun _ _ h => h.ps hr
  | .se _ c a elsifs none, E, s, hr => by
    simp only [meanS, visitS]
    refine Ag.bind (visitE_ag cfg c hr) fun u t ht => ?_
    refine Ag.bind (block_step (inside_alloc t) (visitBlock_ag cfg a ((inside_alloc t).rep (ht.1.rep hr)))) fun v w hw => ?_
    have htw := ht.trans hw
    refine Ag.bind (visitElses_ag cfg elsifs (htw.1.rep hr)) fun x y hy => ?_
    exact Ag.ret (by simpa using (htw.trans hy).ps hr)
  | .se _ c a elsifs (some b), E, s, hr => by
    simp only [meanS, visitS]
    refine Ag.bind (visitE_ag cfg c hr) fun u t ht => ?_
    refine Ag.bind (block_step (inside_alloc t) (visitBlock_ag cfg a ((inside_alloc t).rep (ht.1.rep hr)))) fun v w hw => ?_
    have htw := ht.trans hw
    refine Ag.bind (visitElses_ag cfg elsifs (htw.1.rep hr)) fun x y hy => ?_
    have hty := htw.trans hy
    exact Ag.map (f := fun z => (u ++ v ++ x ++ z, E))
      (block_ag (inside_alloc y) (visitBlock_ag cfg b ((inside_alloc y).rep (hty.1.rep hr)))) fun z w' hz => (hty.trans hz).ps hr
  | .enquanto _ c b, E, s, hr => by
    simp only [meanS, visitS]
    refine Ag.bind (visitE_ag cfg c hr) fun u t ht => ?_
    have hr' := ht.1.rep hr
    refine Ag.map (f := fun v => (u ++ v, E)) (block_ag (inside_alloc t) (visitBlock_ag cfg b ((inside_alloc t).rep hr')))
      fun v w hw => (ht.trans hw).ps hr
  | .escolha _ c cases none, E, s, hr => by
    simp only [meanS, visitS]
    refine Ag.bind (visitE_ag cfg c hr) fun u t ht => ?_
    refine Ag.bind (visitElses_ag cfg cases (ht.1.rep hr)) fun x y hy => ?_
    exact Ag.ret (by simpa using (ht.trans hy).ps hr)
  | .escolha _ c cases (some b), E, s, hr => by
    simp only [meanS, visitS]
    refine Ag.bind (visitE_ag cfg c hr) fun u t ht => ?_
    refine Ag.bind (visitElses_ag cfg cases (ht.1.rep hr)) fun x y hy => ?_
    have hty := ht.trans hy
    exact Ag.map (f := fun z => (u ++ x ++ z, E))
      (block_ag (inside_alloc y) (visitBlock_ag cfg b ((inside_alloc y).rep (hty.1.rep hr)))) fun z w' hz => (hty.trans hz).ps hr
  | .para _ name a b none body, E, s, hr => by
    have hb := fun (F : Env) (b : NState) (h : Rep b F) => visitBlock_ag cfg body h
    simp only [meanS, visitS]
    refine Ag.bind (visitE_ag cfg a hr) fun u t ht => ?_
    refine Ag.bind (visitE_ag cfg b (ht.1.rep hr)) fun v w hw => ?_
    exact para_step cfg name hr (a := u ++ v ++ []) (by simpa using ht.trans hw) hb
  | .para _ name a b (some e) body, E, s, hr => by
    have hb := fun (F : Env) (b : NState) (h : Rep b F) => visitBlock_ag cfg body h
    simp only [meanS, visitS]
    refine Ag.bind (visitE_ag cfg a hr) fun u t ht => ?_
    refine Ag.bind (visitE_ag cfg b (ht.1.rep hr)) fun v w hw => ?_
    refine Ag.bind (visitE_ag cfg e ((ht.trans hw).1.rep hr)) fun x y hy => ?_
    exact para_step cfg name hr ((ht.trans hw).trans hy) hb
  | .func name params ret none native ann, E, s, hr =>
    func_step cfg name params ret none native ann hr fun b hb => by cases hb
  | .func name params ret (some b) native ann, E, s, hr =>
    func_step cfg name params ret (some b) native ann hr fun b' hb F c h => by
      cases hb; exact visitBlock_ag cfg b h
  | .method _ _ _ _ _ _ _, _, _, _ => trivial
  | .registo name gs fields ann, E, s, hr =>
    registo_step cfg name gs ann hr fun F c h => visitBlock_ag cfg fields h
  | .uniao name gs vs ann, E, s, hr => by
    refine declare_ag hr name (f := fun E => .ok ([], E)) (g := .ok (s.alloc.defineSymbol cfg (sym name false false) s.depth s.cur))
      (fun y hy => ⟨_, by simp only [visitS, hy]; rfl⟩) (fun hn => by simp only [visitS, hn]) fun f fs he => ?_
    exact Ag.ret ((alloc_ps (he ▸ hr)).symbol cfg (sym name false false))
  | .usa _ _ _, _, _, _ => trivial
theorem visitBlock_ag (cfg : NCfg) : ∀ (xs : List Stmt) {E : Env} {s : NState}, Rep s E →
    Ag (PB s) (meanBlock cfg.reached E xs) (visitSs cfg xs s)
  | [], _, s, _ => Ag.ret ⟨Kept.refl s, by simp⟩
  | x :: xs, E, s, hr => by
    simp only [meanBlock, visitSs]
    refine Ag.bind (visitS_ag cfg x hr) fun r t ht => ?_
    obtain ⟨h1, h2, h3⟩ := ht
    exact Ag.map (f := fun v => r.1 ++ v) (visitBlock_ag cfg xs h2) fun v w hw =>
      ⟨h1.trans hw.1, by rw [hw.2, h3, List.append_assoc]⟩
theorem visitElses_ag (cfg : NCfg) : ∀ (xs : List ElseIf) {E : Env} {s : NState}, Rep s E →
    Ag (PE s) (meanElses cfg.reached E xs) (visitElses cfg xs s)
  | [], _, s, _ => Ag.ret (PE.refl s)
  | .mk _ c b :: rest, E, s, hr => by
    simp only [meanElses, visitElses]
    refine Ag.bind (visitE_ag cfg c hr) fun u t ht => ?_
    have hr' := ht.1.rep hr
    refine Ag.bind (block_step (inside_alloc t) (visitBlock_ag cfg b ((inside_alloc t).rep hr'))) fun v w hw => ?_
    have htw := ht.trans hw
    exact Ag.map (f := fun x => u ++ v ++ x) (visitElses_ag cfg rest (htw.1.rep hr)) fun x y hy => htw.trans hy
end

end Amanda.Names

import Verif.FragState
import Verif.Props.Arith

/-!
# Expressions of `Verif.Frag` that the checker accepts keep to the typing rules
-/

namespace Amanda.Check

open Source

/-- Texts of real numbers can be read. -/
class ReadsNumerals (F : Type) [FloatOps F] : Prop where
  parse_numeral : ∀ s : String, numeral s.toList = true → (FloatOps.parse s : Option F).isSome = true

/-! ## Literals -/

theorem numeral_head {cs : List Char} (h : numeral cs = true) : ∃ c rest, cs = c :: rest ∧ c.isDigit = true := by
  cases cs with
  | nil => simp [numeral] at h
  | cons c rest =>
      refine ⟨c, rest, rfl, ?_⟩
      by_contra hc
      unfold numeral at h
      rw [List.takeWhile_cons_of_neg (by simpa using hc)] at h
      simp at h

theorem dropWhile_all {p : Char → Bool} : ∀ {cs : List Char}, (∀ c ∈ cs, p c = true) → cs.dropWhile p = []
  | [], _ => rfl
  | c :: cs, h => by
      rw [List.dropWhile_cons_of_pos (h c (by simp))]
      exact dropWhile_all fun d hd => h d (by simp [hd])

theorem numeral_not_digits {cs : List Char} (h : numeral cs = true) : ¬ ∀ c ∈ cs, c.isDigit = true := by
  intro hd
  simp [numeral, dropWhile_all hd] at h

theorem digits_of_parse {cs : List Char} {n : Nat} (h : parseDigits cs = some n) : ∀ c ∈ cs, c.isDigit = true := by
  cases cs with
  | nil => simp [parseDigits] at h
  | cons c cs =>
      unfold parseDigits at h
      rw [foldlM_digits] at h
      exact h.1

theorem parseI64_numeral {s : String} (h : numeral s.toList = true) : parseI64 s = none := by
  obtain ⟨c, rest, hc, hd⟩ := numeral_head h
  have hn := numeral_not_digits h
  unfold parseI64
  rw [hc] at hn ⊢
  have h1 : c ≠ '-' := by rintro rfl; revert hd; decide
  have h2 : c ≠ '+' := by rintro rfl; revert hd; decide
  have : parseDigits (c :: rest) = none := by
    cases hp : parseDigits (c :: rest) with
    | none => rfl
    | some n => exact absurd (digits_of_parse hp) hn
  split
  · rename_i heq; simp at heq; exact absurd heq.1 h1
  · rename_i heq; simp at heq; exact absurd heq.1 h2
  · rw [this]; rfl

theorem textOk_of_head {s : String} (h : ∃ c rest, s.toList = c :: rest ∧ (c = '-' ∨ c = '+' ∨ c.isDigit = true)) :
    textOk s = true := by
  obtain ⟨c, rest, hs, hc⟩ := h
  have hsize : c.utf8Size = 1 := by
    rcases hc with rfl | rfl | hd
    · decide
    · decide
    · have : c.val ≤ 57 := by
        simp only [Char.isDigit, ge_iff_le, Bool.and_eq_true, decide_eq_true_eq] at hd
        exact hd.2
      have h : c.val ≤ UInt32.ofNatLT 127 (by decide) :=
        UInt32.le_iff_toNat_le.mpr (Nat.le_trans (UInt32.le_iff_toNat_le.mp this) (by decide))
      unfold Char.utf8Size
      exact if_pos h
  have hq : ¬ (c = '"' ∨ c = '\'') := by
    rintro (rfl | rfl) <;> revert hc <;> decide
  unfold textOk
  rw [hs]
  unfold unquote
  simp [hsize, hq]

theorem textOk_numeral {s : String} (h : numeral s.toList = true) : textOk s = true := by
  obtain ⟨c, rest, hc, hd⟩ := numeral_head h
  exact textOk_of_head ⟨c, rest, hc, .inr (.inr hd)⟩

theorem parseI64_head {s : String} {n : Int} (h : parseI64 s = some n) :
    ∃ c rest, s.toList = c :: rest ∧ (c = '-' ∨ c = '+' ∨ c.isDigit = true) := by
  unfold parseI64 at h
  split at h
  · rename_i heq; exact ⟨_, _, heq, .inl rfl⟩
  · rename_i heq; exact ⟨_, _, heq, .inr (.inl rfl)⟩
  · cases hs : s.toList with
    | nil => rw [hs] at h; simp [parseDigits] at h
    | cons c rest =>
        refine ⟨c, rest, rfl, .inr (.inr ?_)⟩
        rw [hs] at h
        cases hp : parseDigits (c :: rest) with
        | none => rw [hp] at h; simp at h
        | some m => exact digits_of_parse hp c (by simp)

section
variable {F : Type} [FloatOps F]

theorem literal_int {s : String} {n : Int} (h : parseI64 s = some n) : literal (F := F) s = some (.int n) := by
  unfold literal constOfStr
  have h1 : s ≠ "verdadeiro" := by
    rintro rfl
    rw [show parseI64 "verdadeiro" = none by decide +kernel] at h
    cases h
  have h2 : s ≠ "falso" := by
    rintro rfl
    rw [show parseI64 "falso" = none by decide +kernel] at h
    cases h
  have h3 : s ≠ "nulo" := by
    rintro rfl
    rw [show parseI64 "nulo" = none by decide +kernel] at h
    cases h
  simp [h1, h2, h3, h]

theorem literal_real [ReadsNumerals F] {s : String} (h : numeral s.toList = true) :
    ∃ x : F, literal s = some (.f64 x) := by
  obtain ⟨x, hx⟩ := Option.isSome_iff_exists.mp (ReadsNumerals.parse_numeral (F := F) s h)
  refine ⟨x, ?_⟩
  have hp := parseI64_numeral h
  unfold literal constOfStr
  have h1 : s ≠ "verdadeiro" := by rintro rfl; revert h; decide +kernel
  have h2 : s ≠ "falso" := by rintro rfl; revert h; decide +kernel
  have h3 : s ≠ "nulo" := by rintro rfl; revert h; decide +kernel
  simp [h1, h2, h3, hp, hx]

theorem literal_text [LawfulFloatOps F] {s : String} (h : quotedText s.toList = true) :
    (∃ x : String, literal (F := F) s = some (.str x)) ∧ textOk s = true := by
  unfold quotedText at h
  cases hs : s.toList with
  | nil => rw [hs] at h; cases h
  | cons c rest =>
      rw [hs] at h
      simp only [Bool.and_eq_true, Bool.or_eq_true, beq_iff_eq] at h
      obtain ⟨hc, hl⟩ := h
      have hh : s.toList.head? = some '\'' ∨ s.toList.head? = some '"' := by
        rw [hs]; rcases hc with rfl | rfl <;> simp
      have hf := LawfulFloatOps.parse_quoted (F := F) s hh
      have hsize : c.utf8Size = 1 := by rcases hc with rfl | rfl <;> decide
      have hi : parseI64 s = none := by
        have : parseDigits (c :: rest) = none := by
          cases hp : parseDigits (c :: rest) with
          | none => rfl
          | some n =>
              have := digits_of_parse hp c (by simp)
              rcases hc with rfl | rfl <;> exact absurd this (by decide)
        unfold parseI64
        rw [hs]
        split
        · rename_i heq; simp at heq; rcases hc with rfl | rfl <;> simp at heq
        · rename_i heq; simp at heq; rcases hc with rfl | rfl <;> simp at heq
        · rw [this]; rfl
      have hu : unquote (c :: rest) = some rest.dropLast := by
        unfold unquote
        simp only
        rw [if_neg (by simp [hsize]), if_pos (by tauto), hl]
        simp [hsize]
      have hk : ∀ k : String, (k.toList.head? ≠ some '\'' ∧ k.toList.head? ≠ some '"') → s ≠ k := by
        rintro k ⟨h1, h2⟩ rfl
        tauto
      refine ⟨⟨String.ofList rest.dropLast, ?_⟩, by unfold textOk; rw [hs, hu]; rfl⟩
      unfold literal constOfStr
      rw [if_neg (hk _ (by decide +kernel)), if_neg (hk _ (by decide +kernel)), if_neg (hk _ (by decide +kernel)), hi, hf, hs]
      simp [hu]

end

/-! ## The state -/

/-- What is fixed: the program, the module, where its scopes and symbols begin, the state in the end, and the module of
the library. -/
structure World where
  K : Frag
  cfg : CCfg
  mod : String
  g : Nat
  b : Nat
  sb : Nat
  sf : CState
  home : String

/-- The types whose names are looked up. -/
def words : List (String × PTag) :=
  [("int", .int), ("real", .real), ("bool", .bool), ("texto", .texto), ("vazio", .vazio)]

/-- Names are used for one thing only. -/
structure World.Names (X : World) : Prop where
  apart : ∀ n, n ∈ X.K.vars → n ∉ X.K.fns
  vars : ∀ n, n ∈ X.K.vars → n ∉ reserved
  fns : ∀ n, n ∈ X.K.fns → n ∉ reserved
  libs : ∀ n, n ∈ X.K.libs → (libSig n).isSome = true ∧ (n = "leia_real" → X.K.reals = true)
  away : ∀ n, n ∈ X.K.vars → n ∉ X.K.libs

/-- The symbols of the program: variables and functions. -/
def Mine (X : World) (s : CState) (x : CSym) : Prop :=
  x.modPath = X.mod ∧ x.builtin = false ∧
  ((∃ t, x.body = .var t ∧ dataTy X.K.reals t = true ∧ x.name ∈ X.K.vars) ∨
   (∃ t ps, x.body = .func t ps ∧ exprTy X.K.reals t = true ∧ x.name ∈ X.K.fns ∧ x.isGlobal = true ∧
      ∀ p ∈ ps, X.b ≤ p.2 ∧ ∃ y t, s.syms[p.2]? = some y ∧ y.body = .var t))

/-- A symbol of the library. -/
def Provided (X : World) (s : CState) (n : String) (i : Nat) : Prop :=
  i < X.b ∧ ∃ x ps tags t, s.syms[i]? = some x ∧ x.name = n ∧ x.isGlobal = true ∧ x.builtin = true ∧ x.modPath = X.home ∧
    libSig n = some (tags, t) ∧ x.body = .func (.prim t) ps ∧
    List.Forall₂ (fun p tag => p.2 < X.b ∧ ∃ y, s.syms[p.2]? = some y ∧ y.body = .var (.prim tag)) ps tags

/-- The symbols defined in a scope. -/
def ScopeTab.ids (tab : ScopeTab) : List SymId := tab.symbols.map (·.2)

/-- How many scopes a scope is in. -/
inductive Deep (scopes : List ScopeTab) : Nat → Nat → Prop
  | root {k : Nat} {tab : ScopeTab} (h : scopes[k]? = some tab) (hp : tab.parent = none) : Deep scopes k 0
  | up {k p d : Nat} {tab : ScopeTab} (h : scopes[k]? = some tab) (hp : tab.parent = some p) (hd : Deep scopes p d) : Deep scopes k (d + 1)

theorem Deep.mono {scopes scopes' : List ScopeTab}
    (hs : ∀ (k : Nat) tab, scopes[k]? = some tab → ∃ tab', scopes'[k]? = some tab' ∧ tab'.parent = tab.parent) {k d : Nat}
    (h : Deep scopes k d) : Deep scopes' k d := by
  induction h with
  | root h hp =>
      obtain ⟨tab', h', e⟩ := hs _ _ h
      exact .root h' (e.trans hp)
  | up h hp _ ih =>
      obtain ⟨tab', h', e⟩ := hs _ _ h
      exact .up h' (e.trans hp) ih

theorem Deep.unique {scopes : List ScopeTab} {k d : Nat} (h : Deep scopes k d) : ∀ {d' : Nat}, Deep scopes k d' → d = d' := by
  induction h with
  | root h hp =>
      intro d' h'
      cases h' with
      | root => rfl
      | up h2 hp2 _ => rw [h] at h2; cases h2; rw [hp] at hp2; cases hp2
  | up h hp _ ih =>
      intro d' h'
      cases h' with
      | root h2 hp2 => rw [h] at h2; cases h2; rw [hp] at hp2; cases hp2
      | up h2 hp2 hd2 =>
          rw [h] at h2; cases h2
          rw [hp] at hp2; cases hp2
          rw [ih hd2]

/-- The internal name of a variable in a scope inside `d` others that is defined after `m` others. -/
def innerName (d m : Nat) : String := "_r" ++ toString d ++ toString m ++ "_"

/-- How many names a scope defines. -/
def tabLen (scopes : List ScopeTab) (k : Nat) : Nat := ((scopes[k]?).map fun tab => tab.symbols.length).getD 0

/-- The tables between steps. -/
structure Inv (X : World) (s : CState) : Prop where
  reg : s.ana.ctxReg = false
  yield : s.ana.yield = none
  glob : s.ana.globalScope = X.g
  ctx : s.ana.ctxScope = X.g ∨ X.sb ≤ s.ana.ctxScope
  ctxLt : s.ana.ctxScope < s.scopes.length
  top : s.ana.depth = 0 ↔ s.ana.ctxScope = X.g
  base : X.b ≤ s.syms.length
  gsb : X.g < X.sb
  sbase : X.sb ≤ s.scopes.length
  wf : ∀ (k : Nat) (tab : ScopeTab) (p : Nat), s.scopes[k]? = some tab → tab.parent = some p → p < k
  root : ∀ tab, s.scopes[X.g]? = some tab → tab.parent = none
  inner : ∀ (k : Nat) tab, s.scopes[k]? = some tab → X.sb ≤ k → ∃ p : Nat, tab.parent = some p ∧ (p = X.g ∨ X.sb ≤ p)
  innerNames : ∀ (k : Nat) n (i : Nat), X.sb ≤ k → lookIn s.scopes k n = some i → n ∈ X.K.vars ∧ X.b ≤ i
  old : ∀ n (i : Nat), lookIn s.scopes X.g n = some i → i < X.b →
    n ∉ X.K.fns ∧ ∃ x, s.syms[i]? = some x ∧ x.canEvaluate = false
  new : ∀ (k : Nat) n (i : Nat), (k = X.g ∨ X.sb ≤ k) → lookIn s.scopes k n = some i → X.b ≤ i →
    ∃ x, s.syms[i]? = some x ∧ x.name = n
  prims : ∀ w t, (w, t) ∈ words → ∃ (i : Nat) (x : CSym), lookIn s.scopes X.g w = some i ∧ s.syms[i]? = some x ∧ x.body = .prim t
  syms : ∀ (i : Nat) x, X.b ≤ i → s.syms[i]? = some x → Mine X s x
  global : ∀ (i : Nat) x, X.b ≤ i → s.syms[i]? = some x → x.isGlobal = true → lookIn s.scopes X.g x.name = some i
  bound : ∀ (k : Nat) tab (i : Nat), s.scopes[k]? = some tab → i ∈ ScopeTab.ids tab → i < s.syms.length
  once : ∀ (k k' : Nat) tab tab' (i : Nat), X.b ≤ i → s.scopes[k]? = some tab → i ∈ ScopeTab.ids tab →
    s.scopes[k']? = some tab' → i ∈ ScopeTab.ids tab' → k = k'
  libs : ∀ n ∈ X.K.libs, ∃ i, lookIn s.scopes X.g n = some i ∧ Provided X s n i
  deep : Deep s.scopes s.ana.ctxScope s.ana.depth
  numbered : ∀ (k m : Nat) tab n (i : Nat) x, k ≠ X.g → X.b ≤ i → s.scopes[k]? = some tab → tab.symbols[m]? = some (n, i) → s.syms[i]? = some x →
    ∃ d, X.sb ≤ k ∧ Deep s.scopes k d ∧ x.outId = innerName d m
  away : ∀ (i : Nat) x, i < X.b → s.syms[i]? = some x → x.modPath = X.home
  entry : ∀ (k : Nat) tab n (i : Nat), X.b ≤ i → s.scopes[k]? = some tab → (n, i) ∈ tab.symbols → look tab n = some i

theorem Inv.line {X : World} {s : CState} (h : Inv X s) (l : Nat) : Inv X (s.atLine l) :=
  ⟨h.reg, h.yield, h.glob, h.ctx, h.ctxLt, h.top, h.base, h.gsb, h.sbase, h.wf, h.root, h.inner, h.innerNames, h.old, h.new,
    h.prims, h.syms, h.global, h.bound, h.once, h.libs, h.deep, h.numbered, h.away, h.entry⟩

/-- Where a name is found. -/
theorem Inv.found {X : World} {s : CState} (h : Inv X s) {n : String} {k i : Nat} (hk : k = X.g ∨ X.sb ≤ k)
    (hs : Seen s.scopes n k i) : ∃ k', (k' = X.g ∨ X.sb ≤ k') ∧ lookIn s.scopes k' n = some i := by
  induction hs with
  | @here k tab i ht hl =>
      refine ⟨k, hk, ?_⟩
      unfold lookIn
      rw [ht]
      exact hl
  | @up k tab p i ht hl hp _ ih =>
      refine ih ?_
      rcases hk with rfl | hk
      · rw [h.root tab ht] at hp; cases hp
      · obtain ⟨q, hq, hq'⟩ := h.inner k tab ht hk
        rw [hq] at hp
        cases hp
        exact hq'

/-- Names that are no variables are those of the module. -/
theorem Inv.foundGlobal {X : World} {s : CState} (h : Inv X s) {n : String} {k i : Nat} (hk : k = X.g ∨ X.sb ≤ k)
    (hn : n ∉ X.K.vars) (hs : Seen s.scopes n k i) : lookIn s.scopes X.g n = some i := by
  obtain ⟨k', hk', hl⟩ := h.found hk hs
  rcases hk' with rfl | hk'
  · exact hl
  · exact absurd (h.innerNames k' n i hk' hl).1 hn

/-- ... and are seen from everywhere. -/
theorem Inv.seesGlobal {X : World} {s : CState} (h : Inv X s) {n : String} {i : Nat} (hn : n ∉ X.K.vars)
    (hl : lookIn s.scopes X.g n = some i) :
    ∀ (m k : Nat), k ≤ m → (k = X.g ∨ X.sb ≤ k) → k < s.scopes.length → Seen s.scopes n k i := by
  intro m
  induction m with
  | zero =>
      intro k hm hk hlt
      have : k = X.g := by have := h.gsb; omega
      subst this
      unfold lookIn at hl
      cases ht : s.scopes[X.g]? with
      | none => rw [ht] at hl; cases hl
      | some tab => rw [ht] at hl; exact .here ht hl
  | succ m ih =>
      intro k hm hk hlt
      rcases hk with rfl | hk
      · unfold lookIn at hl
        cases ht : s.scopes[X.g]? with
        | none => rw [ht] at hl; cases hl
        | some tab => rw [ht] at hl; exact .here ht hl
      · have ht : s.scopes[k]? = some s.scopes[k] := List.getElem?_eq_getElem hlt
        obtain ⟨p, hp, hp'⟩ := h.inner k _ ht hk
        have hpk := h.wf k _ p ht hp
        refine .up ht ?_ hp (ih p (by omega) hp' (by omega))
        cases hc : look s.scopes[k] n with
        | none => rfl
        | some j =>
            refine absurd (h.innerNames k n j hk ?_).1 hn
            unfold lookIn
            rw [ht]
            exact hc

/-! ## Types from the state in the end -/

/-- The type of a variable. -/
def World.vty (X : World) (i : SymId) : Option Ty :=
  if X.b ≤ i then
    match (X.sf.syms[i]?).map CSym.body with
    | some (.var t) => some (toTy [] t)
    | _ => none
  else none

/-- A global variable. -/
def isGlobalVar (s : CState) (j : Nat) : Bool :=
  match s.syms[j]? with
  | some x => x.isGlobal && (match x.body with
    | .var _ => true
    | _ => false)
  | none => false

/-- The global variables declared before a function. -/
def World.needs (X : World) (i : Nat) : List SymId := (List.range i).filter fun j => decide (X.b ≤ j) && isGlobalVar X.sf j

/-- The type of a function. -/
def World.fn (X : World) (i : SymId) : Option FnTy :=
  if X.b ≤ i then
    match (X.sf.syms[i]?).map CSym.body with
    | some (.func t ps) => some ⟨ps.map fun p => (X.vty p.2).getD .unknown, toTy [] t, X.needs i⟩
    | _ => none
  else none

/-- The functions of the library. -/
def World.lib (X : World) (i : SymId) : Option String :=
  match X.sf.syms[i]? with
  | some x => if X.K.libs.contains x.name ∧ lookIn X.sf.scopes X.g x.name = some i then some x.name else none
  | none => none

/-- The types of everything. -/
def World.table (X : World) : Table := ⟨X.vty, X.fn, X.lib⟩

/-- What is read of the state in the end. -/
structure Agree (X : World) (s : CState) : Prop where
  syms : ∀ (i : Nat) x, s.syms[i]? = some x → ∃ y, X.sf.syms[i]? = some y ∧ y.body = x.body ∧ y.name = x.name
  glob : ∀ n (i : Nat), lookIn s.scopes X.g n = some i → lookIn X.sf.scopes X.g n = some i

/-- The language of the program in the end. -/
def World.Lang (X : World) (L : Lang) : Prop := L.env = ⟨X.sf.syms.map CSym.toSym, X.sf.scopes⟩

/-- Functions are found from a scope. -/
def Reach (X : World) (L : Lang) (sc : Option ScopeId) : Prop :=
  ∀ n, n ∈ X.K.fns ∨ n ∈ X.K.libs → ∀ i, lookIn X.sf.scopes X.g n = some i → L.env.resolve sc n = some i

theorem reach_of {X : World} {L : Lang} (hN : X.Names) (hL : X.Lang L) (hf : Inv X X.sf) {k : Nat}
    (hk : k = X.g ∨ X.sb ≤ k) (hlt : k < X.sf.scopes.length) : Reach X L (some k) := by
  intro n hn i hl
  have hv : n ∉ X.K.vars := fun h => hn.elim (hN.apart n h) (hN.away n h)
  rw [hL]
  exact resolve_of_seen hf.wf (hf.seesGlobal hv hl k k (Nat.le_refl _) hk hlt) (Nat.lt_succ_of_lt hlt)

/-- Where an expression is checked: the variables that may be read have a value. -/
structure Sit (X : World) (s : CState) (Γ : List SymId) (avoid : Option String) : Prop where
  inv : Inv X s
  agree : Agree X s
  vis : ∀ n i x t, Seen s.scopes n s.ana.ctxScope i → some n ≠ avoid → s.syms[i]? = some x → x.body = .var t → X.b ≤ i → i ∈ Γ
  fns : ∀ (i : Nat) x t ps, X.b ≤ i → s.syms[i]? = some x → x.body = .func t ps → X.needs i ⊆ Γ

theorem Sit.line {X : World} {s : CState} {Γ : List SymId} {av : Option String} (h : Sit X s Γ av) (l : Nat) :
    Sit X (s.atLine l) Γ av := ⟨h.inv.line l, ⟨h.agree.syms, h.agree.glob⟩, h.vis, h.fns⟩

section
variable (F : Type) [FloatOps F] (X : World) (L : Lang)

/-- The expression becomes one of type `t`. -/
def TypedAs (u : Use) (Γ : List SymId) (a : AExpr) (t : Ty) : Prop :=
  ∀ Γ' sc, Γ ⊆ Γ' → Reach X L sc →
    ∃ e, toE X.mod X.g true a X.sf = .ok ((e, a.ty), X.sf) ∧ TE F L X.table u Γ' sc e t

/-- Nodes on which `prom_type` has an effect. -/
def ANode.keeps : ANode → Bool
  | .const _ | .var .. | .bin .. | .un .. | .call .. => true
  | _ => false

/-- The same for expressions. -/
def AExpr.keeps : AExpr → Bool
  | .mk _ _ n => n.keeps

/-- The expression has its type, and after a conversion that is carried out the type converted to. -/
def HasType (u : Use) (Γ : List SymId) (a : AExpr) : Prop :=
  ∀ p t, (if a.keeps = true then Prom p (toTy [] a.ty) t else t = toTy [] a.ty) → TypedAs F X L u Γ (a.setProm p) t

/-- What is shown of a visited expression. -/
structure EHas (u : Use) (Γ : List SymId) (e : Expr) (a : AExpr) : Prop where
  ty : exprTy X.K.reals a.ty = true
  fresh : a.setProm .unknown = a
  has : HasType F X L u Γ a
  keep : converts e = true → a.keeps = true
  int : notInt e = true → a.ty ≠ .prim .int
  chg : changes e = true → ∀ r z, toE X.mod X.g true a X.sf = .ok (r, z) → isChange r.1 = true

end


/-! ## Steps that read the state -/

theorem view_ok {t : CTy} {u : Ty} {s s' : CState} : view t s = .ok (u, s') ↔ u = toTy s.syms t ∧ s' = s := by
  unfold view
  simp only [C.bind_ok, C.get_ok, C.pure_ok]
  constructor
  · rintro ⟨a, s1, ⟨rfl, rfl⟩, rfl, rfl⟩; exact ⟨rfl, rfl⟩
  · rintro ⟨rfl, rfl⟩; exact ⟨_, _, ⟨rfl, rfl⟩, rfl, rfl⟩

theorem sameTy_ok {t u : CTy} {r : Bool} {s s' : CState} :
    sameTy t u s = .ok (r, s') ↔ r = (toTy s.syms t).eqv (toTy s.syms u) ∧ s' = s := by
  unfold sameTy
  simp only [C.bind_ok, view_ok, C.pure_ok]
  constructor
  · rintro ⟨a, s1, ⟨rfl, rfl⟩, a', s2, ⟨rfl, rfl⟩, rfl, rfl⟩; exact ⟨rfl, rfl⟩
  · rintro ⟨rfl, rfl⟩; exact ⟨_, _, ⟨rfl, rfl⟩, _, _, ⟨rfl, rfl⟩, rfl, rfl⟩

theorem promTy_ok {t u : CTy} {p : Ty} {s s' : CState} (h : promTy t u s = .ok (p, s')) :
    (∃ q, Ty.promote (toTy s.syms t) (toTy s.syms u) = .ok q ∧ p = q.getD .unknown) ∧ s' = s := by
  unfold promTy at h
  simp only [C.bind_ok, view_ok, C.pure_ok, C.lift_ok] at h
  obtain ⟨a, s1, ⟨rfl, rfl⟩, a', s2, ⟨rfl, rfl⟩, q, s3, ⟨hq, rfl⟩, rfl, rfl⟩ := h
  exact ⟨⟨q, hq, rfl⟩, rfl⟩

theorem matchTy_ok {t u : CTy} {r : Bool} {s s' : CState} (h : matchTy t u s = .ok (r, s')) :
    Ty.typesMatch (toTy s.syms t) (toTy s.syms u) = .ok r ∧ s' = s := by
  unfold matchTy at h
  simp only [C.bind_ok, view_ok, C.lift_ok] at h
  obtain ⟨a, s1, ⟨rfl, rfl⟩, a', s2, ⟨rfl, rfl⟩, hq, rfl⟩ := h
  exact ⟨hq, rfl⟩

theorem symTy_prim {i : SymId} {x : CSym} {tag : PTag} {t : CTy} {s s' : CState} (hx : s.syms[i]? = some x)
    (hb : x.body = .prim tag) (h : symTy i s = .ok (t, s')) : t = .prim tag ∧ s' = s := by
  unfold symTy at h
  simp only [C.bind_ok, symOf_ok] at h
  obtain ⟨y, s1, ⟨hy, rfl⟩, h⟩ := h
  rw [hx] at hy
  cases hy
  rw [hb] at h
  simpa only [C.pure_ok] using h

theorem words_reserved {w : String} {tag : PTag} (h : (w, tag) ∈ words) : w ∈ reserved := by
  simp only [words, List.mem_cons, Prod.mk.injEq, List.not_mem_nil, or_false] at h
  rcases h with ⟨rfl, _⟩ | ⟨rfl, _⟩ | ⟨rfl, _⟩ | ⟨rfl, _⟩ | ⟨rfl, _⟩ <;> decide

/-- The name of a type stands for it. -/
theorem Inv.word {X : World} (hN : X.Names) {s : CState} (h : Inv X s) {w : String} {tag : PTag} (hw : (w, tag) ∈ words)
    {k i : Nat} (hk : k = X.g ∨ X.sb ≤ k) (hs : Seen s.scopes w k i) : ∃ x, s.syms[i]? = some x ∧ x.body = .prim tag := by
  obtain ⟨j, x, hl, hx, hb⟩ := h.prims w tag hw
  have := h.foundGlobal hk (fun hv => hN.vars w hv (words_reserved hw)) hs
  rw [hl] at this
  cases this
  exact ⟨x, hx, hb⟩

theorem namedTy_ok {X : World} (hN : X.Names) {s s' : CState} (h : Inv X s) {w : String} {tag : PTag}
    (hw : (w, tag) ∈ words) {t : CTy} (ht : namedTy w s = .ok (t, s')) : t = .prim tag ∧ s' = s := by
  unfold namedTy at ht
  rw [C.bind_ok] at ht
  obtain ⟨r, s1, hr, ht⟩ := ht
  obtain ⟨rfl, hr⟩ := resolve_ok hr
  cases r with
  | none => simp only [C.raise_ok] at ht
  | some i =>
      obtain ⟨x, hx, hb⟩ := h.word hN hw h.ctx (hr i rfl)
      exact symTy_prim hx hb ht

theorem globalTy_ok {X : World} (hN : X.Names) {s s' : CState} (h : Inv X s) {w : String} {tag : PTag}
    (hw : (w, tag) ∈ words) {t : CTy} (ht : globalTy w s = .ok (t, s')) : t = .prim tag ∧ s' = s := by
  unfold globalTy at ht
  simp only [C.bind_ok, C.get_ok] at ht
  obtain ⟨_, _, ⟨rfl, rfl⟩, r, s1, hr, ht⟩ := ht
  obtain ⟨rfl, hr⟩ := resolveIn_ok hr
  cases r with
  | none => simp only [C.raise_ok] at ht
  | some i =>
      obtain ⟨x, hx, hb⟩ := h.word hN hw (.inl h.glob) (hr i rfl)
      exact symTy_prim hx hb ht

theorem typeSym_ok {X : World} (hN : X.Names) {s s' : CState} (h : Inv X s) {w : String} {tag : PTag}
    (hw : (w, tag) ∈ words) {i : SymId} (ht : typeSym w s = .ok (i, s')) :
    (∃ x, s.syms[i]? = some x ∧ x.body = .prim tag) ∧ s' = s := by
  obtain ⟨j, x, hl, hx, hb⟩ := h.prims w tag hw
  have hsee := h.seesGlobal (fun hv => hN.vars w hv (words_reserved hw)) hl _ _ (Nat.le_refl _) h.ctx h.ctxLt
  have hres : resolve w s = .ok (some j, s) := by
    unfold resolve
    rw [C.bind_ok]
    refine ⟨s, s, by simp [C.get], ?_⟩
    unfold resolveIn
    rw [show SymEnv.resolve ⟨[], s.scopes⟩ (some s.ana.ctxScope) w = some j from
      resolve_of_seen h.wf hsee (Nat.lt_succ_of_lt h.ctxLt)]
  unfold typeSym at ht
  simp only [C.bind_ok, C.get_ok] at ht
  obtain ⟨_, _, ⟨rfl, rfl⟩, r, s1, ht, ht'⟩ := ht
  rw [hres] at ht
  simp only [Except.ok.injEq, Prod.mk.injEq] at ht
  obtain ⟨rfl, rfl⟩ := ht
  simp only [C.bind_ok, C.pure_ok] at ht'
  obtain ⟨f, s2, ⟨rfl, rfl⟩, ht'⟩ := ht'
  simp only [C.bind_ok, symOf_ok] at ht'
  obtain ⟨y, s3, ⟨hy, rfl⟩, ht'⟩ := ht'
  split at ht'
  · rw [C.pure_ok] at ht'
    obtain ⟨rfl, rfl⟩ := ht'
    exact ⟨⟨x, hx, hb⟩, rfl⟩
  · simp only [C.error_ok] at ht'

theorem typeWord_words {r : Bool} {w : String} (h : typeWord r w = true) :
    ∃ tag, (w, tag) ∈ words ∧ dataTy r (.prim tag) = true ∧ (tag = .int → w = "int") := by
  unfold typeWord at h
  simp only [Bool.or_eq_true, Bool.and_eq_true, beq_iff_eq] at h
  rcases h with ((rfl | rfl) | rfl) | ⟨hr, rfl⟩
  · exact ⟨.int, by simp [words], by simp [dataTy], fun _ => rfl⟩
  · exact ⟨.bool, by simp [words], by simp [dataTy], by simp⟩
  · exact ⟨.texto, by simp [words], by simp [dataTy], by simp⟩
  · exact ⟨.real, by simp [words], by simp [dataTy, hr], by simp⟩

/-- Types that are written. -/
theorem getTy_ok {X : World} (hN : X.Names) {s : CState} (h : Inv X s) :
    ∀ {ty : TyExpr} {t : CTy} {s' : CState}, plainTy X.K.reals ty = true → getTy ty s = .ok (t, s') →
      dataTy X.K.reals t = true ∧ s' = s ∧ (∀ tok m as, ty = .name tok m as → tok.str ≠ "int" → t ≠ .prim .int) ∧
      (∀ el m, ty = .array el m → t ≠ .prim .int)
  | .name tok false none, t, s', hp, ht => by
      simp only [plainTy] at hp
      obtain ⟨tag, hw, hd, hi⟩ := typeWord_words hp
      unfold getTy at ht
      simp only [C.bind_ok] at ht
      obtain ⟨i, s1, h1, u, s2, h2, h3⟩ := ht
      obtain ⟨⟨x, hx, hb⟩, rfl⟩ := typeSym_ok hN h hw h1
      obtain ⟨rfl, rfl⟩ := symTy_prim hx hb h2
      simp only [constructTy, Bool.false_eq_true, if_false, C.pure_ok] at h3
      obtain ⟨rfl, rfl⟩ := h3
      refine ⟨hd, rfl, ?_, fun _ _ e => by cases e⟩
      rintro tok' m as e hne he
      cases e
      exact hne (hi (by simpa using he))
  | .array el false, t, s', hp, ht => by
      simp only [plainTy] at hp
      unfold getTy at ht
      simp only [C.bind_ok] at ht
      obtain ⟨u, s1, h1, h2⟩ := ht
      obtain ⟨hd, rfl, _⟩ := getTy_ok hN h hp h1
      simp only [Bool.false_eq_true, if_false, C.pure_ok] at h2
      obtain ⟨rfl, rfl⟩ := h2
      exact ⟨by simpa [dataTy] using hd, rfl, (fun _ _ _ e => by cases e), (fun _ _ _ => by simp)⟩
  | .name _ true _, _, _, hp, _ | .name _ false (some _), _, _, hp, _ | .array _ true, _, _, hp, _
  | .path .., _, _, hp, _ => by simp [plainTy] at hp

end Amanda.Check

import Verif.TypedSound

/-!
# Whole programs that keep to the typing rules

`Prog.Typed` says that the modules of a program keep to the rules of `Verif.Typed`, one after the other;
`typed_never_stuck` that such a program always has a meaning.
-/

namespace Amanda

namespace Source

open Codegen

section
variable (F : Type) [FloatOps F] (P : Prog) (T : Table)

/-- A global variable of another module than the one with path `p`. -/
def Elsewhere (p : String) (i : SymId) : Prop :=
  ∃ s, P.env.syms[i]? = some s ∧ s.isGlobal = true ∧ s.modPath ≠ p

/-- The functions of the standard library that are used: the module with path `p` and names `defs` has them, or they
are there already and belong to other modules. -/
def Provides (r : Bool) (p : String) (defs : List (String × Val F)) : Prop :=
  ∀ i nm s, T.lib i = some nm → P.env.syms[i]? = some s →
    s.modPath = p ∧ assocGet defs s.name = some (.nativeFn "embutidos" nm) ∨ r = true ∧ s.modPath ≠ p

/-- The modules in order, where the global variables in the first list already have a value and those in the
second have one in the end.  The first argument says whether the functions of the standard library that are used
are there. -/
inductive TMods : Bool → List SymId → List ModuleIn → List SymId → Prop
  | nil {Γ} : TMods true Γ [] Γ
  | builtin {r r' Γ m ms defs Δ} : m.builtin = true → builtinDefs (F := F) (P.library m.path) = some defs →
      (∀ i ∈ Γ, Elsewhere P m.path i) →
      (∀ i t s, T.vty i = some t → P.env.syms[i]? = some s → s.isGlobal = true → s.modPath ≠ m.path) →
      (r' = true → Provides F P T r m.path defs) →
      TMods r' Γ ms Δ → TMods r Γ (m :: ms) Δ
  | written {Γ m ms Γ' Γ'' Δ strict} : m.builtin = false → (∀ i ∈ Γ, Elsewhere P m.path i) →
      (∀ i nm s, T.lib i = some nm → P.env.syms[i]? = some s → s.modPath ≠ m.path) →
      TSs F P.lang T none ⟨false, false, strict, true⟩ Γ (some m.scope) m.body Γ' → Γ'' ⊆ Γ' →
      TMods true Γ'' ms Δ → TMods true Γ (m :: ms) Δ

/-- A program that keeps to the rules, with the variables `Δ` having a value in the end. -/
structure Prog.Typed (Δ : List SymId) : Prop where
  table : T.Ok F P.lang
  modules : TMods F P T false [] P.modules Δ

end

section
variable {F : Type} [FloatOps F] {P : Prog} {T : Table}

/-- The types without those of the standard library, until it is there. -/
def Table.upTo (T : Table) (r : Bool) : Table := { T with lib := if r then T.lib else fun _ => none }

omit [FloatOps F] in
/-- The state in which a module begins has the types. -/
theorem begin_ok {r : Bool} {C : Cells} {st : St F} {p : String} {defs : List (String × Val F)}
    (h : StOk P.lang (T.upTo r) C st)
    (hd : defs = [] ∨ ∀ i t s, T.vty i = some t → P.env.syms[i]? = some s → s.isGlobal = true → s.modPath ≠ p)
    {r' : Bool} (hl : r' = true → Provides F P T r p defs) :
    StOk P.lang (T.upTo r') C (st.begin p defs) := by
  refine ⟨fun i t v ht hv => ?_, h.heap, fun i nm s hi hs => ?_⟩
  rotate_left
  · cases r' with
    | false => cases hi
    | true =>
        rcases hl rfl i nm s hi hs with ⟨hp, e⟩ | ⟨rfl, hp⟩
        · simpa [St.begin, hp] using e
        · simpa [St.begin, hp] using h.libs i nm s hi hs
  unfold value at hv
  cases hs : P.lang.env.syms[i]? with
  | none => rw [hs] at hv; cases hv
  | some s =>
      rw [hs] at hv
      by_cases hg : s.isGlobal = true
      · by_cases hp : s.modPath = p
        · rcases hd with rfl | hd
          · simp [hg, hp, St.begin, assocGet] at hv
          · exact absurd hp (hd i t s ht hs hg)
        · refine h.vars i t v ht ?_
          unfold value
          rw [hs]
          simpa [hg, hp, St.begin] using hv
      · simp [hg, St.begin] at hv

omit [FloatOps F] in
theorem begin_init {Γ : List SymId} {st : St F} {p : String} {defs : List (String × Val F)}
    (h : Init P.lang Γ st) (hΓ : ∀ i ∈ Γ, Elsewhere P p i) : Init P.lang Γ (st.begin p defs) := by
  intro i hi
  obtain ⟨s, hs, hg, hp⟩ := hΓ i hi
  obtain ⟨v, hv⟩ := h i hi
  refine ⟨v, ?_⟩
  have hs' : P.lang.env.syms[i]? = some s := hs
  unfold value at hv ⊢
  rw [hs'] at hv ⊢
  simpa [hg, hp, St.begin] using hv

/-- The ends of a program of which something is shown: not stuck, and finished with all variables
holding values of their types, and those in `Δ` holding one. -/
def Fine (P : Prog) (T : Table) (Δ : List SymId) : Out F Unit → Prop
  | .stuck => False
  | .leave _ _ => False
  | .fuel _ => True
  | .fail _ _ => True
  | .done _ st => (∃ C, StOk P.lang T C st) ∧ Init P.lang Δ st

theorem modules_fine [LawfulFloatOps F] {cfg : Cfg} (hcfg : cfg.debug = false) (hT : T.Ok F P.lang) (n : Nat)
    {r : Bool} {Γ Δ : List SymId} {ms : List ModuleIn} (hm : TMods F P T r Γ ms Δ) :
    ∀ {C : Cells} {st : St F}, StOk P.lang (T.upTo r) C st → Init P.lang Γ st →
      Fine P T Δ (P.evalModules cfg n ms st) := by
  induction hm with
  | nil => exact fun h hi => ⟨⟨_, h⟩, hi⟩
  | builtin hb hd hΓ hv hl _ ih =>
      intro C st h hi
      simp only [Prog.evalModules, Prog.evalModule, hb, if_true, hd]
      exact ih (begin_ok h (.inr hv) hl) (begin_init hi hΓ)
  | @written Γ m ms Γ' Γ'' Δ strict hb hΓ hl hs hsub _ ih =>
      intro C st h hi
      have := (soundAt hcfg hT n).1.ss (mod := m.path) (depth := 1) hs
        (begin_ok (r' := true) (p := m.path) h (.inl rfl) fun _ i nm s hi hs => .inr ⟨rfl, hl i nm s hi hs⟩) (begin_init (defs := []) hi hΓ)
      simp only [Prog.evalModules, Prog.evalModule, hb, Bool.false_eq_true, if_false]
      cases ho : evalSs cfg P.lang n ⟨m.path, some m.scope, 1⟩ m.body (st.begin m.path []) with
      | stuck => rw [ho] at this; exact this.elim
      | fuel n => trivial
      | fail => trivial
      | leave c st' =>
          rw [ho] at this
          obtain ⟨C', -, -, -, hc⟩ := this
          cases c with
          | quebra => simp [Leaves] at hc
          | continua => simp [Leaves] at hc
          | retorna v => simp [Leaves] at hc
      | done a st' =>
          rw [ho] at this
          obtain ⟨C', -, h', -, rfl, hi', -⟩ := this
          exact ih h' (hi'.mono hsub)

/-- A program that keeps to the rules never gets stuck, and its variables hold values of their types. -/
theorem typed_fine [LawfulFloatOps F] {cfg : Cfg} {Δ : List SymId} (hcfg : cfg.debug = false) (h : P.Typed F T Δ) (n : Nat)
    (inp : List String) : Fine P T Δ (P.eval (F := F) cfg n inp) := by
  refine modules_fine hcfg h.table n h.modules (C := fun _ => none) ⟨fun i t v _ hv => ?_, (fun c t hc => by cases hc), fun i nm s hi => by cases hi⟩
    fun i hi => by cases hi
  unfold value at hv
  split at hv
  · cases hv
  · split at hv <;> cases hv

theorem typed_never_stuck [LawfulFloatOps F] {cfg : Cfg} {Δ : List SymId} (hcfg : cfg.debug = false) (h : P.Typed F T Δ) (n : Nat)
    (inp : List String) : P.eval (F := F) cfg n inp ≠ .stuck := by
  intro e
  have := typed_fine (F := F) hcfg h n inp
  rw [e] at this
  exact this

end

end Source

end Amanda

import Verif.Typed
import Verif.Props.Arith
import Mathlib.Data.List.Perm.Subperm

/-!
# Programs that keep to the typing rules do not get stuck

By induction on the fuel: from a state in which every variable that has a value has one of its type,
evaluation ends in such a state again, fails with a message, or has not ended yet.
-/

namespace Amanda

namespace Source

open Codegen

variable {F : Type}

/-! ## States -/

/-- The value of a variable. -/
def value (L : Lang) (st : St F) (i : SymId) : Option (Val F) :=
  match L.env.syms[i]? with
  | none => none
  | some s => if s.isGlobal then st.globals s.modPath s.name else st.locals i

/-- More cells are known. -/
def Cells.Le (C C' : Cells) : Prop := ∀ c t, C c = some t → C' c = some t

theorem Cells.Le.refl (C : Cells) : C.Le C := fun _ _ h => h

theorem Cells.Le.trans {A B C : Cells} (h : A.Le B) (k : B.Le C) : A.Le C := fun c t e => k c t (h c t e)

theorem HasTy.mono {C C' : Cells} (h : C.Le C') {t : Ty} {v : Val F} (k : HasTy C t v) : HasTy C' t v := by
  cases k with
  | int n h => exact .int n h
  | real x => exact .real x
  | bool b => exact .bool b
  | texto s => exact .texto s
  | vazio => exact .vazio
  | nothing => exact .nothing
  | vec c t e => exact .vec c t (h c _ e)

theorem CellOk.mono {C C' : Cells} (h : C.Le C') {t : Ty} {c : Cell F} (k : CellOk C t c) : CellOk C' t c := by
  cases k with
  | vec t items hi => exact .vec t items fun v hv => (hi v hv).mono h

theorem HasTy.none {t : Ty} {v : Val F} (C : Cells) (h : HasTy (fun _ => none) t v) : HasTy C t v :=
  h.mono fun _ _ e => by cases e

/-- Variables have values of their types, and so have the parts of vectors; the names of the standard library stand
for its functions. -/
structure StOk (L : Lang) (T : Table) (C : Cells) (st : St F) : Prop where
  vars : ∀ i t v, T.vty i = some t → value L st i = some v → HasTy C t v
  heap : ∀ c t, C c = some t → ∃ cell, st.world.heap[c]? = some cell ∧ CellOk C t cell
  libs : ∀ i nm s, T.lib i = some nm → L.env.syms[i]? = some s →
    st.globals s.modPath s.name = some (.nativeFn "embutidos" nm)

/-- The variables have a value. -/
def Init (L : Lang) (Γ : List SymId) (st : St F) : Prop := ∀ i ∈ Γ, ∃ v, value L st i = some v

/-- A variable of a module. -/
def IsGlobal (L : Lang) (i : SymId) : Prop := ∃ s, L.env.syms[i]? = some s ∧ s.isGlobal = true

/-- The variables `A` and those of modules do not lose their values. -/
def Stay (L : Lang) (A : List SymId) (st st' : St F) : Prop :=
  ∀ i v, i ∈ A ∨ IsGlobal L i → value L st i = some v → ∃ w, value L st' i = some w

theorem Stay.refl (L : Lang) (A : List SymId) (st : St F) : Stay L A st st := fun _ v _ h => ⟨v, h⟩

theorem Stay.trans {L : Lang} {A : List SymId} {a b c : St F} (h : Stay L A a b) (k : Stay L A b c) : Stay L A a c :=
  fun i v hi e => by obtain ⟨w, hw⟩ := h i v hi e; exact k i w hi hw

theorem Stay.mono {L : Lang} {A B : List SymId} {a b : St F} (h : Stay L A a b) (k : B ⊆ A) : Stay L B a b :=
  fun i v hi e => h i v (hi.imp_left fun m => k m) e

theorem Init.stay {L : Lang} {Γ : List SymId} {st st' : St F} (h : Init L Γ st) (k : Stay L Γ st st') :
    Init L Γ st' := fun i hi => by obtain ⟨v, hv⟩ := h i hi; exact k i v (.inl hi) hv

theorem Init.mono {L : Lang} {Γ Γ' : List SymId} {st : St F} (h : Init L Γ st) (k : Γ' ⊆ Γ) :
    Init L Γ' st := fun i hi => h i (k hi)

/-- Evaluation does not get stuck and keeps the values of `A`; if it ends, `Q` holds of the result, and if it
leaves the statements around it, `R` holds of the way it does. -/
def Post (L : Lang) (T : Table) (A : List SymId) (C : Cells) (st : St F) {α : Type} (Q : Cells → α → St F → Prop)
    (R : Cells → Ctl F → Prop) (o : Out F α) : Prop :=
  match o with
  | .stuck => False
  | .fuel _ => True
  | .fail _ _ => True
  | .leave c st' => ∃ C', C.Le C' ∧ StOk L T C' st' ∧ Stay L A st st' ∧ R C' c
  | .done a st' => ∃ C', C.Le C' ∧ StOk L T C' st' ∧ Stay L A st st' ∧ Q C' a st'

section
variable {L : Lang} {T : Table} {A : List SymId} {C : Cells} {st : St F} {α β : Type}

theorem Post.bind {Q : Cells → α → St F → Prop} {Q' : Cells → β → St F → Prop} {R : Cells → Ctl F → Prop}
    {m : M F α} {k : α → M F β} (h : Post L T A C st Q R (m st))
    (hk : ∀ C' a st', C.Le C' → StOk L T C' st' → Stay L A st st' → Q C' a st' → Post L T A C' st' Q' R (k a st')) :
    Post L T A C st Q' R ((m >>= k) st) := by
  change Post L T A C st Q' R ((m st).next k)
  cases e : m st with
  | stuck => rw [e] at h; exact h.elim
  | fuel n => trivial
  | fail msg w => trivial
  | leave c s => rw [e] at h; exact h
  | done a s =>
      rw [e] at h
      obtain ⟨C', h1, h2, h3, h4⟩ := h
      have := hk C' a s h1 h2 h3 h4
      change Post L T A C st Q' R (k a s)
      cases e' : k a s with
      | stuck => rw [e'] at this; exact this.elim
      | fuel n => trivial
      | fail msg w => trivial
      | leave c s' =>
          rw [e'] at this
          obtain ⟨C'', k1, k2, k3, k4⟩ := this
          exact ⟨C'', h1.trans k1, k2, h3.trans k3, k4⟩
      | done a s' =>
          rw [e'] at this
          obtain ⟨C'', k1, k2, k3, k4⟩ := this
          exact ⟨C'', h1.trans k1, k2, h3.trans k3, k4⟩

theorem Post.pure {Q : Cells → α → St F → Prop} {R : Cells → Ctl F → Prop} {a : α} (h : StOk L T C st)
    (hq : Q C a st) : Post L T A C st Q R ((Pure.pure a : M F α) st) :=
  ⟨C, .refl C, h, (.refl L _ st), hq⟩

theorem Post.weaken {Q Q' : Cells → α → St F → Prop} {R R' : Cells → Ctl F → Prop} {o : Out F α}
    (h : Post L T A C st Q R o) (hq : ∀ C' a st', C.Le C' → StOk L T C' st' → Stay L A st st' → Q C' a st' → Q' C' a st')
    (hr : ∀ C' c, R C' c → R' C' c) : Post L T A C st Q' R' o := by
  cases o with
  | stuck => exact h
  | fuel n => trivial
  | fail msg w => trivial
  | leave c s => obtain ⟨C', h1, h2, h3, h4⟩ := h; exact ⟨C', h1, h2, h3, hr _ _ h4⟩
  | done a s => obtain ⟨C', h1, h2, h3, h4⟩ := h; exact ⟨C', h1, h2, h3, hq _ _ _ h1 h2 h3 h4⟩

theorem Post.less {A' : List SymId} {Q : Cells → α → St F → Prop} {R : Cells → Ctl F → Prop} {o : Out F α}
    (h : Post L T A' C st Q R o) (k : A ⊆ A') : Post L T A C st Q R o := by
  cases o with
  | stuck => exact h
  | fuel n => trivial
  | fail msg w => trivial
  | leave c s => obtain ⟨C', h1, h2, h3, h4⟩ := h; exact ⟨C', h1, h2, h3.mono k, h4⟩
  | done a s => obtain ⟨C', h1, h2, h3, h4⟩ := h; exact ⟨C', h1, h2, h3.mono k, h4⟩

theorem Post.res {Q : Cells → α → St F → Prop} {R : Cells → Ctl F → Prop} {r : Res α} (h : StOk L T C st)
    (hr : (∃ a, r = .ok a ∧ Q C a st) ∨ ∃ msg, r = .error (.err msg)) :
    Post L T A C st Q R ((M.res r : M F α) st) := by
  rcases hr with ⟨a, rfl, hq⟩ | ⟨msg, rfl⟩
  · exact Post.pure h hq
  · trivial

theorem Post.need {Q : Cells → α → St F → Prop} {R : Cells → Ctl F → Prop} {o : Option α} (h : StOk L T C st)
    (hr : ∃ a, o = some a ∧ Q C a st) : Post L T A C st Q R ((M.need o : M F α) st) := by
  obtain ⟨a, rfl, hq⟩ := hr
  exact Post.pure h hq

theorem Post.heap {Q : Cells → Heap F → St F → Prop} {R : Cells → Ctl F → Prop} (h : StOk L T C st)
    (hq : Q C st.world.heap st) : Post L T A C st Q R ((M.heap : M F (Heap F)) st) :=
  ⟨C, .refl C, h, (.refl L _ st), hq⟩

theorem readVar_value [FloatOps F] {i : SymId} {v : Val F} (h : value L st i = some v) :
    readVar L i st = .done v st := by
  unfold value at h
  unfold readVar
  cases e : L.env.syms[i]? with
  | none => rw [e] at h; cases h
  | some s =>
      rw [e] at h
      simp only at h ⊢
      rw [h]
      rfl

/-- Giving a variable a value of its type. -/
theorem writeVar_ok [FloatOps F] (hT : T.Ok F L) (h : StOk L T C st) {i : SymId} {t : Ty} {v : Val F}
    (hi : T.vty i = some t) (hv : HasTy C t v) {R : Cells → Ctl F → Prop} :
    Post L T A C st (fun C' _ st' => C' = C ∧ value L st' i = some v) R (writeVar L i (some v) st) := by
  obtain ⟨s, hs⟩ := hT.vars i t hi
  unfold writeVar
  rw [hs]
  by_cases hg : s.isGlobal = true
  · simp only [hg, if_true]
    have key : ∀ j, value L { st with globals := fun m n => if m = s.modPath ∧ n = s.name then some v else st.globals m n } j
        = some v ∨ value L { st with globals := fun m n => if m = s.modPath ∧ n = s.name then some v else st.globals m n } j
        = value L st j := by
      intro j
      unfold value
      cases L.env.syms[j]? with
      | none => exact .inr rfl
      | some s' =>
          by_cases hj : s'.isGlobal = true
          · simp only [hj, if_true]
            by_cases e : s'.modPath = s.modPath ∧ s'.name = s.name
            · simp [e]
            · simp [e]
          · simp [hj]
    have hlibs : ∀ j nm s', T.lib j = some nm → L.env.syms[j]? = some s' →
        (if s'.modPath = s.modPath ∧ s'.name = s.name then some v else st.globals s'.modPath s'.name) =
          some (.nativeFn "embutidos" nm) := by
      intro j nm s' hj hs'
      obtain ⟨s0, h0, -, -, h3⟩ := hT.libs j nm hj
      rw [hs'] at h0
      cases h0
      rw [if_neg (h3 i t s hi hs hg)]
      exact h.libs j nm s' hj hs'
    refine ⟨C, .refl C, ⟨?_, h.heap, hlibs⟩, ?_, rfl, ?_⟩
    · intro j u w hj hw
      unfold value at hw
      cases es : L.env.syms[j]? with
      | none => rw [es] at hw; cases hw
      | some s' =>
          rw [es] at hw
          by_cases hjg : s'.isGlobal = true
          · simp only [hjg, if_true] at hw
            by_cases e : s'.modPath = s.modPath ∧ s'.name = s.name
            · simp only [e, and_self, if_true, Option.some.injEq] at hw
              subst hw
              rw [← hT.places i j t u s s' hi hj hs es hg hjg e.1.symm e.2.symm]
              exact hv
            · rw [if_neg e] at hw
              exact h.vars j u w hj (by unfold value; rw [es]; simp only [hjg, if_true]; exact hw)
          · simp only [hjg, Bool.false_eq_true, if_false] at hw
            exact h.vars j u w hj (by unfold value; rw [es]; simp only [hjg, Bool.false_eq_true, if_false]; exact hw)
    · intro j w _ hw
      rcases key j with e | e
      · exact ⟨_, e⟩
      · exact ⟨_, e.trans hw⟩
    · unfold value
      rw [hs]
      simp [hg]
  · simp only [hg, Bool.false_eq_true, if_false]
    refine ⟨C, .refl C, ⟨?_, h.heap, h.libs⟩, ?_, rfl, ?_⟩
    · intro j u w hj hw
      by_cases e : j = i
      · subst e
        unfold value at hw
        rw [hs] at hw
        simp only [hg, Bool.false_eq_true, if_false, if_true, Option.some.injEq] at hw
        subst hw
        rw [hi] at hj
        cases hj
        exact hv
      · refine h.vars j u w hj ?_
        unfold value at hw ⊢
        cases es : L.env.syms[j]? with
        | none => rw [es] at hw; cases hw
        | some s' =>
            rw [es] at hw
            simp only [e, if_false] at hw
            exact hw
    · intro j w _ hw
      by_cases e : j = i
      · subst e
        refine ⟨v, ?_⟩
        unfold value
        rw [hs]
        simp [hg]
      · refine ⟨w, ?_⟩
        unfold value at hw ⊢
        cases es : L.env.syms[j]? with
        | none => rw [es] at hw; cases hw
        | some s' =>
            rw [es] at hw
            simp only [e, if_false]
            exact hw
    · unfold value
      rw [hs]
      simp [hg]

end

/-! ## Values -/

theorem HasTy.shape {C : Cells} {t : Ty} {v : Val F} (h : HasTy C t v) (hb : Basic t) : Shape t v := by
  cases h with
  | int n h => exact ⟨n, rfl, h⟩
  | real x => exact ⟨x, rfl⟩
  | bool b => exact ⟨b, rfl⟩
  | texto s => exact ⟨s, rfl⟩
  | vazio => cases hb
  | nothing => cases hb
  | vec c t e => cases hb

theorem HasTy.of_shape {C : Cells} {t : Ty} {v : Val F} (h : Shape t v) (hb : Basic t) : HasTy C t v := by
  cases hb with
  | int => obtain ⟨n, rfl, h⟩ := h; exact .int n h
  | real => obtain ⟨x, rfl⟩ := h; exact .real x
  | bool => obtain ⟨x, rfl⟩ := h; exact .bool x
  | texto => obtain ⟨x, rfl⟩ := h; exact .texto x

/-- How often a vector type is nested. -/
def tyDepth : Ty → Nat
  | .vec t => tyDepth t + 1
  | _ => 0

section
variable [FloatOps F]

omit [FloatOps F] in
theorem mapM_ok {f : Val F → Res String} : ∀ {l : List (Val F)}, (∀ v ∈ l, ∃ s, f v = .ok s) →
    ∃ ss, l.mapM f = .ok ss
  | [], _ => ⟨[], rfl⟩
  | v :: l, h => by
      obtain ⟨s, hs⟩ := h v (by simp)
      obtain ⟨ss, hss⟩ := mapM_ok (l := l) fun w hw => h w (by simp [hw])
      refine ⟨s :: ss, ?_⟩
      rw [List.mapM_cons, hs, hss]
      rfl

/-- A path through nested vectors visits different cells, as the types of the cells get smaller. -/
theorem displayFuel_ok {C : Cells} {h : Heap F}
    (hh : ∀ c t, C c = some t → ∃ cell, h[c]? = some cell ∧ CellOk C t cell) :
    ∀ (fuel : Nat) (t : Ty) (v : Val F) (seen : List Nat), HasTy C t v → seen.Nodup →
      (∀ c ∈ seen, ∃ u, C c = some u ∧ tyDepth t < tyDepth u) → h.length + 1 ≤ fuel + seen.length →
      ∃ s, displayFuel h fuel v = .ok s := by
  intro fuel
  induction fuel with
  | zero =>
      intro t v seen hv hn hs hl
      exfalso
      have : seen ⊆ List.range h.length := by
        intro c hc
        obtain ⟨u, hu, -⟩ := hs c hc
        obtain ⟨cell, he, -⟩ := hh c u hu
        obtain ⟨k, -⟩ := List.getElem?_eq_some_iff.1 he
        exact List.mem_range.2 k
      have := (hn.subperm this).length_le
      rw [List.length_range] at this
      omega
  | succ fuel ih =>
      intro t v seen hv hn hs hl
      cases hv with
      | int n _ => exact ⟨_, by rw [displayFuel]⟩
      | real x => exact ⟨_, by rw [displayFuel]⟩
      | bool b => exact ⟨_, by rw [displayFuel]⟩
      | texto s => exact ⟨_, by rw [displayFuel]⟩
      | vazio => exact ⟨_, by rw [displayFuel]⟩
      | nothing => exact ⟨_, by rw [displayFuel]⟩
      | vec c t e =>
          obtain ⟨cell, he, hc⟩ := hh c _ e
          cases hc with
          | vec _ items hi =>
              rw [displayFuel]
              simp only [he]
              have : ∃ ss, items.mapM (displayFuel h fuel) = .ok ss := by
                refine mapM_ok fun w hw => ih t w (c :: seen) (hi w hw) ?_ ?_ ?_
                · refine List.nodup_cons.2 ⟨fun hm => ?_, hn⟩
                  obtain ⟨u, hu, hd⟩ := hs c hm
                  rw [e] at hu
                  cases hu
                  exact absurd hd (Nat.lt_irrefl _)
                · intro d hd
                  rcases List.mem_cons.1 hd with rfl | hd
                  · exact ⟨_, e, by simp [tyDepth]⟩
                  · obtain ⟨u, hu, hlt⟩ := hs d hd
                    refine ⟨u, hu, ?_⟩
                    simp only [tyDepth] at hlt
                    omega
                · simp only [List.length_cons]
                  omega
              obtain ⟨ss, hss⟩ := this
              rw [hss]
              exact ⟨_, rfl⟩

/-- Every value of a type can be shown. -/
theorem display_ok {L : Lang} {T : Table} {C : Cells} {st : St F} (h : StOk L T C st) {t : Ty} {v : Val F}
    (hv : HasTy C t v) : ∃ s, displayVal st.world.heap v = .ok s :=
  displayFuel_ok h.heap _ t v [] hv .nil (by simp) (by simp)

theorem promote_ok {L : Lang} {T : Table} {C : Cells} {st : St F} (h : StOk L T C st) {p t t' : Ty} {v : Val F}
    (hv : HasTy C t v) (hp : Prom p t t') {R : Cells → Ctl F → Prop} :
    Post L T A C st (fun C' w _ => HasTy C' t' w) R (promote p v st) := by
  unfold promote
  cases hp with
  | none _ _ hne => rw [if_neg hne]; exact Post.pure h hv
  | real =>
      rw [if_pos rfl]
      cases hv with
      | int n hn =>
          refine Post.bind (Post.heap (Q := fun _ _ _ => True) h trivial) ?_
          intro C' a st' _ h' _ _
          exact Post.res h' (.inl ⟨_, rfl, .real _⟩)

theorem prom_basic {p t t' : Ty} (h : Prom p t t') (hb : Basic t) : Basic t' := by
  cases h with
  | none => exact hb
  | real => exact .real

theorem basicVTy_target {b : Ty} (hb : Basic b) : convTarget b = some (basicVTy b) := by
  cases hb <;> rfl

theorem convert_ok [LawfulFloatOps F] {L : Lang} {T : Table} {C : Cells} {st : St F} (h : StOk L T C st)
    {a b t : Ty} {v : Val F} (hv : HasTy C a v) (hc : ConvTy a b t) {R : Cells → Ctl F → Prop} :
    Post L T A C st (fun C' w _ => HasTy C' t w) R (convert a b v st) := by
  unfold convert
  cases hc with
  | same e =>
      rw [if_pos (by simp [e])]
      exact Post.pure h hv
  | cast ha hb hk =>
      by_cases hab : a = b
      · subst hab
        have : a.eqv a = true := by cases ha <;> rfl
        rw [if_pos (by simp [this])]
        exact Post.pure h hv
      · have e1 : (b.eqv a || b.eqv .indef) = false := by
          cases ha <;> cases hb <;> first | rfl | exact absurd rfl hab
        have e2 : a.eqv .indef = false := by cases ha <;> rfl
        rw [e1]
        simp only [Bool.false_eq_true, if_false]
        refine Post.bind (Post.need (Q := fun _ x _ => x = basicVTy b) h ⟨_, basicVTy_target hb, rfl⟩) ?_
        rintro C' _ st' hC h' _ rfl
        rw [e2]
        simp only [Bool.false_eq_true, if_false]
        refine Post.bind (Post.heap (Q := fun _ _ _ => True) h' trivial) ?_
        intro C'' hp st'' hC' h'' _ _
        refine Post.res h'' ?_
        rcases castVal_sound hp a b ha hb hk hab v ((hv.mono hC).shape ha) with ⟨r, hr, hs⟩ | ⟨msg, -, he⟩
        · exact .inl ⟨r, hr, .of_shape hs hb⟩
        · exact .inr ⟨msg, he⟩

/-- Operators that stand for instructions are those of `Source.operator`. -/
theorem operator_binOpcode {op : TT} {o : Op} (h : Codegen.binOpcode op = some o) : operator op = some o := by
  cases op <;> simp [Codegen.binOpcode] at h <;> subst h <;> rfl

theorem prefixOp_unOpcode {op : TT} {o : Op} (h : Codegen.unOpcode op = some o) : prefixOp op = some o := by
  cases op <;> simp [Codegen.unOpcode] at h <;> subst h <;> rfl

theorem binop_basic {a b t : Ty} {op : TT} (ha : Basic a) (hb : Basic b) (h : Ty.binop a op b = some t) :
    Basic t := by
  rcases basic_accepts ha hb h with ⟨hl, hr⟩ | ⟨rfl, hs⟩
  · rcases numeric_accepts hl hr h with ⟨-, rfl⟩ | ⟨-, rfl⟩ | ⟨-, rfl⟩ | ⟨-, rfl⟩
    · split <;> constructor
    · constructor
    · split <;> constructor
    · constructor
  · obtain ⟨rfl, -⟩ := same_accepts hs h
    exact .bool

theorem binop_ok {C : Cells} {a b t : Ty} {op : TT} (ha : Basic a) (hb : Basic b)
    (h : Ty.binop a op b = some t) (hop : op = .doubleslash → a = .int ∧ b = .int) {v w : Val F}
    (hv : HasTy C a v) (hw : HasTy C b w) :
    ∃ o, operator op = some o ∧ ((∃ r, binop v o w = .ok r ∧ HasTy C t r) ∨ ∃ msg, binop v o w = .error (.err msg)) := by
  obtain ⟨o, ho, hs⟩ := operators_sound_partial a b t op ha hb hop h v w (.inl (hv.shape ha)) (.inl (hw.shape hb))
  refine ⟨o, operator_binOpcode ho, ?_⟩
  rcases hs with ⟨r, hr, hs⟩ | ⟨msg, -, he⟩
  · exact .inl ⟨r, hr, .of_shape hs (binop_basic ha hb h)⟩
  · exact .inr ⟨msg, he⟩

theorem unary_ok {C : Cells} {cfg : Cfg} (hcfg : cfg.debug = false) {a t : Ty} {op : TT} (ha : Basic a)
    (h : Ty.unaryop a op = some t) (hop : op ≠ .plus) {v : Val F} (hv : HasTy C a v) :
    ∃ o r, prefixOp op = some o ∧ unary cfg o v = some r ∧ HasTy C t r := by
  have hs := hv.shape ha
  by_cases hmin : v = .int (-(2 ^ 63))
  · subst hmin
    unfold Ty.unaryop at h
    split at h <;> cases h
    · exact absurd rfl hop
    · refine ⟨_, .int (-(2 ^ 63)), rfl, ?_, .int _ (by decide)⟩
      have : ¬ InI64 (-(-(2 ^ 63))) := by decide
      simp only [unary]
      rw [if_neg this, hcfg]
      rfl
    · exact absurd rfl hop
    · obtain ⟨x, hx⟩ := hs; cases hx
    · obtain ⟨x, hx⟩ := hs; cases hx
  · obtain ⟨o, r, h1, h2, h3⟩ := unary_sound_partial a t op h hop cfg v hs hmin
    refine ⟨o, r, prefixOp_unOpcode h1, h2, .of_shape h3 ?_⟩
    unfold Ty.unaryop at h
    split at h <;> cases h <;> constructor

omit [FloatOps F] in
theorem indexGet_ok {C : Cells} {cfg : Cfg} {h : Heap F}
    (hh : ∀ c t, C c = some t → ∃ cell, h[c]? = some cell ∧ CellOk C t cell) {t : Ty} {v : Val F} {i : Int}
    (hv : HasTy C (.vec t) v) :
    (∃ r, indexGet cfg h v i = .ok r ∧ HasTy C t r) ∨ ∃ msg, indexGet cfg h v i = .error (.err msg) := by
  cases hv with
  | vec c _ e =>
      obtain ⟨cell, he, hc⟩ := hh c _ e
      cases hc with
      | vec _ items hi =>
          unfold indexGet vecIndexCheck
          simp only [he]
          by_cases h1 : i < 0
          · rw [if_pos h1]; exact .inr ⟨_, rfl⟩
          · rw [if_neg h1]
            by_cases h2 : i.toNat ≥ items.length
            · rw [if_pos h2]; exact .inr ⟨_, rfl⟩
            · rw [if_neg h2]
              have h2 := Nat.lt_of_not_le h2
              refine .inl ⟨items[i.toNat], ?_, hi _ (List.getElem_mem h2)⟩
              simp only [List.getElem?_eq_getElem h2]
              rfl

omit [FloatOps F] in
theorem charAt_ok {C : Cells} {cfg : Cfg} {h : Heap F} {v : Val F} {i : Int} (hv : HasTy C .texto v) :
    (∃ r, indexGet cfg h v i = .ok r ∧ HasTy C .texto r) ∨ ∃ msg, indexGet cfg h v i = .error (.err msg) := by
  cases hv with
  | texto s =>
      unfold indexGet
      by_cases h1 : i < 0
      · simp only [if_pos h1]; exact .inr ⟨_, rfl⟩
      · simp only [if_neg h1]
        cases (cfg.graphemes s)[i.toNat]? with
        | none => exact .inr ⟨_, rfl⟩
        | some g => exact .inl ⟨_, rfl, .texto g⟩

omit [FloatOps F] in
theorem indexSet_ok {C : Cells} {h : Heap F}
    (hh : ∀ c t, C c = some t → ∃ cell, h[c]? = some cell ∧ CellOk C t cell) {t : Ty} {v w : Val F} {i : Int}
    (hv : HasTy C (.vec t) v) (hw : HasTy C t w) :
    (∃ h', indexSet h v i w = .ok h' ∧ ∀ c t, C c = some t → ∃ cell, h'[c]? = some cell ∧ CellOk C t cell) ∨
    ∃ msg, indexSet h v i w = .error (.err msg) := by
  cases hv with
  | vec c _ e =>
      obtain ⟨cell, he, hc⟩ := hh c _ e
      cases hc with
      | vec _ items hi =>
          unfold indexSet vecIndexCheck
          simp only [he]
          by_cases h1 : i < 0
          · rw [if_pos h1]; exact .inr ⟨_, rfl⟩
          · rw [if_neg h1]
            by_cases h2 : i.toNat ≥ items.length
            · rw [if_pos h2]; exact .inr ⟨_, rfl⟩
            · rw [if_neg h2]
              refine .inl ⟨_, rfl, fun d u hd => ?_⟩
              by_cases hcd : d = c
              · subst hcd
                rw [e] at hd
                cases hd
                obtain ⟨k, -⟩ := List.getElem?_eq_some_iff.1 he
                refine ⟨_, by rw [List.getElem?_set_self k], .vec _ _ fun x hx => ?_⟩
                rcases List.mem_or_eq_of_mem_set hx with hx | rfl
                · exact hi x hx
                · exact hw
              · rw [List.getElem?_set_ne (Ne.symm hcd)]
                exact hh d u hd

omit [FloatOps F] in
/-- A change of the elements of a vector. -/
theorem heap_set {C : Cells} {h : Heap F} (hh : ∀ c t, C c = some t → ∃ cell, h[c]? = some cell ∧ CellOk C t cell)
    {c : Nat} {t : Ty} (e : C c = some (.vec t)) {cell : Cell F} (he : h[c]? = some cell) {items : List (Val F)}
    (hi : ∀ v ∈ items, HasTy C t v) :
    ∀ d u, C d = some u → ∃ cell, (h.set c (.vec items))[d]? = some cell ∧ CellOk C u cell := by
  intro d u hd
  by_cases hcd : d = c
  · subst hcd
    rw [e] at hd
    cases hd
    obtain ⟨k, -⟩ := List.getElem?_eq_some_iff.1 he
    exact ⟨_, by rw [List.getElem?_set_self k], .vec _ _ hi⟩
  · rw [List.getElem?_set_ne (Ne.symm hcd)]
    exact hh d u hd

omit [FloatOps F] in
/-- New storage for a vector. -/
theorem alloc_ok {L : Lang} {T : Table} {C : Cells} {st : St F} (h : StOk L T C st) {t : Ty} {items : List (Val F)}
    (hi : ∀ v ∈ items, HasTy C t v) {R : Cells → Ctl F → Prop} :
    Post L T A C st (fun C' c _ => C' c = some (.vec t)) R (M.alloc (.vec items) st) := by
  have hnone : C st.world.heap.length = none := by
    cases e : C st.world.heap.length with
    | none => rfl
    | some u =>
        obtain ⟨cell, he, -⟩ := h.heap _ u e
        simp at he
  have hle : C.Le fun c => if c = st.world.heap.length then some (.vec t) else C c := by
    intro c u hc
    by_cases e : c = st.world.heap.length
    · rw [e, hnone] at hc; cases hc
    · simp only [e, if_false]; exact hc
  refine ⟨fun c => if c = st.world.heap.length then some (.vec t) else C c, hle, ⟨?_, ?_, h.libs⟩, ?_, ?_⟩
  · intro i u v hu hv
    exact (h.vars i u v hu hv).mono hle
  · intro c u hc
    by_cases e : c = st.world.heap.length
    · subst e
      simp only [if_true, Option.some.injEq] at hc
      subst hc
      exact ⟨.vec items, by simp, .vec t items fun v hv => (hi v hv).mono hle⟩
    · simp only [e, if_false] at hc
      obtain ⟨cell, he, hk⟩ := h.heap c u hc
      obtain ⟨k, -⟩ := List.getElem?_eq_some_iff.1 he
      exact ⟨cell, by rw [List.getElem?_append_left k]; exact he, hk.mono hle⟩
  · exact fun i v _ hv => ⟨v, hv⟩
  · simp

/-! ## Evaluation -/

/-- Ways a statement may end early: loops are left only where there is one, functions with a result of
their type. -/
def Leaves (ret : Option Ty) (loop : Bool) (C : Cells) : Ctl F → Prop
  | .quebra => loop = true
  | .continua => loop = true
  | .retorna v => ∃ t, ret = some t ∧ HasTy C t v

/-- An expression ends with a value of its type. -/
abbrev PostE (L : Lang) (T : Table) (A : List SymId) (C : Cells) (st : St F) (t : Ty) (o : Out F (Val F)) : Prop :=
  Post L T A C st (fun C' v _ => HasTy C' t v) (fun _ _ => False) o

/-- Statements: no `produz`, and after `retorna` nothing runs. -/
abbrev PostS (L : Lang) (T : Table) (A : List SymId) (C : Cells) (st : St F) (ret : Option Ty) (loop : Bool) (Γ : List SymId)
    (must : Bool) (o : Out F (Option (Val F))) : Prop :=
  Post L T A C st (fun _ r st' => r = none ∧ Init L Γ st' ∧ must = false) (Leaves ret loop) o

/-- What is shown of all evaluators at one amount of fuel. -/
structure SoundAt (cfg : Cfg) (L : Lang) (T : Table) (n : Nat) : Prop where
  e : ∀ {u Γ sc e t C} {st : St F} {mod depth}, TE F L T u Γ sc e t → StOk L T C st → Init L Γ st →
    PostE L T Γ C st t (evalE cfg L n ⟨mod, sc, depth⟩ e st)
  es : ∀ {Γ sc es ts C} {st : St F} {mod depth}, TEs F L T Γ sc es ts → StOk L T C st → Init L Γ st →
    Post L T Γ C st (fun C' vs _ => List.Forall₂ (HasTy C') ts vs) (fun _ _ => False)
      (evalEs cfg L n ⟨mod, sc, depth⟩ es st)
  s : ∀ {ret m Γ sc s Γ' C} {st : St F} {mod depth}, TS F L T ret m Γ sc s Γ' → StOk L T C st → Init L Γ st →
    PostS L T Γ C st ret m.loop Γ' (mustReturn s) (evalS cfg L n ⟨mod, sc, depth⟩ s st)
  ss : ∀ {ret m Γ sc ss Γ' C} {st : St F} {mod depth}, TSs F L T ret m Γ sc ss Γ' → StOk L T C st → Init L Γ st →
    PostS L T Γ C st ret m.loop Γ' (mustReturns ss) (evalSs cfg L n ⟨mod, sc, depth⟩ ss st)
  elses : ∀ {ret m Γ sc elsifs elseB C} {st : St F} {mod depth}, TElses F L T ret m Γ sc elsifs elseB →
    StOk L T C st → Init L Γ st →
    PostS L T Γ C st ret m.loop Γ
      (match elseB with | some (.mk _ last) => mustReturnElses elsifs && mustReturns last | none => false)
      (evalElses cfg L n ⟨mod, sc, depth⟩ elsifs elseB st)
  loop : ∀ {ret m loop Γ sc cond body Γ' C} {st : St F} {mod depth}, TE F L T .value Γ sc cond .bool →
    TSs F L T ret m Γ sc body Γ' → StOk L T C st → Init L Γ st →
    PostS L T Γ C st ret loop Γ false (evalWhile cfg L n ⟨mod, sc, depth⟩ cond body st)
  para : ∀ {ret m loop Γ sc i stop inc body Γ' C} {st : St F} {mod depth}, T.vty i = some .int → i ∈ Γ →
    TE F L T .value Γ sc stop .int → TInc F L T Γ sc inc →
    TSs F L T ret m Γ sc body Γ' → StOk L T C st → Init L Γ st →
    PostS L T Γ C st ret loop Γ false (evalPara cfg L n ⟨mod, sc, depth⟩ i stop inc body st)
  step : ∀ {ret m loop Γ sc i stop inc body Γ' C} {st : St F} {mod depth}, T.vty i = some .int → i ∈ Γ →
    TE F L T .value Γ sc stop .int → TInc F L T Γ sc inc →
    TSs F L T ret m Γ sc body Γ' → StOk L T C st → Init L Γ st →
    PostS L T Γ C st ret loop Γ false (evalParaStep cfg L n ⟨mod, sc, depth⟩ i stop inc body st)
  inc : ∀ {Γ sc inc C} {st : St F} {mod depth}, TInc F L T Γ sc inc → StOk L T C st → Init L Γ st →
    PostE L T Γ C st .int (evalInc cfg L n ⟨mod, sc, depth⟩ inc st)

omit [FloatOps F] in
/-- Results of expressions inside statements. -/
theorem PostE.lift {L : Lang} {T : Table} {A : List SymId} {C : Cells} {st : St F} {α : Type} {Q : Cells → α → St F → Prop}
    {o : Out F α} {R : Cells → Ctl F → Prop} (h : Post L T A C st Q (fun _ _ => False) o) : Post L T A C st Q R o :=
  h.weaken (fun _ _ _ _ _ _ k => k) fun _ _ k => k.elim

omit [FloatOps F] in
/-- The end of a round of a loop. -/
theorem endRound_ok {L : Lang} {T : Table} {C : Cells} {st : St F} {ret : Option Ty} {inner loop must : Bool}
    {Γ Γ' : List SymId} {o : Out F (Option (Val F))} {again : M F (Option (Val F))}
    (h : PostS L T Γ C st ret inner Γ' must o) (hi : Init L Γ st)
    (ha : ∀ C' st', C.Le C' → StOk L T C' st' → Init L Γ st' → PostS L T Γ C' st' ret loop Γ false (again st')) :
    PostS L T Γ C st ret loop Γ false (endRound again o).tick := by
  suffices h : PostS L T Γ C st ret loop Γ false (endRound again o) by
    cases e : endRound again o <;> rw [e] at h <;> exact h
  have next : ∀ C' st', C.Le C' → StOk L T C' st' → Stay L Γ st st' →
      PostS L T Γ C st ret loop Γ false (again st') := by
    intro C' st' h1 h2 h3
    have := ha C' st' h1 h2 (hi.stay h3)
    cases e : again st' with
    | stuck => rw [e] at this; exact this.elim
    | fuel n => trivial
    | fail msg w => trivial
    | leave c s =>
        rw [e] at this
        obtain ⟨C'', k1, k2, k3, k4⟩ := this
        exact ⟨C'', h1.trans k1, k2, h3.trans k3, k4⟩
    | done a s =>
        rw [e] at this
        obtain ⟨C'', k1, k2, k3, k4⟩ := this
        exact ⟨C'', h1.trans k1, k2, h3.trans k3, k4⟩
  cases o with
  | stuck => exact h.elim
  | fuel n => trivial
  | fail msg w => trivial
  | leave c s =>
      obtain ⟨C', h1, h2, h3, h4⟩ := h
      cases c with
      | quebra => exact ⟨C', h1, h2, h3, rfl, hi.stay h3, rfl⟩
      | continua => exact next C' s h1 h2 h3
      | retorna v => exact ⟨C', h1, h2, h3, h4⟩
  | done a s =>
      obtain ⟨C', h1, h2, h3, rfl, h4⟩ := h
      exact next C' s h1 h2 h3

omit [FloatOps F] in
theorem zip_value {C : Cells} {T : Table} : ∀ {ps : List SymId} {ts : List Ty} {vs : List (Val F)},
    List.Forall₂ (fun p t => T.vty p = some t) ps ts → List.Forall₂ (HasTy C) ts vs →
    (∀ i t v, T.vty i = some t → assocGet (ps.zip vs) i = some v → HasTy C t v) ∧
    (∀ i ∈ ps, ∃ v, assocGet (ps.zip vs) i = some v) ∧ vs.length = ps.length
  | [], [], [], .nil, .nil => ⟨fun _ _ _ _ h => (by simp [assocGet] at h), fun _ h => (by simp at h), rfl⟩
  | p :: ps, t :: ts, v :: vs, .cons hp hps, .cons hv hvs => by
      obtain ⟨h1, h2, h3⟩ := zip_value hps hvs
      refine ⟨fun i u w hi hw => ?_, fun i hi => ?_, by simp [h3]⟩
      · simp only [List.zip_cons_cons, assocGet] at hw
        split at hw
        · rename_i e
          cases hw
          subst e
          rw [hp] at hi
          cases hi
          exact hv
        · exact h1 i u w hi hw
      · simp only [List.zip_cons_cons, assocGet]
        split
        · exact ⟨_, rfl⟩
        · rename_i e
          exact h2 i ((List.mem_cons.1 hi).resolve_left fun k => e k.symm)

/-- A call of a function that keeps to its type. -/
theorem invoke_ok {cfg : Cfg} {L : Lang} {T : Table} {n : Nat} (hn : SoundAt (F := F) cfg L T n) {A : List SymId} {C : Cells}
    {st : St F} {d : FunDecl} {f : FnTy} (hf : FnOk F L T d f) {args : List (Val F)} {mod : String} {depth depth' : Nat}
    (ha : List.Forall₂ (HasTy C) f.params args) (h : StOk L T C st) (hi : Init L f.needs st) :
    PostE L T A C st f.ret (invoke depth d (evalSs cfg L n ⟨mod, some d.scope, depth'⟩ d.body) args st) := by
  obtain ⟨z1, z2, z3⟩ := zip_value hf.params ha
  obtain ⟨m, Γ', hm, hb⟩ := hf.body
  unfold invoke
  rw [if_neg (by simp [z3])]
  by_cases hd : depth = recursionLimit
  · rw [if_pos hd]; trivial
  · rw [if_neg hd]
    have vglob : ∀ {s1 s2 : St F} {i s v}, L.env.syms[i]? = some s → s.isGlobal = true → value L s1 i = some v →
        s1.globals = s2.globals → value L s2 i = some v := by
      intro s1 s2 i s v hs hg hv e
      unfold value at hv ⊢
      rw [hs] at hv ⊢
      simp only [hg, if_true, e] at hv ⊢
      exact hv
    have vloc : ∀ (s1 : St F) i s, L.env.syms[i]? = some s → s.isGlobal = false → value L s1 i = s1.locals i := by
      intro s1 i s hs hg
      unfold value
      rw [hs]
      simp only [hg, Bool.false_eq_true, if_false]
    have h0 : StOk L T C { st with locals := fun i => assocGet (d.params.zip args) i } := by
      refine ⟨fun i t v ht hv => ?_, h.heap, h.libs⟩
      cases es : L.env.syms[i]? with
      | none => unfold value at hv; rw [es] at hv; cases hv
      | some s =>
          cases hg : s.isGlobal with
          | true => exact h.vars i t v ht (vglob es hg hv rfl)
          | false => rw [vloc _ i s es hg] at hv; exact z1 i t v ht hv
    have i0 : Init L (d.params ++ f.needs) { st with locals := fun i => assocGet (d.params.zip args) i } := by
      intro i hm
      rcases List.mem_append.1 hm with hm | hm
      · obtain ⟨s, hs, hg⟩ := hf.locals i hm
        rw [vloc _ i s hs hg]
        exact z2 i hm
      · obtain ⟨s, hs, hg⟩ := hf.needs i hm
        obtain ⟨v, hv⟩ := hi i hm
        exact ⟨v, vglob hs hg hv rfl⟩
    have back : ∀ (C' : Cells) (s' : St F), C.Le C' → StOk L T C' s' →
        Stay L (d.params ++ f.needs) { st with locals := fun i => assocGet (d.params.zip args) i } s' →
        StOk L T C' { s' with locals := st.locals } ∧ Stay L A st { s' with locals := st.locals } := by
      intro C' s' hC hs' hst
      refine ⟨⟨fun i t v ht hv => ?_, hs'.heap, hs'.libs⟩, fun i v _ hv => ?_⟩
      · cases es : L.env.syms[i]? with
        | none => unfold value at hv; rw [es] at hv; cases hv
        | some s =>
            cases hg : s.isGlobal with
            | true => exact hs'.vars i t v ht (vglob es hg hv rfl)
            | false =>
                refine (h.vars i t v ht ?_).mono hC
                rw [vloc _ i s es hg] at hv ⊢
                exact hv
      · cases es : L.env.syms[i]? with
        | none => unfold value at hv; rw [es] at hv; cases hv
        | some s =>
            cases hg : s.isGlobal with
            | true =>
                obtain ⟨w, hw⟩ := hst i v (.inr ⟨s, es, hg⟩) (vglob es hg hv rfl)
                exact ⟨w, vglob es hg hw rfl⟩
            | false =>
                refine ⟨v, ?_⟩
                rw [vloc _ i s es hg] at hv ⊢
                exact hv
    have key := hn.ss (mod := mod) (depth := depth') hb h0 i0
    cases e : evalSs cfg L n ⟨mod, some d.scope, depth'⟩ d.body
        { st with locals := fun i => assocGet (d.params.zip args) i } with
    | stuck => rw [e] at key; exact key.elim
    | fuel n => trivial
    | fail msg w => trivial
    | leave c s' =>
        rw [e] at key
        obtain ⟨C', k1, k2, k3, k4⟩ := key
        cases c with
        | quebra => simp [Leaves, hm] at k4
        | continua => simp [Leaves, hm] at k4
        | retorna v =>
            obtain ⟨t, ht, hv⟩ := k4
            cases ht
            obtain ⟨b1, b2⟩ := back C' s' k1 k2 k3
            exact ⟨C', k1, b1, b2, hv⟩
    | done a s' =>
        rw [e] at key
        obtain ⟨C', k1, k2, k3, rfl, -, k5⟩ := key
        obtain ⟨b1, b2⟩ := back C' s' k1 k2 k3
        refine ⟨C', k1, b1, b2, ?_⟩
        rcases hf.returns with hr | hr
        · rw [hr]; exact .vazio
        · rw [hr] at k5; cases k5

theorem apply_ok {cfg : Cfg} {L : Lang} {T : Table} (hT : T.Ok F L) {n : Nat} (hn : SoundAt (F := F) cfg L T n)
    {A : List SymId} {C : Cells} {st : St F} {i : SymId} {f : FnTy} (hf : T.fn i = some f) {args : List (Val F)} {pos : Pos}
    {name : String} {id : Option SymId} (hid : (id.orElse fun _ => L.env.resolve pos.scope name) = some i)
    (ha : List.Forall₂ (HasTy C) f.params args) (h : StOk L T C st) (hi : Init L f.needs st) :
    PostE L T A C st f.ret (apply cfg L pos (evalSs cfg L n) name id args st) := by
  obtain ⟨s, d, hs, hd, hok⟩ := hT.fns i f hf
  unfold apply nameSym
  refine Post.bind (Post.need (Q := fun C' x s' => C' = C ∧ x = i ∧ s' = st) h ⟨i, hid, rfl, rfl, rfl⟩) ?_
  rintro C' x st' - - - ⟨rfl, rfl, rfl⟩
  refine Post.bind (Post.need (Q := fun C'' x s' => C'' = C' ∧ x = s ∧ s' = st') h ⟨s, hs, rfl, rfl, rfl⟩) ?_
  rintro C'' x' st'' - - - ⟨rfl, rfl, rfl⟩
  rw [hd]
  exact invoke_ok hn hok ha h hi

omit [FloatOps F] in
theorem forall₂_mono {C C' : Cells} (h : C.Le C') {ts : List Ty} {vs : List (Val F)}
    (k : List.Forall₂ (HasTy C) ts vs) : List.Forall₂ (HasTy C') ts vs :=
  k.imp fun _ _ e => e.mono h

omit [FloatOps F] in
theorem truth_ok {L : Lang} {T : Table} {A : List SymId} {C : Cells} {st : St F} (h : StOk L T C st) {v : Val F}
    (hv : HasTy C .bool v) {R : Cells → Ctl F → Prop} :
    Post L T A C st (fun _ _ _ => True) R (truth v st) := by
  cases hv with
  | bool b => exact Post.pure h trivial

theorem asIndex_ok {L : Lang} {T : Table} {A : List SymId} {C : Cells} {st : St F} (h : StOk L T C st) {v : Val F}
    (hv : HasTy C .int v) {R : Cells → Ctl F → Prop} :
    Post L T A C st (fun _ _ _ => True) R (asIndex v st) := by
  cases hv with
  | int n hn => exact Post.res h (.inl ⟨n, rfl, trivial⟩)

omit [FloatOps F] in
theorem asI64_range (n : Nat) : InI64 (asI64 n) := by
  have h1 := Int.bmod_lt (x := (n : Int)) (m := 2 ^ 64) (by decide)
  have h2 := Int.le_bmod (x := (n : Int)) (m := 2 ^ 64) (by decide)
  unfold asI64 InI64
  omega

/-- Functions of the standard library, called with values of the types of their parameters. -/
theorem native_ok {cfg : Cfg} (hcfg : cfg.debug = false) {L : Lang} {T : Table} {C : Cells} {st : St F} (h : StOk L T C st)
    {nm : String} {ts : List Ty} {t : Ty} (hl : LibTy nm ts t) {args : List (Val F)}
    (ha : List.Forall₂ (HasTy C) ts args) :
    (∃ v w, callNative cfg "embutidos" nm args st.world = .ok (v, w) ∧ StOk L T C { st with world := w } ∧ HasTy C t v) ∨
    ∃ msg w, callNative cfg "embutidos" nm args st.world = .error (.err msg, w) := by
  have out : ∀ (o : String) (i : List String), StOk L T C { st with world := { st.world with out := o, inp := i } } :=
    fun o i => ⟨h.vars, h.heap, h.libs⟩
  have read : ∀ o : String, ∃ (l : String) (w : World F), readLine { st.world with out := o } = (l, w) ∧
      StOk L T C { st with world := w } := by
    intro o
    unfold readLine
    cases st.world.inp with
    | nil => exact ⟨_, _, rfl, out o _⟩
    | cons l ls => exact ⟨_, _, rfl, out o ls⟩
  cases hl with
  | escreva a =>
      cases ha with
      | cons hv ha =>
          obtain ⟨s, hs⟩ := display_ok h hv
          refine .inl ⟨.none, { st.world with out := st.world.out ++ s }, ?_, out _ _, .nothing⟩
          · simp only [callNative, if_true, nEscreva, nArg, List.getElem?_cons_zero, Res.at, except_bind_ok, hs]
  | escrevaln a =>
      cases ha with
      | cons hv ha =>
          obtain ⟨s, hs⟩ := display_ok h hv
          refine .inl ⟨.none, { st.world with out := st.world.out ++ s ++ "\n" }, ?_, out _ _, .nothing⟩
          · simp only [callNative, if_true, nEscrevaln, nArg, List.getElem?_cons_zero, Res.at, except_bind_ok, hs]
  | leia =>
      cases ha with
      | cons hv ha =>
          obtain ⟨s, hs⟩ := display_ok h hv
          obtain ⟨l, w, hr, hw⟩ := read (st.world.out ++ s)
          refine .inl ⟨.str l, w, ?_, hw, .texto l⟩
          simp only [callNative, if_true, nLeia, nEscreva, nArg, List.getElem?_cons_zero, Res.at, except_bind_ok, hs, hr,
            hcfg, Bool.false_eq_true, if_false]
  | leiaInt =>
      cases ha with
      | cons hv ha =>
          obtain ⟨s, hs⟩ := display_ok h hv
          obtain ⟨l, w, hr, hw⟩ := read (st.world.out ++ s)
          cases hp : parseI64 l with
          | none =>
              refine .inr ⟨"Valor introduzido não é um inteiro válido", w, ?_⟩
              simp only [callNative, if_true, nLeiaInt, nLeia, nEscreva, nArg, List.getElem?_cons_zero, Res.at,
                except_bind_ok, hs, hr, hcfg, Bool.false_eq_true, if_false, Val.takeStr, hp]
          | some n =>
              refine .inl ⟨.int n, w, ?_, hw, .int n ((parseI64_iff _ _).mp hp).1⟩
              simp only [callNative, if_true, nLeiaInt, nLeia, nEscreva, nArg, List.getElem?_cons_zero, Res.at,
                except_bind_ok, hs, hr, hcfg, Bool.false_eq_true, if_false, Val.takeStr, hp]
  | leiaReal =>
      cases ha with
      | cons hv ha =>
          obtain ⟨s, hs⟩ := display_ok h hv
          obtain ⟨l, w, hr, hw⟩ := read (st.world.out ++ s)
          cases hp : (FloatOps.parse l : Option F) with
          | none =>
              refine .inr ⟨"Valor introduzido não é um número real válido", w, ?_⟩
              simp only [callNative, if_true, nLeiaReal, nLeia, nEscreva, nArg, List.getElem?_cons_zero, Res.at,
                except_bind_ok, hs, hr, hcfg, Bool.false_eq_true, if_false, Val.takeStr, hp]
          | some x =>
              refine .inl ⟨.f64 x, w, ?_, hw, .real x⟩
              simp only [callNative, if_true, nLeiaReal, nLeia, nEscreva, nArg, List.getElem?_cons_zero, Res.at,
                except_bind_ok, hs, hr, hcfg, Bool.false_eq_true, if_false, Val.takeStr, hp]
  | txtContem =>
      cases ha with
      | cons hv ha =>
          cases ha with
          | cons hv' ha =>
              cases hv with
              | texto a =>
                  cases hv' with
                  | texto b =>
                      exact .inl ⟨_, st.world, rfl, h, .bool _⟩
  | anexa u =>
      cases ha with
      | cons hv ha =>
          cases ha with
          | @cons _ y _ _ hx ha =>
              cases hv with
              | vec c _ e =>
                  obtain ⟨cell, he, hc⟩ := h.heap c _ e
                  cases hc with
                  | vec _ items hi =>
                      refine .inl ⟨.none, { st.world with heap := st.world.heap.set c (.vec (items ++ [y])) }, by
                        simp only [callNative, if_true, nAnexa, nArg, List.getElem?_cons_zero, List.getElem?_cons_succ, Res.at, except_bind_ok, he], ⟨h.vars, ?_, h.libs⟩, .nothing⟩
                      refine heap_set h.heap e he fun x hx' => ?_
                      rcases List.mem_append.1 hx' with hm | hm
                      · exact hi x hm
                      · rw [List.mem_singleton.1 hm]; exact hx
  | tamTexto =>
      cases ha with
      | cons hv ha =>
          cases hv with
          | texto a => exact .inl ⟨_, st.world, rfl, h, .int _ (asI64_range _)⟩
  | tamVec u =>
      cases ha with
      | cons hv ha =>
          cases hv with
          | vec c _ e =>
              obtain ⟨cell, he, hc⟩ := h.heap c _ e
              cases hc with
              | vec _ items hi =>
                  refine .inl ⟨.int (asI64 items.length), st.world, ?_, h, .int _ (asI64_range _)⟩
                  simp only [callNative, if_true, nTam, nArg, List.getElem?_cons_zero, Res.at, except_bind_ok, he]
  | remova =>
      cases ha with
      | cons hv ha =>
          cases ha with
          | cons hx ha =>
              cases hv with
              | vec c _ e =>
                  cases hx with
                  | int k hk =>
                      obtain ⟨cell, he, hc⟩ := h.heap c _ e
                      cases hc with
                      | vec _ items hi =>
                          simp only [callNative, if_true, nRemova, nArg, List.getElem?_cons_zero, List.getElem?_cons_succ, Res.at, except_bind_ok, he, Val.takeInt, vecIndexCheck]
                          by_cases h1 : k < 0
                          · rw [if_pos h1]; exact .inr ⟨_, _, rfl⟩
                          · rw [if_neg h1]
                            by_cases h2 : k.toNat ≥ items.length
                            · rw [if_pos h2]; exact .inr ⟨_, _, rfl⟩
                            · rw [if_neg h2]
                              have hlt : k.toNat < items.length := by omega
                              refine .inl ⟨items[k.toNat], { st.world with heap := st.world.heap.set c (.vec (items.eraseIdx k.toNat)) },
                                by simp only [List.getElem?_eq_getElem hlt, except_bind_ok], ⟨h.vars, ?_, h.libs⟩, hi _ (List.getElem_mem hlt)⟩
                              exact heap_set h.heap e he fun x hx' => hi x (List.mem_of_mem_eraseIdx hx')

/-- A call of a function of the standard library. -/
theorem library_ok {cfg : Cfg} (hcfg : cfg.debug = false) {L : Lang} {T : Table} (hT : T.Ok F L)
    {A : List SymId} {C : Cells} {st : St F} {i : SymId} {nm : String} (hf : T.lib i = some nm) {ts : List Ty} {t : Ty}
    (hl : LibTy nm ts t) {args : List (Val F)} {pos : Pos} {run : Pos → List TStmt → M F (Option (Val F))}
    {name : String} {id : Option SymId} (hid : (id.orElse fun _ => L.env.resolve pos.scope name) = some i)
    (ha : List.Forall₂ (HasTy C) ts args) (h : StOk L T C st) :
    PostE L T A C st t (apply cfg L pos run name id args st) := by
  obtain ⟨s, hs, hg, hn, -⟩ := hT.libs i nm hf
  have hv : value L st i = some (.nativeFn "embutidos" nm) := by
    unfold value
    rw [hs]
    simp only [hg, if_true]
    exact h.libs i nm s hf hs
  unfold apply nameSym
  refine Post.bind (Post.need (Q := fun C' x s' => C' = C ∧ x = i ∧ s' = st) h ⟨i, hid, rfl, rfl, rfl⟩) ?_
  rintro C' x st' - - - ⟨rfl, rfl, rfl⟩
  refine Post.bind (Post.need (Q := fun C'' x s' => C'' = C' ∧ x = s ∧ s' = st') h ⟨s, hs, rfl, rfl, rfl⟩) ?_
  rintro C'' x' st'' - - - ⟨rfl, rfl, rfl⟩
  rw [hn]
  refine Post.bind (Q := fun C3 x s' => C3 = C'' ∧ x = .nativeFn "embutidos" nm ∧ s' = st'')
    (by rw [readVar_value hv]; exact ⟨_, .refl _, h, .refl _ _ _, rfl, rfl, rfl⟩) ?_
  rintro C3 x s3 - - - ⟨rfl, rfl, rfl⟩
  unfold callLibrary
  rcases native_ok hcfg h hl ha with ⟨v, w, e, hst, hty⟩ | ⟨msg, w, e⟩
  · simp only [e]
    exact ⟨C3, .refl _, hst, fun j v _ hv => ⟨v, hv⟩, hty⟩
  · simp only [e]
    trivial

theorem soundE {cfg : Cfg} (hcfg : cfg.debug = false) [LawfulFloatOps F] {L : Lang} {T : Table} (hT : T.Ok F L)
    {n : Nat} (hn : SoundAt (F := F) cfg L T n)
    {u : Use} {Γ : List SymId} {sc : Option ScopeId} {e : TExpr} {t : Ty} {C : Cells} {st : St F} {mod : String}
    {depth : Nat} (he : TE F L T u Γ sc e t) (h : StOk L T C st) (hi : Init L Γ st) :
    PostE L T Γ C st t (evalE cfg L (n + 1) ⟨mod, sc, depth⟩ e st) := by
  cases he with
  | const v hl hv _ hp =>
      simp only [evalE]
      refine Post.bind (Post.need (Q := fun C' x _ => x = v) h ⟨v, hl, rfl⟩) ?_
      rintro C' x st' - h' - rfl
      exact promote_ok h' (.none _ hv) hp
  | fmtStr hes =>
      simp only [evalE]
      refine Post.bind (hn.es hes h hi) ?_
      rintro C' vs st' - h' - hvs
      refine Post.bind (Post.heap (Q := fun C'' x s => C'' = C' ∧ x = st'.world.heap ∧ s = st') h' ⟨rfl, rfl, rfl⟩) ?_
      rintro C'' hp s - - - ⟨rfl, rfl, rfl⟩
      have : ∃ ss, vs.mapM (displayVal s.world.heap) = .ok ss := by
        refine mapM_ok fun w hw => ?_
        obtain ⟨k, hk⟩ := List.getElem_of_mem hw
        obtain ⟨hk, rfl⟩ := hk
        have hl := hvs.length_eq
        exact display_ok h' (hvs.get (hl ▸ hk) hk)
      obtain ⟨ss, hss⟩ := this
      refine Post.bind (Post.res (Q := fun _ _ _ => True) h' (.inl ⟨ss, hss, trivial⟩)) ?_
      rintro C3 x s3 - h3 - -
      exact Post.pure h3 (.texto _)
  | var i hm ht hp =>
      simp only [evalE]
      obtain ⟨v, hv⟩ := hi i hm
      refine Post.bind (Q := fun C' x s => C' = C ∧ x = i ∧ s = st)
        (Post.need h ⟨i, rfl, rfl, rfl, rfl⟩) ?_
      rintro C' x s - - - ⟨rfl, rfl, rfl⟩
      refine Post.bind (Q := fun C'' x s' => C'' = C' ∧ x = v ∧ s' = s)
        (by rw [readVar_value hv]; exact ⟨_, .refl _, h, .refl _ _ _, rfl, rfl, rfl⟩) ?_
      rintro C'' x s' - - - ⟨rfl, rfl, rfl⟩
      exact promote_ok h (h.vars _ _ _ ht hv) hp
  | converta hk hc =>
      simp only [evalE]
      refine Post.bind (hn.e hk h hi) ?_
      rintro C' v st' - h' - hv
      exact convert_ok h' hv hc
  | bin hl hr ha hb hnu _ hop hds hp =>
      simp only [evalE, hnu]
      refine Post.bind (hn.e hl h hi) ?_
      rintro C' v st' - h' k' hv
      refine Post.bind (hn.e hr h' (hi.stay k')) ?_
      intro C2 w st2 le2 h2 k2 hw
      obtain ⟨o, ho, hres⟩ := binop_ok ha hb hop hds (hv.mono le2) hw
      refine Post.bind (Post.need (Q := fun C3 x s => C3 = C2 ∧ x = o ∧ s = st2) h2 ⟨o, ho, rfl, rfl, rfl⟩) ?_
      rintro C3 x s - - - ⟨rfl, rfl, rfl⟩
      refine Post.bind (Post.res (Q := fun C4 x s' => HasTy C4 _ x) h2 hres) ?_
      rintro C4 x s4 - h4 - hx
      exact promote_ok h4 hx hp
  | un hk ha hop hne hp =>
      simp only [evalE]
      refine Post.bind (hn.e hk h hi) ?_
      rintro C' v st' - h' k' hv
      obtain ⟨o, r, ho, hr, hty⟩ := unary_ok hcfg ha hop hne hv
      refine Post.bind (Post.need (Q := fun C3 x s => C3 = C' ∧ x = o ∧ s = st') h' ⟨o, ho, rfl, rfl, rfl⟩) ?_
      rintro C3 x s - - - ⟨rfl, rfl, rfl⟩
      refine Post.bind (Post.need (Q := fun C4 x s' => HasTy C4 _ x) h' ⟨r, hr, hty⟩) ?_
      rintro C4 x s4 - h4 - hx
      exact promote_ok h4 hx hp
  | assign _ _ ht hr =>
      simp only [evalE]
      refine Post.bind (hn.e hr h hi) ?_
      rintro C' v st' - h' k' hv
      refine Post.bind (writeVar_ok hT h' ht hv) ?_
      rintro C'' _ st'' - h'' - ⟨rfl, -⟩
      exact Post.pure h'' hv
  | call i f hkind _ hid hf hargs hneeds hp =>
      simp only [evalE, callShape, hkind]
      refine Post.bind (hn.es hargs h hi) ?_
      rintro C' vs st' - h' k' hvs
      refine Post.bind (apply_ok hT hn hf hid hvs h' ((hi.stay k').mono hneeds)) ?_
      rintro C2 v st2 - h2 - hv
      exact promote_ok h2 hv hp
  | lib i nm hkind _ hid hf hargs hl hp =>
      simp only [evalE, callShape, hkind]
      refine Post.bind (hn.es hargs h hi) ?_
      rintro C' vs st' - h' k' hvs
      refine Post.bind (library_ok hcfg hT hf hl hid hvs h') ?_
      rintro C2 v st2 - h2 - hv
      exact promote_ok h2 hv hp
  | list t hes hall =>
      simp only [evalE]
      refine Post.bind (hn.es hes h hi) ?_
      rintro C' vs st' - h' k' hvs
      have : ∀ v ∈ vs, HasTy C' t v := by
        intro w hw
        obtain ⟨k, hk, rfl⟩ := List.getElem_of_mem hw
        have hl := hvs.length_eq
        have := hvs.get (hl ▸ hk) hk
        rwa [hall _ (List.get_mem _ _)] at this
      refine Post.bind (alloc_ok h' this) ?_
      rintro C2 c st2 - h2 - hc
      exact Post.pure h2 (.vec c _ hc)
  | index ht hix =>
      simp only [evalE]
      refine Post.bind (hn.e ht h hi) ?_
      rintro C' v st' - h' k' hv
      refine Post.bind (hn.e hix h' (hi.stay k')) ?_
      intro C2 w st2 le2 h2 k2 hw
      refine Post.bind (asIndex_ok h2 hw) ?_
      rintro C3 j st3 le3 h3 - -
      refine Post.bind (Post.heap (Q := fun C4 x s => C4 = C3 ∧ x = st3.world.heap ∧ s = st3) h3 ⟨rfl, rfl, rfl⟩) ?_
      rintro C4 x s - - - ⟨rfl, rfl, rfl⟩
      exact Post.res h3 (indexGet_ok h3.heap (hv.mono (le2.trans le3)))
  | charAt ht hix =>
      simp only [evalE]
      refine Post.bind (hn.e ht h hi) ?_
      rintro C' v st' - h' k' hv
      refine Post.bind (hn.e hix h' (hi.stay k')) ?_
      intro C2 w st2 le2 h2 k2 hw
      refine Post.bind (asIndex_ok h2 hw) ?_
      rintro C3 j st3 le3 h3 - -
      refine Post.bind (Post.heap (Q := fun C4 x s => C4 = C3 ∧ x = st3.world.heap ∧ s = st3) h3 ⟨rfl, rfl, rfl⟩) ?_
      rintro C4 x s - - - ⟨rfl, rfl, rfl⟩
      exact Post.res h3 (charAt_ok (hv.mono (le2.trans le3)))
  | indexSet ht hix hval =>
      simp only [evalE]
      refine Post.bind (hn.e ht h hi) ?_
      rintro C' v st' - h' k' hv
      refine Post.bind (hn.e hix h' (hi.stay k')) ?_
      intro C2 w st2 le2 h2 k2 hw
      refine Post.bind (hn.e hval h2 ((hi.stay k').stay k2)) ?_
      rintro C3 x st3 le3 h3 - hx
      refine Post.bind (asIndex_ok h3 (hw.mono le3)) ?_
      rintro C4 j st4 le4 h4 - -
      refine Post.bind (Post.heap (Q := fun C5 x s => C5 = C4 ∧ x = st4.world.heap ∧ s = st4) h4 ⟨rfl, rfl, rfl⟩) ?_
      rintro C5 y s - - - ⟨rfl, rfl, rfl⟩
      rcases indexSet_ok (i := j) h4.heap (hv.mono ((le2.trans le3).trans le4)) (hx.mono le4) with ⟨hp, e, hh⟩ | ⟨msg, e⟩
      · refine Post.bind (Post.res (Q := fun C6 x s' => C6 = C5 ∧ x = hp ∧ s' = s) h4 (.inl ⟨hp, e, rfl, rfl, rfl⟩)) ?_
        rintro C6 x' s' - - - ⟨rfl, rfl, rfl⟩
        refine Post.bind (Q := fun C7 _ _ => C7 = C6) ⟨C6, .refl _, ⟨h4.vars, hh, h4.libs⟩, fun i v _ hv => ⟨v, hv⟩, rfl⟩ ?_
        rintro C7 _ s7 - h7 - rfl
        exact Post.pure h7 (hx.mono le4)
      · rw [e]
        trivial

theorem TS.grows {L : Lang} {T : Table} {ret : Option Ty} {m : Mode} {Γ Γ' : List SymId} {sc : Option ScopeId} {s : TStmt}
    (h : TS F L T ret m Γ sc s Γ') : Γ ⊆ Γ' := by
  cases h with
  | decl => exact List.subset_cons_self _ _
  | default => exact List.subset_cons_self _ _
  | _ => exact fun _ h => h

omit [FloatOps F] in
/-- Entering a block. -/
theorem clear_ok {L : Lang} {T : Table} {Γ : List SymId} {C : Cells} {st : St F} {s : ScopeId} (ha : Apart L s Γ)
    (h : StOk L T C st) {R : Cells → Ctl F → Prop} :
    Post L T Γ C st (fun C' _ _ => C' = C) R (clear L s st) := by
  have hv : ∀ i v, value L (st.entered L s) i = some v → value L st i = some v := by
    intro i v hv
    unfold value St.entered at hv
    unfold value
    cases es : L.env.syms[i]? with
    | none => rw [es] at hv; cases hv
    | some x =>
        rw [es] at hv
        simp only at hv ⊢
        split at hv
        · rename_i hg; rw [if_pos hg]; exact hv
        · rename_i hg
          rw [if_neg hg]
          split at hv
          · cases hv
          · exact hv
  refine ⟨C, .refl C, ⟨fun i t v ht e => h.vars i t v ht (hv i v e), h.heap, h.libs⟩, fun i v hi e => ⟨v, ?_⟩, rfl⟩
  unfold value St.entered
  unfold value at e
  cases es : L.env.syms[i]? with
  | none => rw [es] at e; cases e
  | some x =>
      rw [es] at e
      simp only at e ⊢
      split at e
      · rename_i hg; rw [if_pos hg]; exact e
      · rename_i hg
        rw [if_neg hg]
        rcases hi with hi | ⟨y, hy, hy'⟩
        · rw [if_neg (ha i hi)]; exact e
        · rw [es] at hy; cases hy; exact absurd hy' hg

theorem block_ok {cfg : Cfg} {L : Lang} {T : Table} {n : Nat} (hn : SoundAt (F := F) cfg L T n)
    {ret : Option Ty} {m : Mode} {must : Bool} {Γ Γ' : List SymId} {s : ScopeId} {body : List TStmt} {C : Cells} {st : St F}
    {mod : String} {depth : Nat} {sc : Option ScopeId} (hap : Apart L s Γ) (hb : TSs F L T ret m.block Γ (some s) body Γ')
    (hm : must = true → mustReturns body = true) (h : StOk L T C st) (hi : Init L Γ st) :
    PostS L T Γ C st ret m.loop Γ must
      ((do clear L s; evalSs cfg L n { (⟨mod, sc, depth⟩ : Pos) with scope := some s } body : M F (Option (Val F))) st) := by
  refine Post.bind (clear_ok hap h) ?_
  rintro C0 _ st0 - h0 k0 rfl
  have hi0 := hi.stay k0
  refine Post.weaken (hn.ss (mod := mod) (depth := depth) hb h0 hi0) ?_ fun _ _ k => k
  rintro C' a st' - - hs ⟨h1, -, h3⟩
  refine ⟨h1, hi0.stay hs, ?_⟩
  cases must with
  | false => rfl
  | true => rw [hm rfl] at h3; cases h3

theorem soundS {cfg : Cfg} {L : Lang} {T : Table} (hT : T.Ok F L)
    {n : Nat} (hn : SoundAt (F := F) cfg L T n) (hb : n = 0 ∨ ∃ k, n = k + 1 ∧ SoundAt (F := F) cfg L T k)
    {ret : Option Ty} {m : Mode} {Γ Γ' : List SymId} {sc : Option ScopeId} {s : TStmt} {C : Cells} {st : St F}
    {mod : String} {depth : Nat}
    (hs : TS F L T ret m Γ sc s Γ') (h : StOk L T C st) (hi : Init L Γ st) :
    PostS L T Γ C st ret m.loop Γ' (mustReturn s) (evalS cfg L (n + 1) ⟨mod, sc, depth⟩ s st) := by
  cases hs with
  | @expr _ _ _ _ e t he _ =>
      have : evalS cfg L (n + 1) ⟨mod, sc, depth⟩ (.expr e) st =
          (do let _ ← evalE cfg L n ⟨mod, sc, depth⟩ e; pure none : M F (Option (Val F))) st := by
        cases he <;> rfl
      rw [this]
      refine Post.bind (PostE.lift (hn.e he h hi)) ?_
      rintro C' v st' - h' k' -
      exact Post.pure h' ⟨rfl, hi.stay k', rfl⟩
  | decl ht _ hr =>
      simp only [evalS]
      refine Post.bind (PostE.lift (hn.e hr h hi)) ?_
      rintro C' v st' - h' k' hv
      refine Post.bind (writeVar_ok hT h' ht hv) ?_
      rintro C'' _ st'' - h'' k'' ⟨rfl, hw⟩
      refine Post.pure h'' ⟨rfl, ?_, rfl⟩
      intro j hj
      rcases List.mem_cons.1 hj with rfl | hj
      · exact ⟨_, hw⟩
      · exact (hi.stay k').stay k'' j hj
  | default i v hres _ ht hd hv =>
      simp only [evalS, hd]
      refine Post.bind (Post.need (Q := fun C' x s' => C' = C ∧ x = i ∧ s' = st) h ⟨i, hres, rfl, rfl, rfl⟩) ?_
      rintro C' x st' - - - ⟨rfl, rfl, rfl⟩
      refine Post.bind (writeVar_ok hT h ht (.none _ hv)) ?_
      rintro C'' _ st'' - h'' k'' ⟨rfl, hw⟩
      refine Post.pure h'' ⟨rfl, ?_, rfl⟩
      intro j hj
      rcases List.mem_cons.1 hj with rfl | hj
      · exact ⟨_, hw⟩
      · exact hi.stay k'' j hj
  | @loopCtl _ _ _ _ _ isBreak hl =>
      simp only [evalS]
      refine ⟨C, .refl C, h, (.refl L _ st), ?_⟩
      cases isBreak <;> exact hl
  | retorna he =>
      simp only [evalS]
      refine Post.bind (PostE.lift (hn.e he h hi)) ?_
      rintro C' v st' - h' k' hv
      exact ⟨C', .refl C', h', (.refl L _ st'), _, rfl, hv⟩
  | retornaVazio =>
      simp only [evalS]
      exact ⟨C, .refl C, h, (.refl L _ st), _, rfl, .vazio⟩
  | mostra he =>
      simp only [evalS]
      refine Post.bind (PostE.lift (hn.e he h hi)) ?_
      rintro C' v st' - h' k' hv
      refine Post.bind (Post.heap (Q := fun C'' x s => C'' = C' ∧ x = st'.world.heap ∧ s = st') h' ⟨rfl, rfl, rfl⟩) ?_
      rintro C'' hp s - - - ⟨rfl, rfl, rfl⟩
      obtain ⟨txt, htxt⟩ := display_ok h' hv
      refine Post.bind (Post.res (Q := fun C3 x s' => C3 = C'' ∧ s' = s) h' (.inl ⟨txt, htxt, rfl, rfl⟩)) ?_
      rintro C3 x s' - - - ⟨rfl, rfl⟩
      exact ⟨C3, .refl _, ⟨h'.vars, h'.heap, h'.libs⟩, fun i v _ hv => ⟨v, hv⟩, rfl, hi.stay k', rfl⟩
  | @se _ _ _ _ _ cond s body elsifs elseB _ hc hap _ hbody hels =>
      simp only [evalS]
      refine Post.bind (PostE.lift (hn.e hc h hi)) ?_
      rintro C' v st' - h' k' hv
      refine Post.bind (truth_ok h' hv) ?_
      rintro C2 b st2 - h2 k2 -
      have hi2 := (hi.stay k').stay k2
      cases b with
      | true =>
          simp only [if_true]
          rcases hb with rfl | ⟨k, rfl, hk⟩
          · trivial
          · simp only [evalB]
            refine block_ok (sc := sc) hk hap hbody ?_ h2 hi2
            intro hm
            rcases elseB with _ | ⟨_, last⟩
            · simp [mustReturn] at hm
            · simp only [mustReturn, Bool.and_eq_true] at hm
              exact hm.1.1
      | false =>
          simp only [Bool.false_eq_true, if_false]
          refine Post.weaken (hn.elses hels h2 hi2) ?_ fun _ _ k => k
          rintro C3 a st3 - - - ⟨h1, h2, h3⟩
          refine ⟨h1, h2, ?_⟩
          rcases elseB with _ | ⟨_, last⟩
          · simp [mustReturn]
          · simp only at h3
            simp only [mustReturn, Bool.and_assoc, h3, Bool.and_false]
  | enquanto hc hap _ hbody =>
      simp only [evalS]
      refine Post.bind (clear_ok hap h) ?_
      rintro C0 _ st0 - h0 k0 rfl
      exact hn.loop hc hbody h0 (hi.stay k0)
  | para i hap _ hstart hres _ ht hstop hinc hbody =>
      simp only [evalS]
      refine Post.bind (clear_ok hap h) ?_
      rintro C0 _ st0 - h0 k0 rfl
      replace hi := hi.stay k0
      replace h := h0
      refine Post.bind (PostE.lift (hn.e hstart h hi)) ?_
      rintro C' v st' - h' k' hv
      refine Post.bind (Post.need (Q := fun C'' x s' => C'' = C' ∧ x = i ∧ s' = st') h' ⟨i, hres, rfl, rfl, rfl⟩) ?_
      rintro C'' x s' - - - ⟨rfl, rfl, rfl⟩
      refine Post.bind (writeVar_ok hT h' ht hv) ?_
      rintro C3 _ st3 - h3 k3 ⟨rfl, hw⟩
      refine Post.weaken ((hn.para ht List.mem_cons_self hstop hinc hbody h3 ?_).less (List.subset_cons_self _ _)) ?_ fun _ _ k => k
      · intro j hj
        rcases List.mem_cons.1 hj with rfl | hj
        · exact ⟨_, hw⟩
        · exact (hi.stay k').stay k3 j hj
      · rintro C4 a st4 - - - ⟨h1, h2, h3⟩
        exact ⟨h1, h2.mono (List.subset_cons_self _ _), h3⟩
  | func _ => exact Post.pure h ⟨rfl, hi, rfl⟩
  | noop => exact Post.pure h ⟨rfl, hi, rfl⟩

/-- Evaluation keeps to the types, whatever the fuel. -/
theorem soundAt {cfg : Cfg} (hcfg : cfg.debug = false) [LawfulFloatOps F] {L : Lang} {T : Table} (hT : T.Ok F L) :
    ∀ n, SoundAt (F := F) cfg L T n ∧ (n = 0 ∨ ∃ k, n = k + 1 ∧ SoundAt (F := F) cfg L T k)
  | 0 => by
      refine ⟨⟨?_, ?_, ?_, ?_, ?_, ?_, ?_, ?_, ?_⟩, .inl rfl⟩ <;> intros <;>
        simp only [evalE, evalEs, evalS, evalSs, evalElses, evalWhile, evalPara, evalParaStep, evalInc] <;> trivial
  | n + 1 => by
      obtain ⟨hn, hb⟩ := soundAt hcfg hT n
      refine ⟨⟨?_, ?_, ?_, ?_, ?_, ?_, ?_, ?_, ?_⟩, .inr ⟨n, rfl, hn⟩⟩
      · intro u Γ sc e t C st mod depth he h hi
        exact soundE hcfg hT hn he h hi
      · intro Γ sc es ts C st mod depth hes h hi
        cases hes with
        | nil =>
            simp only [evalEs]
            exact Post.pure h .nil
        | cons he hes =>
            simp only [evalEs]
            refine Post.bind (hn.e he h hi) ?_
            rintro C' v st' - h' k' hv
            refine Post.bind (hn.es hes h' (hi.stay k')) ?_
            rintro C2 vs st2 le2 h2 - hvs
            exact Post.pure h2 (.cons (hv.mono le2) hvs)
      · intro ret m Γ sc s Γ' C st mod depth hs h hi
        exact soundS hT hn hb hs h hi
      · intro ret m Γ sc ss Γ' C st mod depth hss h hi
        cases hss with
        | nil =>
            simp only [evalSs]
            exact Post.pure h ⟨rfl, hi, rfl⟩
        | cons hs hss =>
            simp only [evalSs]
            refine Post.bind (hn.s hs h hi) ?_
            rintro C' o st' - h' k' ⟨rfl, hi', hm⟩
            refine Post.weaken ((hn.ss hss h' hi').less hs.grows) ?_ fun _ _ k => k
            rintro C2 a st2 - - - ⟨h1, h2, h3⟩
            exact ⟨h1, h2, by simp [mustReturns, hm, h3]⟩
      · intro ret m Γ sc elsifs elseB C st mod depth hel h hi
        cases hel with
        | nil =>
            simp only [evalElses]
            exact Post.pure h ⟨rfl, hi, rfl⟩
        | senao hap _ hbody =>
            simp only [evalElses]
            rcases hb with rfl | ⟨k, rfl, hk⟩
            · trivial
            · simp only [evalB]
              refine block_ok (sc := sc) hk hap hbody ?_ h hi
              simp [mustReturnElses]
        | @cons _ _ _ _ cond s body rest e _ hc hap _ hbody hrest =>
            simp only [evalElses]
            refine Post.bind (PostE.lift (hn.e hc h hi)) ?_
            rintro C' v st' - h' k' hv
            refine Post.bind (truth_ok h' hv) ?_
            rintro C2 b st2 - h2 k2 -
            have hi2 := (hi.stay k').stay k2
            cases b with
            | true =>
                simp only [if_true]
                rcases hb with rfl | ⟨k, rfl, hk⟩
                · trivial
                · simp only [evalB]
                  refine block_ok (sc := sc) hk hap hbody ?_ h2 hi2
                  intro hm
                  rcases elseB with _ | ⟨_, last⟩
                  · simp at hm
                  · simp only [mustReturnElses, Bool.and_eq_true] at hm
                    exact hm.1.1
            | false =>
                simp only [Bool.false_eq_true, if_false]
                refine Post.weaken (hn.elses hrest h2 hi2) ?_ fun _ _ k => k
                rintro C3 a st3 - - - ⟨h1, h2, h3⟩
                refine ⟨h1, h2, ?_⟩
                rcases elseB with _ | ⟨_, last⟩
                · rfl
                · simp only at h3
                  simp only [mustReturnElses, Bool.and_assoc, h3, Bool.and_false]
      · intro ret m loop Γ sc cond body Γ' C st mod depth hc hbody h hi
        simp only [evalWhile]
        refine Post.bind (PostE.lift (hn.e hc h hi)) ?_
        rintro C' v st' - h' k' hv
        refine Post.bind (truth_ok h' hv) ?_
        rintro C2 b st2 - h2 k2 -
        have hi2 := (hi.stay k').stay k2
        cases b with
        | true =>
            rw [if_pos rfl]
            refine endRound_ok (hn.ss hbody h2 hi2) hi2 ?_
            rintro C3 st3 - h3 hi3
            exact hn.loop hc hbody h3 hi3
        | false => exact Post.pure h2 ⟨rfl, hi2, rfl⟩
      · intro ret m loop Γ sc i stop inc body Γ' C st mod depth ht hm hstop hinc hbody h hi
        simp only [evalPara]
        obtain ⟨v, hv⟩ := hi i hm
        refine Post.bind (Q := fun C' x s' => C' = C ∧ x = v ∧ s' = st)
          (by rw [readVar_value hv]; exact ⟨_, .refl _, h, .refl _ _ _, rfl, rfl, rfl⟩) ?_
        rintro C' x st' - - - ⟨rfl, rfl, rfl⟩
        have hx := h.vars i _ x ht hv
        refine Post.bind (PostE.lift (hn.e hstop h hi)) ?_
        rintro C2 w st2 le2 h2 k2 hw
        obtain ⟨o, ho, hres⟩ := binop_ok (op := .less) (t := .bool) .int .int (by decide) (by decide) (hx.mono le2) hw
        cases ho
        refine Post.bind (Post.res (Q := fun C4 y _ => HasTy C4 .bool y) h2 hres) ?_
        rintro C3 y st3 - h3 k3 hy
        refine Post.bind (truth_ok h3 hy) ?_
        rintro C4 b st4 - h4 k4 -
        have hi4 := ((hi.stay k2).stay k3).stay k4
        cases b with
        | true =>
            rw [if_pos rfl]
            refine endRound_ok (hn.ss hbody h4 hi4) hi4 ?_
            rintro C5 st5 - h5 hi5
            exact hn.step ht hm hstop hinc hbody h5 hi5
        | false => exact Post.pure h4 ⟨rfl, hi4, rfl⟩
      · intro ret m loop Γ sc i stop inc body Γ' C st mod depth ht hm hstop hinc hbody h hi
        simp only [evalParaStep]
        refine Post.bind (PostE.lift (hn.inc hinc h hi)) ?_
        rintro C1 k st1 le1 h1 k1 hk
        obtain ⟨v, hv⟩ := hi.stay k1 i hm
        refine Post.bind (Q := fun C' x s' => C' = C1 ∧ x = v ∧ s' = st1)
          (by rw [readVar_value hv]; exact ⟨_, .refl _, h1, .refl _ _ _, rfl, rfl, rfl⟩) ?_
        rintro C' x st' - - - ⟨rfl, rfl, rfl⟩
        have hx := h1.vars i _ x ht hv
        obtain ⟨o, ho, hres⟩ := binop_ok (op := .plus) (t := .int) .int .int (by decide) (by decide) hk hx
        cases ho
        refine Post.bind (Post.res (Q := fun C4 y _ => HasTy C4 .int y) h1 hres) ?_
        rintro C3 y st3 - h3 k3 hy
        refine Post.bind (writeVar_ok hT h3 ht hy) ?_
        rintro C4 _ st4 - h4 k4 ⟨rfl, -⟩
        exact hn.para ht hm hstop hinc hbody h4 (((hi.stay k1).stay k3).stay k4)
      · intro Γ sc inc C st mod depth hinc h hi
        cases hinc with
        | none =>
            simp only [evalInc]
            exact Post.pure h (.int 1 (by decide))
        | some e he =>
            simp only [evalInc]
            exact hn.e he h hi

end

end Source

end Amanda

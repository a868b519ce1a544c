import Verif.Types
import Verif.Compile
import Verif.Loader
import Verif.FloatModel

/-!
# C34, C35, C36: assignability, operators and conversions

Specifications: `Same` (types equal up to the module of a declaration), `Usable` (what may stand
where a type is expected), `Shape` (which values of the VM belong to a type).
-/

namespace Amanda

/-- The optional type `T?`. -/
abbrev opt (t : Ty) : Ty := .app "/embutidos.ama" opcaoName (.cons "T" t .nil)

/-! ## C34: equality -/

mutual
/-- The same type: the same construction with the same names and the same parts in order.  The
module that declares a registo, união or generic registo is not looked at. -/
inductive Same : Ty → Ty → Prop
  | prim (t) : Same (.prim t) (.prim t)
  | vec {a b} : Same a b → Same (.vec a) (.vec b)
  | registo (m m' n) : Same (.registo m n) (.registo m' n)
  | uniao (m m' n) : Same (.uniao m n) (.uniao m' n)
  | app {as bs} (m m' n) : SameArgs as bs → Same (.app m n as) (.app m' n bs)
  | tvar (n) : Same (.tvar n) (.tvar n)
  | module (p) : Same (.module p) (.module p)
inductive SameArgs : TyArgs → TyArgs → Prop
  | nil : SameArgs .nil .nil
  | cons {a b as bs} (p) : Same a b → SameArgs as bs → SameArgs (.cons p a as) (.cons p b bs)
end

mutual
/-- The type arguments of every generic type are those of its declaration: `params n` are the
parameter names of the generic type `n`, without repetition. -/
def Bound (params : String → List String) : Ty → Prop
  | .vec a => Bound params a
  | .app _ n args => args.toList.map (·.1) = params n ∧ (params n).Nodup ∧ BoundArgs params args
  | _ => True
def BoundArgs (params : String → List String) : TyArgs → Prop
  | .nil => True
  | .cons _ t rest => Bound params t ∧ BoundArgs params rest
end

mutual
theorem Same.refl : ∀ a : Ty, Same a a
  | .prim t => .prim t
  | .vec a => .vec (Same.refl a)
  | .registo m n => .registo m m n
  | .uniao m n => .uniao m m n
  | .app m n as => .app m m n (SameArgs.refl as)
  | .tvar n => .tvar n
  | .module p => .module p
theorem SameArgs.refl : ∀ a : TyArgs, SameArgs a a
  | .nil => .nil
  | .cons p t rest => .cons p (Same.refl t) (SameArgs.refl rest)
end

mutual
theorem Same.symm : ∀ {a b : Ty}, Same a b → Same b a
  | _, _, .prim t => .prim t
  | _, _, .vec h => .vec h.symm
  | _, _, .registo m m' n => .registo m' m n
  | _, _, .uniao m m' n => .uniao m' m n
  | _, _, .app m m' n h => .app m' m n h.symm
  | _, _, .tvar n => .tvar n
  | _, _, .module p => .module p
theorem SameArgs.symm : ∀ {a b : TyArgs}, SameArgs a b → SameArgs b a
  | _, _, .nil => .nil
  | _, _, .cons p h k => .cons p h.symm k.symm
end

mutual
theorem Same.trans : ∀ {a b c : Ty}, Same a b → Same b c → Same a c
  | _, _, _, .prim t, h => h
  | _, _, _, .vec h, .vec k => .vec (h.trans k)
  | _, _, _, .registo m _ n, .registo _ m' _ => .registo m m' n
  | _, _, _, .uniao m _ n, .uniao _ m' _ => .uniao m m' n
  | _, _, _, .app m _ n h, .app _ m' _ k => .app m m' n (h.trans k)
  | _, _, _, .tvar n, h => h
  | _, _, _, .module p, h => h
theorem SameArgs.trans : ∀ {a b c : TyArgs}, SameArgs a b → SameArgs b c → SameArgs a c
  | _, _, _, .nil, h => h
  | _, _, _, .cons p h k, .cons _ h' k' => .cons p (h.trans h') (k.trans k')
end

theorem allEq_skip (p : String) (y : Ty) (bs : TyArgs) :
    ∀ as : TyArgs, p ∉ as.toList.map (·.1) → as.allEq (.cons p y bs) = as.allEq bs
  | .nil, _ => rfl
  | .cons q x rest, h => by
      simp only [TyArgs.toList, List.map_cons, List.mem_cons, not_or] at h
      have := allEq_skip p y bs rest h.2
      simp only [TyArgs.allEq, TyArgs.get, if_neg h.1, this]

theorem hasEq_all_skip (p : String) (x : Ty) (as : TyArgs) (l : List (String × Ty))
    (h : p ∉ l.map (·.1)) :
    (l.all fun q => TyArgs.hasEq (.cons p x as) q.1 q.2) = l.all fun q => as.hasEq q.1 q.2 := by
  induction l with
  | nil => rfl
  | cons q l ih =>
      simp only [List.map_cons, List.mem_cons, not_or] at h
      simp only [List.all_cons, ih h.2]
      congr 1
      simp only [TyArgs.hasEq, if_neg h.1]

mutual
theorem eqD_iff (params : String → List String) : ∀ (a : Ty) (flip : Bool) (b : Ty),
    Bound params a → Bound params b → (a.eqD flip b = true ↔ Same a b)
  | .prim s, _, b, _, _ => by
      cases b <;> simp only [Ty.eqD] <;> first
        | exact ⟨fun h => (by cases h), fun h => (by cases h)⟩
        | exact ⟨fun h => (by cases eq_of_beq h; exact .prim _), fun h => (by cases h; exact beq_self_eq_true _)⟩
  | .vec a, flip, b, ha, hb => by
      cases b <;> simp only [Ty.eqD] <;> first
        | exact ⟨fun h => (by cases h), fun h => (by cases h)⟩
        | skip
      rename_i b
      rw [eqD_iff params a flip b ha hb]
      exact ⟨.vec, fun h => by cases h; assumption⟩
  | .registo _ n, _, b, _, _ => by
      cases b <;> simp only [Ty.eqD] <;> first
        | exact ⟨fun h => (by cases h), fun h => (by cases h)⟩
        | exact ⟨fun h => (by cases eq_of_beq h; exact .registo _ _ _), fun h => (by cases h; exact beq_self_eq_true _)⟩
  | .uniao _ n, _, b, _, _ => by
      cases b <;> simp only [Ty.eqD] <;> first
        | exact ⟨fun h => (by cases h), fun h => (by cases h)⟩
        | exact ⟨fun h => (by cases eq_of_beq h; exact .uniao _ _ _), fun h => (by cases h; exact beq_self_eq_true _)⟩
  | .app m n as, flip, b, ha, hb => by
      cases b <;> simp only [Ty.eqD] <;> first
        | exact ⟨fun h => (by cases h), fun h => (by cases h)⟩
        | skip
      rename_i m' n' bs
      simp only [Bound] at ha hb
      rw [Bool.and_eq_true, beq_iff_eq]
      constructor
      · rintro ⟨rfl, h⟩
        have k := args_iff params as bs (ha.1.trans hb.1.symm) (ha.1 ▸ ha.2.1) ha.2.2 hb.2.2
        refine .app _ _ _ ?_
        cases flip
        · exact k.1.1 h
        · exact k.2.1 h
      · intro h
        cases h with
        | app _ _ _ h =>
            have k := args_iff params as bs (ha.1.trans hb.1.symm) (ha.1 ▸ ha.2.1) ha.2.2 hb.2.2
            refine ⟨rfl, ?_⟩
            cases flip
            · exact k.1.2 h
            · exact k.2.2 h
  | .tvar n, _, b, _, _ => by
      cases b <;> simp only [Ty.eqD] <;> first
        | exact ⟨fun h => (by cases h), fun h => (by cases h)⟩
        | exact ⟨fun h => (by cases eq_of_beq h; exact .tvar _), fun h => (by cases h; exact beq_self_eq_true _)⟩
  | .module n, _, b, _, _ => by
      cases b <;> simp only [Ty.eqD] <;> first
        | exact ⟨fun h => (by cases h), fun h => (by cases h)⟩
        | exact ⟨fun h => (by cases eq_of_beq h; exact .module _), fun h => (by cases h; exact beq_self_eq_true _)⟩
theorem args_iff (params : String → List String) : ∀ (as bs : TyArgs),
    as.toList.map (·.1) = bs.toList.map (·.1) → (as.toList.map (·.1)).Nodup →
    BoundArgs params as → BoundArgs params bs →
    (as.allEq bs = true ↔ SameArgs as bs) ∧
    ((bs.toList.all fun q => as.hasEq q.1 q.2) = true ↔ SameArgs as bs)
  | .nil, bs, hk, _, _, _ => by
      cases bs with
      | nil => exact ⟨⟨fun _ => .nil, fun _ => rfl⟩, ⟨fun _ => .nil, fun _ => rfl⟩⟩
      | cons p y bs => simp [TyArgs.toList] at hk
  | .cons p x rest, bs, hk, hn, ha, hb => by
      cases bs with
      | nil => simp [TyArgs.toList] at hk
      | cons q y bs =>
          simp only [TyArgs.toList, List.map_cons, List.cons.injEq] at hk
          obtain ⟨rfl, hk⟩ := hk
          simp only [TyArgs.toList, List.map_cons, List.nodup_cons] at hn
          simp only [BoundArgs] at ha hb
          have k := args_iff params rest bs hk hn.2 ha.2 hb.2
          have e1 := eqD_iff params x true y ha.1 hb.1
          have e2 := eqD_iff params x false y ha.1 hb.1
          constructor
          · simp only [TyArgs.allEq, TyArgs.get, if_true, Bool.and_eq_true]
            rw [allEq_skip _ _ _ _ hn.1, e1, k.1]
            exact ⟨fun h => .cons _ h.1 h.2, fun h => by cases h; exact ⟨by assumption, by assumption⟩⟩
          · simp only [TyArgs.toList, List.all_cons, Bool.and_eq_true]
            rw [hasEq_all_skip _ _ _ _ (hk ▸ hn.1), k.2]
            simp only [TyArgs.hasEq, if_true, e2]
            exact ⟨fun h => .cons _ h.1 h.2, fun h => by cases h; exact ⟨by assumption, by assumption⟩⟩
end

/-- **C34, equality.** On types whose arguments are those of their declarations `==` holds exactly
between the same types, so it is reflexive, symmetric and transitive.

Missing: two declarations of the same name in different modules are taken for the same type, see
`type_equality_violated`. -/
theorem type_equality_partial (params : String → List String) (a b c : Ty)
    (ha : Bound params a) (hb : Bound params b) (hc : Bound params c) :
    (a.eqv b = true ↔ Same a b) ∧ a.eqv a = true ∧ (a.eqv b = true → b.eqv a = true) ∧
    (a.eqv b = true → b.eqv c = true → a.eqv c = true) := by
  have e := fun x y hx hy => eqD_iff params x false y hx hy
  refine ⟨e a b ha hb, (e a a ha ha).2 (Same.refl a), fun h => ?_, fun h k => ?_⟩
  · exact (e b a hb ha).2 ((e a b ha hb).1 h).symm
  · exact (e a c ha hc).2 (((e a b ha hb).1 h).trans ((e b c hb hc).1 k))

example : Bound (fun n => if n = "Par" then ["A", "B"] else ["T"])
    (.app "/m.ama" "Par" (.cons "A" .int (.cons "B" (.vec (opt .texto)) .nil))) := by
  simp [Bound, BoundArgs, TyArgs.toList, opcaoName]

/-- **C34, equality, violated.** Registos and uniões of different modules are equal when their names
are; with arguments that do not fit the declaration `==` is not even symmetric. -/
theorem type_equality_violated :
    (∀ m m' n, m ≠ m' → (Ty.registo m n).eqv (.registo m' n) = true ∧ Ty.registo m n ≠ .registo m' n) ∧
    (∀ m m' n, m ≠ m' → (Ty.uniao m n).eqv (.uniao m' n) = true ∧ Ty.uniao m n ≠ .uniao m' n) ∧
    (∃ a b : Ty, a.eqv b = true ∧ b.eqv a = false) := by
  refine ⟨fun m m' n h => ⟨by simp [Ty.eqv, Ty.eqD], by simpa using h⟩,
    fun m m' n h => ⟨by simp [Ty.eqv, Ty.eqD], by simpa using h⟩, ?_⟩
  exact ⟨.app "/a.ama" "Caixa" .nil, .app "/b.ama" "Caixa" (.cons "T" .int .nil), by decide, by decide⟩

/-! ## C34: assignability -/

/-- Types whose values can be kept in a variable of type `indef`. -/
inductive ValueType : Ty → Prop
  | int : ValueType .int
  | real : ValueType .real
  | bool : ValueType .bool
  | texto : ValueType .texto
  | vec (a) : ValueType (.vec a)
  | registo (m n) : ValueType (.registo m n)
  | uniao (m n) : ValueType (.uniao m n)
  | app (m n as) : ValueType (.app m n as)

/-- `T?`, whichever module path the declaration of `Opcao` has. -/
abbrev optIn (m : String) (t : Ty) : Ty := .app m opcaoName (.cons "T" t .nil)

/-- What may be used where a type is expected. -/
inductive Usable : Ty → Ty → Prop
  | same {a b} : Same a b → Usable a b
  | intReal : Usable .int .real
  | indef {a} : ValueType a → Usable a .indef
  | some {a t} (m) : Usable a t → Usable a (optIn m t)
  | nulo (m t) : Usable .nulo (optIn m t)

mutual
/-- Types whose only generic part is `Opcao`, which always has its argument. -/
def Core : Ty → Prop
  | .vec a => Core a
  | .registo _ n => n ≠ opcaoName
  | .app _ n args => n = opcaoName ∧ CoreArgs args
  | _ => True
def CoreArgs : TyArgs → Prop
  | .cons p t .nil => p = "T" ∧ Core t
  | _ => False
end

mutual
theorem Core.bound : ∀ {a : Ty}, Core a → Bound (fun _ => ["T"]) a
  | .prim _, _ | .registo _ _, _ | .uniao _ _, _ | .tvar _, _ | .module _, _ => trivial
  | .vec a, h => Core.bound (a := a) h
  | .app _ _ args, h => by
      simp only [Core] at h
      simp only [Bound]
      have := CoreArgs.bound h.2
      exact ⟨this.1, by decide, this.2⟩
theorem CoreArgs.bound : ∀ {as : TyArgs}, CoreArgs as →
    as.toList.map (·.1) = ["T"] ∧ BoundArgs (fun _ => ["T"]) as
  | .cons p t .nil, h => by
      simp only [CoreArgs] at h
      obtain ⟨rfl, h⟩ := h
      exact ⟨rfl, Core.bound h, trivial⟩
  | .nil, h => h.elim
  | .cons _ _ (.cons _ _ _), h => by simp [CoreArgs] at h
end

theorem core_eqv {a b : Ty} (ha : Core a) (hb : Core b) : a.eqv b = true ↔ Same a b :=
  eqD_iff _ a false b ha.bound hb.bound

theorem promotionTo_plain {r t : Ty} (hr : Core r) (ht : ∀ m n as, t ≠ .app m n as) :
    (Ty.promotionTo r t).isSome = true ↔ (r = .int ∧ t = .real) ∨ (ValueType r ∧ t = .indef) := by
  cases r with
  | prim s =>
      cases t with
      | prim u =>
          cases s <;> cases u <;> simp [Ty.promotionTo, Ty.autoCast] <;> first
            | (intro h; cases h; done)
            | constructor
      | app m n as => exact absurd rfl (ht m n as)
      | _ => simp [Ty.promotionTo]
  | _ =>
      cases t with
      | prim u =>
          cases u <;> simp [Ty.promotionTo] <;> first
            | (intro h; cases h; done)
            | constructor
      | app m n as => exact absurd rfl (ht m n as)
      | _ => simp [Ty.promotionTo]

theorem promotionTo_opt {r : Ty} (hr : Core r) (m n : String) (as : TyArgs) :
    Ty.promotionTo r (.app m n as) = none := by
  cases r with
  | registo m' n' =>
      simp only [Core] at hr
      simp only [Ty.promotionTo]
      rw [if_neg]
      rintro ⟨rfl, rfl⟩
      exact hr rfl
  | _ => rfl

theorem promote_plain {r t : Ty} (ht : ∀ m n as, t ≠ .app m n as) :
    Ty.promote r t = .ok (Ty.promotionTo r t) := by
  cases t with
  | app m n as => exact absurd rfl (ht m n as)
  | _ => simp [Ty.promote]

theorem usable_plain {r t : Ty} (ht : ∀ m n as, t ≠ .app m n as) :
    Usable r t ↔ Same r t ∨ (r = .int ∧ t = .real) ∨ (ValueType r ∧ t = .indef) := by
  constructor
  · intro h
    cases h with
    | same h => exact .inl h
    | intReal => exact .inr (.inl ⟨rfl, rfl⟩)
    | indef h => exact .inr (.inr ⟨h, rfl⟩)
    | some m h => exact absurd rfl (ht _ _ _)
    | nulo m t => exact absurd rfl (ht _ _ _)
  · rintro (h | ⟨rfl, rfl⟩ | ⟨h, rfl⟩)
    · exact .same h
    · exact .intReal
    · exact .indef h

theorem typesMatch_plain {r t : Ty} (hr : Core r) (hc : Core t) (ht : ∀ m n as, t ≠ .app m n as) :
    ∃ b, Ty.typesMatch t r = .ok b ∧ (b = true ↔ Usable r t) := by
  unfold Ty.typesMatch
  rw [usable_plain ht]
  by_cases h : t.eqv r = true
  · rw [if_pos h]
    exact ⟨true, rfl, by simp [((core_eqv hc hr).1 h).symm]⟩
  · rw [if_neg h, promote_plain ht]
    refine ⟨_, rfl, ?_⟩
    rw [promotionTo_plain hr ht]
    rw [core_eqv hc hr] at h
    constructor
    · exact .inr
    · rintro (h' | h')
      · exact absurd h'.symm h
      · exact h'

/-- **C34, assignability.** Where a type is expected, the checker accepts exactly a value of that
type, an `int` for a `real`, a value of any type for `indef`, and for `T?` also `nulo` and what it
accepts for `T`.

Missing: generic registos other than `Opcao`, and `Opcao` without argument as a type of its own;
there the claim fails, see `assignability_violated`. -/
theorem assignability_partial : ∀ (expected received : Ty), Core expected → Core received →
    ∃ b, Ty.typesMatch expected received = .ok b ∧ (b = true ↔ Usable received expected)
  | .prim _, r, he, hr | .vec _, r, he, hr | .registo _ _, r, he, hr | .uniao _ _, r, he, hr
  | .tvar _, r, he, hr | .module _, r, he, hr => typesMatch_plain hr he (by intro m n as h; cases h)
  | .app m n (.cons p t .nil), r, he, hr => by
      have he' := he
      simp only [Core, CoreArgs] at he
      obtain ⟨rfl, rfl, ht⟩ := he
      obtain ⟨b, hb, hu⟩ := assignability_partial t r ht hr
      by_cases h : (optIn m t).eqv r = true
      · refine ⟨true, by unfold Ty.typesMatch; rw [if_pos h], ?_⟩
        simp [Usable.same ((core_eqv he' hr).1 h).symm]
      · have hs : ¬ Same r (optIn m t) := fun k => h ((core_eqv he' hr).2 k.symm)
        have key : Usable r (optIn m t) ↔ Usable r t ∨ r = .nulo := by
          constructor
          · intro k
            cases k with
            | same k => exact absurd k hs
            | some _ k => exact .inl k
            | nulo => exact .inr rfl
          · rintro (k | rfl)
            · exact .some _ k
            · exact .nulo _ _
        rw [key, ← hu]
        unfold Ty.typesMatch at hb ⊢
        rw [if_neg h]
        simp only [Ty.promote, promotionTo_opt hr, Ty.promoteInner]
        simp only [bne_self_eq_false, Bool.and_false, Bool.false_eq_true, if_false, if_true]
        by_cases hq : t.eqv r = true
        · rw [if_pos hq] at hb ⊢
          cases hb
          exact ⟨true, rfl, by simp⟩
        · rw [if_neg hq] at hb ⊢
          cases hp : Ty.promote r t with
          | error e => rw [hp] at hb; cases hb
          | ok o =>
              rw [hp] at hb
              cases hb
              cases ho : (o.isSome || r == Ty.nulo) with
              | true =>
                  refine ⟨true, by simp only [ho]; rfl, ?_⟩
                  simpa using ho
              | false =>
                  refine ⟨false, by simp only [ho]; rfl, ?_⟩
                  simpa using ho
  | .app m n .nil, r, he, hr => by simp [Core, CoreArgs] at he
  | .app m n (.cons _ _ (.cons _ _ _)), r, he, hr => by simp [Core, CoreArgs] at he

example : Core (opt (.vec (opt .real))) ∧ Usable .int (opt .real) ∧ ¬ Usable .real (opt .int) := by
  refine ⟨by simp [Core, CoreArgs], .some _ .intReal, ?_⟩
  intro h
  cases h with
  | same h => cases h
  | some _ h => cases h with | same h => cases h

/-- **C34, assignability, violated.** An `int` is accepted where the generic registo `Caixa[int]` is
expected, a registo `Opcao` without argument for every optional type, and for a generic registo
without a parameter called `T` the checker ends in a `KeyError`. -/
theorem assignability_violated :
    (∀ m n, n ≠ opcaoName →
      Ty.typesMatch (.app m n (.cons "T" .int .nil)) .int = .ok true ∧
      ¬ Usable .int (.app m n (.cons "T" .int .nil))) ∧
    (∀ m m' t, Ty.typesMatch (optIn m t) (.registo m' opcaoName) = .ok true) ∧
    Ty.typesMatch (.app "/m.ama" "Par" (.cons "A" .int (.cons "B" .int .nil))) .int
      = .error (.exc "KeyError") := by
  refine ⟨fun m n hn => ⟨?_, ?_⟩, fun m m' t => ?_, by decide⟩
  · simp [Ty.typesMatch, Ty.eqv, Ty.eqD, Ty.promote, Ty.promotionTo, Ty.promoteInner, Ty.isPrim]
    rfl
  · intro h
    cases h with
    | same h => cases h
    | some _ h => exact hn rfl
  · simp [Ty.typesMatch, Ty.eqv, Ty.eqD, Ty.promote, Ty.promotionTo]
    rfl

/-- Optional types around `indef`: `indef?`, `indef??`, … -/
inductive OptIndef : Ty → Prop
  | here (m) : OptIndef (optIn m .indef)
  | there {t} (m) : OptIndef t → OptIndef (optIn m t)

mutual
/-- How many times a type is optional. -/
def optDepth : Ty → Nat
  | .app _ _ args => optDepthArgs args + 1
  | _ => 0
def optDepthArgs : TyArgs → Nat
  | .cons _ t _ => optDepth t
  | .nil => 0
end

mutual
theorem same_depth : ∀ {a b : Ty}, Same a b → optDepth a = optDepth b
  | _, _, .prim _ | _, _, .vec _ | _, _, .registo _ _ _ | _, _, .uniao _ _ _ | _, _, .tvar _
  | _, _, .module _ => rfl
  | _, _, .app _ _ _ h => by simp only [optDepth, same_depthArgs h]
theorem same_depthArgs : ∀ {a b : TyArgs}, SameArgs a b → optDepthArgs a = optDepthArgs b
  | _, _, .nil => rfl
  | _, _, .cons _ h _ => by simp only [optDepthArgs, same_depth h]
end

theorem usable_depth {a b : Ty} (h : Usable a b) (hb : b ≠ .indef) (ho : ¬ OptIndef b) :
    Same a b ∨ (a = .int ∧ b = .real) ∨ optDepth a < optDepth b := by
  induction h with
  | same h => exact .inl h
  | intReal => exact .inr (.inl ⟨rfl, rfl⟩)
  | indef _ => exact absurd rfl hb
  | @some a t m h ih =>
      right; right
      have := ih (fun e => ho (e ▸ .here m)) (fun e => ho (.there m e))
      simp only [optDepth, optDepthArgs]
      rcases this with h | ⟨rfl, rfl⟩ | h
      · have := same_depth h; omega
      · simp [optDepth]
      · omega
  | nulo m t => right; right; simp [optDepth]

theorem usable_from_indef {t : Ty} (h : Usable .indef t) : t = .indef ∨ OptIndef t := by
  generalize ha : Ty.indef = a at h
  induction h with
  | same h => subst ha; cases h; exact .inl rfl
  | intReal => cases ha
  | indef h => subst ha; cases h
  | some m h ih =>
      rcases ih ha with e | k
      · rw [e, ← ha]; exact .inr (.here m)
      · exact .inr (.there m k)
  | nulo => cases ha

/-- **C34, direction.** Between different types values may be used in one direction only.

Missing: `indef?`, `indef??`, …, see `promotion_both_ways_violated`. -/
theorem promotion_one_way_partial (a b : Ty) (ha : Core a) (hb : Core b) (na : ¬ OptIndef a)
    (nb : ¬ OptIndef b) (h : Ty.typesMatch b a = .ok true) (k : Ty.typesMatch a b = .ok true) :
    Same a b := by
  obtain ⟨x, hx, ux⟩ := assignability_partial b a hb ha
  obtain ⟨y, hy, uy⟩ := assignability_partial a b ha hb
  rw [hx] at h
  rw [hy] at k
  cases h
  cases k
  have u := ux.1 rfl
  have w := uy.1 rfl
  by_cases hb' : b = .indef
  · subst hb'
    rcases usable_from_indef w with rfl | k
    · exact Same.refl _
    · exact absurd k na
  by_cases ha' : a = .indef
  · subst ha'
    rcases usable_from_indef u with rfl | k
    · exact Same.refl _
    · exact absurd k nb
  rcases usable_depth u hb' nb with k | ⟨rfl, rfl⟩ | k
  · exact k
  · cases w with | same w => cases w
  · rcases usable_depth w ha' na with k' | ⟨rfl, rfl⟩ | k'
    · exact k'.symm
    · simp [optDepth] at k
    · omega

example : Core (opt .real) ∧ ¬ OptIndef (opt .real) ∧ Ty.typesMatch (opt .real) .int = .ok true ∧
    Ty.typesMatch .int (opt .real) = .ok false := by
  refine ⟨by simp [Core, CoreArgs], ?_, by decide, by decide⟩
  intro h
  cases h with | there _ h => cases h

/-- **C34, direction, violated.** `indef` and `indef?` can each be used for the other. -/
theorem promotion_both_ways_violated :
    Ty.typesMatch .indef (opt .indef) = .ok true ∧ Ty.typesMatch (opt .indef) .indef = .ok true ∧
    ¬ Same .indef (opt .indef) := by
  refine ⟨by decide, by decide, ?_⟩
  intro h
  cases h

/-! ## C35: operators -/

section
variable {F : Type}

mutual
/-- The values of a type.  Of vectors, registos and uniões only the kind of value counts; a variable
of type `indef` may hold anything. -/
def Shape : Ty → Val F → Prop
  | .prim .int, v => ∃ n, v = .int n ∧ InI64 n
  | .prim .real, v => ∃ x, v = .f64 x
  | .prim .bool, v => ∃ b, v = .bool b
  | .prim .texto, v => ∃ s, v = .str s
  | .prim .nulo, v => v = .none
  | .prim .indef, _ => True
  | .vec _, v => ∃ c, v = .vector c
  | .registo _ _, v => ∃ c, v = .regobj c
  | .uniao _ _, v => ∃ t p, v = .variant t p
  | .app _ n args, v => if n = opcaoName then v = .none ∨ ShapeArg args v else ∃ c, v = .regobj c
  | _, _ => False
def ShapeArg : TyArgs → Val F → Prop
  | .cons _ t _, v => Shape t v
  | .nil, _ => False
end

/-- `int`, `real`, `bool`, `texto`. -/
inductive Basic : Ty → Prop
  | int : Basic .int
  | real : Basic .real
  | bool : Basic .bool
  | texto : Basic .texto

/-- The runtime errors of operators: result outside the 64-bit range, remainder by zero, division by
zero. -/
def operatorErrors : List String := [msgOverflow, msgRemZero, msgDivZero]

/-- A result of the type, or one of the documented errors; no crash. -/
def Sound (r : Res (Val F)) (ty : Ty) (errors : List String) : Prop :=
  (∃ v, r = .ok v ∧ Shape ty v) ∨ ∃ msg ∈ errors, r = .error (.err msg)

/-- An operand of type `t` whose value may have been converted to `real` before, as the compiler
does for an `int` beside a `real`. -/
def Operand [FloatOps F] (t other : Ty) (v : Val F) : Prop :=
  Shape t v ∨ (t = .int ∧ other = .real ∧ Shape .real v)

variable [FloatOps F]

omit [FloatOps F] in
theorem checked_shape {n : Int} {f : Int → Val F} (hf : f = Val.int) :
    Sound (match checked n with | some m => .ok (f m) | none => .error (.err msgOverflow)) .int
      operatorErrors := by
  subst hf
  unfold checked
  by_cases h : InI64 n
  · rw [if_pos h]; exact .inl ⟨_, rfl, n, rfl, h⟩
  · rw [if_neg h]; exact .inr ⟨msgOverflow, by simp [operatorErrors], rfl⟩

omit [FloatOps F] in
theorem checkedRem_shape {a b : Int} (ha : InI64 a) :
    Sound (match checkedRem a b with | some m => .ok (Val.int (F := F) m) | none => .error (.err msgOverflow))
      .int operatorErrors := by
  unfold checkedRem
  by_cases h : InI64 (Int.tdiv a b)
  · rw [if_pos h]
    refine .inl ⟨_, rfl, _, rfl, ?_⟩
    unfold InI64 at ha ⊢
    have h1 := Int.tmod_nonneg (a := a) b
    have h2 : ∀ {x : Int}, 0 ≤ x → Int.tmod x b ≤ x := fun {x} hx => by
      rw [Int.tmod_eq_emod_of_nonneg hx]
      by_cases hb : b = 0
      · subst hb; simp
      · have := Int.mul_ediv_add_emod x b
        have h3 := Int.emod_nonneg x hb
        by_cases hp : 0 ≤ x / b * b
        · rw [Int.mul_comm] at hp; omega
        · exfalso
          apply hp
          rcases Int.lt_or_gt_of_ne hb with hn | hn
          · have : x / b ≤ 0 := Int.ediv_nonpos_of_nonneg_of_nonpos hx (by omega)
            exact Int.mul_nonneg_of_nonpos_of_nonpos this (by omega)
          · exact Int.mul_nonneg (Int.ediv_nonneg hx (by omega)) (by omega)
    by_cases hp : 0 ≤ a
    · have := h2 hp
      have := Int.tmod_nonneg b hp
      omega
    · have h4 : 0 ≤ -a := by omega
      have h5 := h2 h4
      have h6 := Int.tmod_nonneg b h4
      rw [Int.neg_tmod] at h5 h6
      omega
  · rw [if_neg h]; exact .inr ⟨msgOverflow, by simp [operatorErrors], rfl⟩

omit [FloatOps F] in
theorem sound_bool (b : Bool) : Sound (.ok (.bool b) : Res (Val F)) .bool operatorErrors :=
  .inl ⟨_, rfl, b, rfl⟩

omit [FloatOps F] in
theorem sound_real (x : F) : Sound (.ok (.f64 x) : Res (Val F)) .real operatorErrors :=
  .inl ⟨_, rfl, x, rfl⟩

omit [FloatOps F] in
theorem sound_zero {ty : Ty} {r : Res (Val F)} {c : Prop} [Decidable c] {msg : String}
    (hm : msg ∈ operatorErrors) (h : Sound r ty operatorErrors) :
    Sound (if c then .error (.err msg) else r) ty operatorErrors := by
  by_cases hc : c
  · rw [if_pos hc]; exact .inr ⟨msg, hm, rfl⟩
  · rw [if_neg hc]; exact h

/-- A number as the VM has it. -/
inductive Num : Val F → Prop
  | int (n) : InI64 n → Num (.int n)
  | real (x) : Num (.f64 x)

/-- Numbers of which at least one is real. -/
def SomeReal (v w : Val F) : Prop := v.isFloat = true ∨ w.isFloat = true

theorem num_ops {v w : Val F} (hv : Num v) (hw : Num w) (op : TT)
    (hop : op ∈ [TT.plus, .minus, .star, .modulo]) :
    ∃ o, Codegen.binOpcode op = some o ∧ (SomeReal v w → Sound (binop v o w) .real operatorErrors) ∧
      (¬ SomeReal v w → Sound (binop v o w) .int operatorErrors) := by
  have m1 : msgRemZero ∈ operatorErrors := by simp [operatorErrors]
  simp only [List.mem_cons, List.not_mem_nil, or_false] at hop
  cases hv with
  | int a ha =>
      cases hw with
      | int b hb =>
          have hn : ¬ SomeReal (Val.int a : Val F) (.int b) := by simp [SomeReal, Val.isFloat]
          rcases hop with rfl | rfl | rfl | rfl
          · exact ⟨_, rfl, fun k => absurd k hn, fun _ => checked_shape rfl⟩
          · exact ⟨_, rfl, fun k => absurd k hn, fun _ => checked_shape rfl⟩
          · exact ⟨_, rfl, fun k => absurd k hn, fun _ => checked_shape rfl⟩
          · exact ⟨_, rfl, fun k => absurd k hn, fun _ => sound_zero m1 (checkedRem_shape ha)⟩
      | real y =>
          have hs : SomeReal (Val.int a) (Val.f64 y) := .inr rfl
          rcases hop with rfl | rfl | rfl | rfl
          · exact ⟨_, rfl, fun _ => sound_real _, fun k => absurd hs k⟩
          · exact ⟨_, rfl, fun _ => sound_real _, fun k => absurd hs k⟩
          · exact ⟨_, rfl, fun _ => sound_real _, fun k => absurd hs k⟩
          · exact ⟨_, rfl, fun _ => sound_zero m1 (sound_real _), fun k => absurd hs k⟩
  | real x =>
      have hs : SomeReal (Val.f64 x) w := .inl rfl
      cases hw with
      | int b hb =>
          rcases hop with rfl | rfl | rfl | rfl
          · exact ⟨_, rfl, fun _ => sound_real _, fun k => absurd hs k⟩
          · exact ⟨_, rfl, fun _ => sound_real _, fun k => absurd hs k⟩
          · exact ⟨_, rfl, fun _ => sound_real _, fun k => absurd hs k⟩
          · exact ⟨_, rfl, fun _ => sound_zero m1 (sound_real _), fun k => absurd hs k⟩
      | real y =>
          rcases hop with rfl | rfl | rfl | rfl
          · exact ⟨_, rfl, fun _ => sound_real _, fun k => absurd hs k⟩
          · exact ⟨_, rfl, fun _ => sound_real _, fun k => absurd hs k⟩
          · exact ⟨_, rfl, fun _ => sound_real _, fun k => absurd hs k⟩
          · exact ⟨_, rfl, fun _ => sound_zero m1 (sound_real _), fun k => absurd hs k⟩

theorem num_div {v w : Val F} (hv : Num v) (hw : Num w) :
    Sound (binop v .opDiv w) .real operatorErrors := by
  have m1 : msgDivZero ∈ operatorErrors := by simp [operatorErrors]
  cases hv <;> cases hw <;> exact sound_zero m1 (sound_real _)

theorem num_floordiv {a b : Int} :
    Sound (binop (.int a : Val F) .opFloordiv (.int b)) .int operatorErrors := by
  have m1 : msgDivZero ∈ operatorErrors := by simp [operatorErrors]
  exact sound_zero m1 (checked_shape rfl)

theorem num_compare {v w : Val F} (hv : Num v) (hw : Num w) (op : TT)
    (hop : op ∈ [TT.greater, .less, .greatereq, .lesseq, .doubleequal, .notequal]) :
    ∃ o, Codegen.binOpcode op = some o ∧ Sound (binop v o w) .bool operatorErrors := by
  simp only [List.mem_cons, List.not_mem_nil, or_false] at hop
  cases hv <;> cases hw <;> rcases hop with rfl | rfl | rfl | rfl | rfl | rfl <;>
    exact ⟨_, rfl, sound_bool _⟩

theorem bool_ops (a b : Bool) (op : TT) (hop : op ∈ [TT.doubleequal, .notequal, .e, .ou]) :
    ∃ o, Codegen.binOpcode op = some o ∧
      Sound (binop (.bool a : Val F) o (.bool b)) .bool operatorErrors := by
  simp only [List.mem_cons, List.not_mem_nil, or_false] at hop
  cases a <;> cases b <;> rcases hop with rfl | rfl | rfl | rfl <;> exact ⟨_, rfl, sound_bool _⟩

theorem text_ops (a b : String) (op : TT) (hop : op ∈ [TT.doubleequal, .notequal]) :
    ∃ o, Codegen.binOpcode op = some o ∧
      Sound (binop (.str a : Val F) o (.str b)) .bool operatorErrors := by
  simp only [List.mem_cons, List.not_mem_nil, or_false] at hop
  rcases hop with rfl | rfl <;> exact ⟨_, rfl, sound_bool _⟩

theorem operand_num {t other : Ty} {v : Val F} (ht : t = .int ∨ t = .real) (h : Operand t other v) :
    Num v := by
  rcases h with h | ⟨-, -, h⟩
  · rcases ht with rfl | rfl
    · obtain ⟨n, rfl, hn⟩ := h; exact .int n hn
    · obtain ⟨x, rfl⟩ := h; exact .real x
  · obtain ⟨x, rfl⟩ := h; exact .real x

/-- What the checker accepts between numeric types. -/
theorem numeric_accepts {lhs rhs res : Ty} {op : TT} (hl : lhs = .int ∨ lhs = .real)
    (hr : rhs = .int ∨ rhs = .real) (h : Ty.binop lhs op rhs = some res) :
    (op ∈ [TT.plus, .minus, .star, .modulo] ∧ res = if lhs = .int ∧ rhs = .int then .int else .real) ∨
    (op = .slash ∧ res = .real) ∨
    (op = .doubleslash ∧ res = if lhs = .int ∧ rhs = .int then .int else .real) ∨
    (op ∈ [TT.greater, .less, .greatereq, .lesseq, .doubleequal, .notequal] ∧ res = .bool) := by
  rcases hl with rfl | rfl <;> rcases hr with rfl | rfl <;>
    simp only [Ty.binop, Ty.primitiveBinop, Ty.isOperable, Ty.isPrim, Ty.isNumeric] at h <;>
    (cases op <;> simp at h <;> subst h <;> simp)

theorem same_accepts {t res : Ty} {op : TT} (ht : t = .bool ∨ t = .texto)
    (h : Ty.binop t op t = some res) :
    res = .bool ∧ (op ∈ [TT.doubleequal, .notequal] ∨ (t = .bool ∧ op ∈ [TT.e, .ou])) := by
  rcases ht with rfl | rfl <;>
    simp only [Ty.binop, Ty.primitiveBinop, Ty.isOperable, Ty.isPrim, Ty.isNumeric] at h <;>
    (cases op <;> simp at h <;> simp_all)

theorem basic_accepts {lhs rhs res : Ty} {op : TT} (hl : Basic lhs) (hr : Basic rhs)
    (h : Ty.binop lhs op rhs = some res) :
    ((lhs = .int ∨ lhs = .real) ∧ (rhs = .int ∨ rhs = .real)) ∨
    (lhs = rhs ∧ (lhs = .bool ∨ lhs = .texto)) := by
  cases hl <;> cases hr <;> first
    | exact .inl ⟨.inl rfl, .inl rfl⟩
    | exact .inl ⟨.inl rfl, .inr rfl⟩
    | exact .inl ⟨.inr rfl, .inl rfl⟩
    | exact .inl ⟨.inr rfl, .inr rfl⟩
    | exact .inr ⟨rfl, .inl rfl⟩
    | exact .inr ⟨rfl, .inr rfl⟩
    | (exfalso
       simp only [Ty.binop, Ty.primitiveBinop, Ty.isOperable, Ty.isPrim, Ty.isNumeric] at h
       cases op <;> simp [Ty.eqv, Ty.eqD, Ty.promotionTo, Ty.autoCast] at h)

/-- **C35, operators on basic types.** Whenever the checker accepts a binary operator between `int`,
`real`, `bool` and `texto`, there is an instruction for it, and the VM computes a value of the
announced type or stops with a documented error.

Missing: `//` with a `real` operand, and `==`/`!=` with operands of other types; both are broken,
see `operators_violated`. -/
theorem operators_sound_partial (lhs rhs res : Ty) (op : TT) (hl : Basic lhs) (hr : Basic rhs)
    (hop : op = .doubleslash → lhs = .int ∧ rhs = .int) (h : Ty.binop lhs op rhs = some res)
    (v w : Val F) (hv : Operand lhs rhs v) (hw : Operand rhs lhs w) :
    ∃ o, Codegen.binOpcode op = some o ∧ Sound (binop v o w) res operatorErrors := by
  rcases basic_accepts hl hr h with ⟨nl, nr⟩ | ⟨rfl, hs⟩
  · have gv := operand_num nl hv
    have gw := operand_num nr hw
    have hint : SomeReal v w ↔ ¬ (lhs = .int ∧ rhs = .int) := by
      rcases nl with rfl | rfl <;> rcases nr with rfl | rfl <;>
        simp only [Operand, Shape] at hv hw <;> simp at hv hw
      · obtain ⟨n, rfl, -⟩ := hv; obtain ⟨m, rfl, -⟩ := hw; simp [SomeReal, Val.isFloat]
      · obtain ⟨m, rfl⟩ := hw; simp [SomeReal, Val.isFloat]
      · obtain ⟨m, rfl⟩ := hv; simp [SomeReal, Val.isFloat]
      · obtain ⟨m, rfl⟩ := hv; simp [SomeReal, Val.isFloat]
    rcases numeric_accepts nl nr h with ⟨ho, rfl⟩ | ⟨rfl, rfl⟩ | ⟨rfl, rfl⟩ | ⟨ho, rfl⟩
    · obtain ⟨o, e, h1, h2⟩ := num_ops gv gw op ho
      refine ⟨o, e, ?_⟩
      by_cases hi : lhs = .int ∧ rhs = .int
      · rw [if_pos hi]; exact h2 (fun k => hint.1 k hi)
      · rw [if_neg hi]; exact h1 (hint.2 hi)
    · exact ⟨_, rfl, num_div gv gw⟩
    · obtain ⟨rfl, rfl⟩ := hop rfl
      rw [if_pos ⟨rfl, rfl⟩]
      refine ⟨_, rfl, ?_⟩
      simp only [Operand, Shape] at hv hw
      simp at hv hw
      obtain ⟨n, rfl, -⟩ := hv
      obtain ⟨m, rfl, -⟩ := hw
      exact num_floordiv
    · exact num_compare gv gw op ho
  · obtain ⟨rfl, ho⟩ := same_accepts hs h
    rcases hs with rfl | rfl
    · have hv : ∃ a, v = .bool a := hv.elim id (fun k => nomatch k.1)
      have hw : ∃ a, w = .bool a := hw.elim id (fun k => nomatch k.1)
      obtain ⟨a, rfl⟩ := hv
      obtain ⟨b, rfl⟩ := hw
      refine bool_ops a b op ?_
      simp only [List.mem_cons, List.not_mem_nil, or_false] at ho ⊢
      rcases ho with (rfl | rfl) | ⟨-, rfl | rfl⟩ <;> simp
    · simp only [Operand, Shape] at hv hw
      simp at hv hw
      obtain ⟨a, rfl⟩ := hv
      obtain ⟨b, rfl⟩ := hw
      refine text_ops a b op ?_
      rcases ho with ho | ⟨k, -⟩
      · exact ho
      · cases k

example : Ty.binop .int .slash .int = some .real ∧
    binop (.int 7 : Val WholeFloat) .opDiv (.int 0) = .error (.err msgDivZero) := by decide +kernel

/-- **C35, comparison with `nulo`.** A comparison of which one side has type `nulo` compiles to the
null test, which accepts every value, so it cannot fail. -/
theorem null_comparison_sound (op : TT) (hop : op = .doubleequal ∨ op = .notequal) (lhs rhs : Ty)
    (h : lhs = .nulo ∨ rhs = .nulo) (ctx : GenCtx) (left right : G Unit) (prom : Ty) :
    ∃ operand neg, (operand = left ∨ operand = right) ∧
      Codegen.genBinop ctx op left right lhs rhs prom = Codegen.genNullTest operand neg := by
  unfold Codegen.genBinop Codegen.nullTest
  rcases hop with rfl | rfl <;> by_cases hl : lhs = .nulo
  · exact ⟨right, false, .inr rfl, by simp [hl]⟩
  · exact ⟨left, false, .inl rfl, by simp [hl, h.resolve_left hl]⟩
  · exact ⟨right, true, .inr rfl, by simp [hl]⟩
  · exact ⟨left, true, .inl rfl, by simp [hl, h.resolve_left hl]⟩

/-- **C35, unary operators.** `-` and `nao` give a value of the announced type.

Missing: unary `+`, for which there is no instruction, and the negation of the least integer, which
is not representable; see `operators_violated`. -/
theorem unary_sound_partial (t res : Ty) (op : TT) (h : Ty.unaryop t op = some res) (hop : op ≠ .plus)
    (cfg : Cfg) (v : Val F) (hv : Shape t v) (hmin : v ≠ .int (-(2 ^ 63))) :
    ∃ o r, Codegen.unOpcode op = some o ∧ unary cfg o v = some r ∧ Shape res r := by
  unfold Ty.unaryop at h
  split at h <;> cases h
  · exact absurd rfl hop
  · obtain ⟨n, rfl, hn⟩ := hv
    have : InI64 (-n) := by
      have : n ≠ -(2 ^ 63) := fun k => hmin (by rw [k])
      unfold InI64 at hn ⊢
      omega
    exact ⟨_, _, rfl, by simp only [unary]; rw [if_pos this], _, rfl, this⟩
  · exact absurd rfl hop
  · obtain ⟨x, rfl⟩ := hv
    exact ⟨_, _, rfl, rfl, _, rfl⟩
  · obtain ⟨b, rfl⟩ := hv
    exact ⟨_, _, rfl, rfl, _, rfl⟩

/-- **C35, violated.** Operators the checker accepts although the VM crashes on values of the operand
types: equality of registos (always), of `indef` with a basic type, of an optional value that is
`nulo`.  `//` on reals announces `real` but gives an integer.  Unary `+` is accepted but the
generator has no instruction for it.  Negating the least integer crashes a debug build. -/
theorem operators_violated :
    (∀ m n m' n', Ty.binop (.registo m n) .doubleequal (.registo m' n') = some .bool) ∧
    (∀ c d, binop (.regobj c : Val F) .opEq (.regobj d) = .error .panic) ∧
    Ty.binop .indef .doubleequal .int = some .bool ∧
    (∀ s n, binop (.str s : Val F) .opEq (.int n) = .error .panic) ∧
    Ty.binop (opt .int) .doubleequal .int = some .bool ∧
    (∀ n, binop (.none : Val F) .opEq (.int n) = .error .panic) ∧
    Ty.binop .real .doubleslash .real = some .real ∧
    (∀ x y r, binop (.f64 x : Val F) .opFloordiv (.f64 y) = .ok r → ¬ Shape .real r) ∧
    Ty.unaryop .int .plus = some .int ∧ Codegen.unOpcode .plus = none ∧
    (∀ cfg : Cfg, cfg.debug = true → unary cfg .opInvert (.int (-(2 ^ 63)) : Val F) = none) := by
  refine ⟨fun _ _ _ _ => rfl, fun _ _ => rfl, by decide, fun _ _ => rfl, by decide, fun _ => rfl, by decide,
    ?_, by decide, rfl, ?_⟩
  · intro x y r h
    simp only [binop, resType, Val.isFloat, Val.takeInt, arithOps] at h
    rintro ⟨z, rfl⟩
    change (if FloatOps.toInt y = 0 then _ else _) = _ at h
    split at h
    · cases h
    · change (match checkedDiv _ _ with | some n => _ | none => _) = _ at h
      split at h <;> cases h
  · intro cfg h
    have : ¬ InI64 (-(-(2 ^ 63))) := by decide
    simp only [unary]
    rw [if_neg this, if_pos h]

/-! ## C36: conversions -/

/-- The type object of a basic type in the VM. -/
def basicVTy : Ty → VTy
  | .prim .int => .int
  | .prim .real => .real
  | .prim .bool => .bool
  | _ => .texto

/-- The documented conversion errors: a text that is no number, and an `indef` value of another
type. -/
inductive ConversionError : Val F → Ty → String → Prop
  | notInt (s) : parseI64 s = none →
      ConversionError (.str s) .int ("A sequência de caracteres '" ++ s ++ "' não é um inteiro válido")
  | notReal (s) : (FloatOps.parse s : Option F) = none →
      ConversionError (.str s) .real ("A sequência de caracteres '" ++ s ++ "' não é um número real válido")
  | other (v) (vt : VTy) (t) : v.getType = .ok vt → vt ≠ basicVTy t →
      ConversionError v t ("Conversão inválida. O tipo original do valor é '" ++ vt.name ++
        "', mas tentou converter o valor para o tipo '" ++ (basicVTy t).name ++ "'")

/-- Conversion of a value of a basic type to another basic type. -/
theorem castVal_sound [LawfulFloatOps F] (heap : Heap F) (a b : Ty) (ha : Basic a) (hb : Basic b)
    (hc : Ty.checkCast a b = .ok true) (hne : a ≠ b) (v : Val F) (hv : Shape a v) :
    (∃ r, castVal heap v (basicVTy b) = .ok r ∧ Shape b r) ∨
    ∃ msg, ConversionError v b msg ∧ castVal heap v (basicVTy b) = .error (.err msg) := by
  cases ha with
  | int =>
      obtain ⟨n, rfl, hn⟩ := hv
      cases hb with
      | int => exact absurd rfl hne
      | real => exact .inl ⟨_, rfl, _, rfl⟩
      | bool => exact .inl ⟨_, rfl, _, rfl⟩
      | texto => exact .inl ⟨_, rfl, _, rfl⟩
  | real =>
      obtain ⟨x, rfl⟩ := hv
      cases hb with
      | int => exact .inl ⟨_, rfl, _, rfl, LawfulFloatOps.toInt_range x⟩
      | real => exact absurd rfl hne
      | bool => exact .inl ⟨_, rfl, _, rfl⟩
      | texto => exact .inl ⟨_, rfl, _, rfl⟩
  | bool =>
      obtain ⟨x, rfl⟩ := hv
      cases hb with
      | int => exact absurd hc (by decide)
      | real => exact absurd hc (by decide)
      | bool => exact absurd rfl hne
      | texto => exact .inl ⟨_, rfl, _, rfl⟩
  | texto =>
      obtain ⟨s, rfl⟩ := hv
      cases hb with
      | int =>
          cases h : parseI64 s with
          | none => exact .inr ⟨_, .notInt s h, by simp only [basicVTy, castVal, h]⟩
          | some n =>
              refine .inl ⟨.int n, by simp only [basicVTy, castVal, h], n, rfl, ?_⟩
              unfold parseI64 at h
              obtain ⟨m, -, hm⟩ := Option.bind_eq_some_iff.1 h
              unfold checked at hm
              split at hm
              · cases hm; assumption
              · cases hm
      | real =>
          cases h : (FloatOps.parse s : Option F) with
          | none => exact .inr ⟨_, .notReal s h, by simp only [basicVTy, castVal, h]⟩
          | some x => exact .inl ⟨.f64 x, by simp only [basicVTy, castVal, h], x, rfl⟩
      | bool => exact .inl ⟨_, rfl, _, rfl⟩
      | texto => exact absurd rfl hne

/-- **C36.** An accepted conversion between basic types, or of an `indef` value that the VM can name
the type of: the `CAST` instruction with the argument the compiler writes continues with a value of
the new type, or stops with a documented conversion error.

Missing: `indef` holding `nulo`, a registo or a variant, and conversions to `T?`; the VM crashes on
them, see `conversions_violated`. -/
theorem conversions_sound_partial [LawfulFloatOps F] (prog : Program F) (a b : Ty)
    (ha : Basic a ∨ a = .indef) (hb : Basic b) (hc : Ty.checkCast a b = .ok true) (hne : a ≠ b)
    (v : Val F) (hv : Shape a v) (hi : ∀ n, v = .int n → InI64 n)
    (hk : a = .indef → ∃ vt, v.getType = .ok vt)
    (vm vm1 vm2 : VM F) (h1 : vm.pop = .ok (.type (basicVTy b), vm1)) (h2 : vm1.pop = .ok (v, vm2)) :
    (∃ r, Shape b r ∧
      execCast prog vm (if a.eqv .indef then 1 else 0) = (vm2.push r).bind VM.advance) ∨
    ∃ msg, ConversionError v b msg ∧
      execCast prog vm (if a.eqv .indef then 1 else 0) = .error (throwErr prog vm2 msg) := by
  unfold execCast
  simp only [h1, Val.takeType]
  rcases ha with ha | rfl
  · have hni : a.eqv .indef = false := by cases ha <;> rfl
    rw [hni]
    rcases castVal_sound vm2.world.heap a b ha hb hc hne v hv with ⟨r, hr, hs⟩ | ⟨msg, hm, he⟩
    · refine .inl ⟨r, hs, ?_⟩
      simp [bind, Except.bind, Res.lift, h2, hr]
    · refine .inr ⟨msg, hm, ?_⟩
      simp [bind, Except.bind, Res.lift, h2, he]
  · obtain ⟨vt, ht⟩ := hk rfl
    have : Ty.indef.eqv Ty.indef = true := rfl
    rw [this]
    simp only [bind, Except.bind, Res.lift, h2, ht, checkCast]
    by_cases he : vt = basicVTy b
    · refine .inl ⟨v, ?_, by simp [he]⟩
      subst he
      cases hb <;> cases v <;> simp [Val.getType, basicVTy] at ht
      · exact ⟨_, rfl, hi _ rfl⟩
      · exact ⟨_, rfl⟩
      · exact ⟨_, rfl⟩
      · exact ⟨_, rfl⟩
    · refine .inr ⟨_, .other v vt b ht he, by simp [he]⟩

example : Ty.checkCast .indef .int = .ok true ∧ Ty.checkCast .texto .real = .ok true := by decide

/-- `mostra 1 :> int?` -/
def optCastModule : Codegen.ModuleIn :=
  { path := "/m.ama", builtin := false, scope := 0
    body := [.mostra 1 (.converta 1 (.const 1 "1" .unknown) .int (opt .int))] }

def optCastEnv : SymEnv := { syms := [], scopes := [{ symbols := [], parent := none }] }

/-- The compiled program, run by the VM. -/
def optCastRun (debug : Bool) : Option RunResult :=
  match Codegen.compileProgram optCastEnv "/embutidos.ama" optCastModule
      [{ path := "/embutidos.ama", builtin := true, scope := 0, body := [] }] with
  | .ok image => some (runImage WholeFloat { debug := debug, graphemes := fun _ => [] } 100 [] image)
  | .error _ => none

end

/-- **C36, violated.** Conversions the checker accepts although the VM crashes: of an `indef` that
holds `nulo` or a registo, and every conversion to an optional type. -/
theorem conversions_violated :
    Ty.checkCast .indef .int = .ok true ∧
    (∀ {F : Type} [FloatOps F] (prog : Program F) (vm vm1 vm2 : VM F) (v : Val F),
      v = .none ∨ (∃ c, v = .regobj c) → vm.pop = .ok (.type .int, vm1) → vm1.pop = .ok (v, vm2) →
      execCast prog vm 1 = .error (.panic vm2)) ∧
    Ty.checkCast .int (opt .int) = .ok true ∧
    (∀ debug, optCastRun debug = some (.panicked "")) := by
  refine ⟨by decide, ?_, by decide, ?_⟩
  · intro F _ prog vm vm1 vm2 v hv h1 h2
    unfold execCast
    rcases hv with rfl | ⟨c, rfl⟩ <;>
      simp [bind, Except.bind, Res.lift, h1, h2, Val.takeType, Val.getType]
  · intro debug
    cases debug <;> decide +kernel

end Amanda

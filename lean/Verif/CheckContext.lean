import Verif.FragState

/-!
# The checker comes back to where it was

Used by C65.  `Within` follows a function of the checker from one place (scope, nesting, function, loop, type context) to
another, with what it may define on the way.
-/

namespace Amanda.Check

/-! ## Places and steps -/

/-- Where an analyzer is (check/core.py:97-125). -/
structure Place where
  outer : ScopeId
  «scope» : ScopeId
  depth : Nat
  func : Option SymId
  loop : Bool
  tys : ScopeId
  yields : Bool

/-- The place of an analyzer; the line, the flag for records and what a yield block has produced so far are left out. -/
def Ana.place (a : Ana) : Place := ⟨a.globalScope, a.ctxScope, a.depth, a.ctxFunc, a.inLoop, a.tyCtx, a.yield.isSome⟩

/-- The analyzers that wait, the modules that are checked and those that have been. -/
def CState.shelf (s : CState) : List Ana × List (Bool × List AStmt) × List ModInfo := (s.waiting, s.open_, s.mods)

/-- The scope around a scope. -/
def parentOf (s : CState) (i : ScopeId) : Option ScopeId := (s.scopes[i]?).bind ScopeTab.parent

/-- Scopes are made after the scopes around them. -/
structure Rooted (s : CState) : Prop where
  down : ∀ i p : Nat, parentOf s i = some p → p < i
  here : (s.ana.ctxScope : Nat) < s.scopes.length
  tys : (s.ana.tyCtx : Nat) < s.scopes.length

/-- From one state to a later one: of the first `n` scopes, names are defined only where `D` says so. -/
structure Onward (n : Nat) (D : ScopeId → String → Prop) (s s' : CState) : Prop where
  grows : s.scopes.length ≤ s'.scopes.length
  par : ∀ i : Nat, i < s.scopes.length → parentOf s' i = parentOf s i
  same : ∀ (i : Nat) m, i < n → ¬ D i m → lookIn s'.scopes i m = lookIn s.scopes i m
  waits : s'.shelf = s.shelf
  keeps : ∀ (i : ScopeId) m, (lookIn s.scopes i m).isSome → (lookIn s'.scopes i m).isSome
  names : ∀ (i : SymId) m, (s.syms[i]?).map CSym.name = some m → (s'.syms[i]?).map CSym.name = some m

/-- What is known of a scope or a symbol, or of something else than the state. -/
inductive Known where
  | inside (sc p : ScopeId)
  | named (i : SymId) (name : String)
  | bound (sc : ScopeId) (name : String)
  | fact (p : Prop)

/-- It holds: the scope is none of the first `n`. -/
def Known.holds (n : Nat) (s : CState) : Known → Prop
  | .inside sc p => n ≤ (sc : Nat) ∧ parentOf s sc = some p
  | .named i m => (s.syms[i]?).map CSym.name = some m
  | .bound sc m => (lookIn s.scopes sc m).isSome
  | .fact p => p

theorem parentOf_lt {s : CState} {i : Nat} {p : ScopeId} (h : parentOf s i = some p) : i < s.scopes.length := by
  unfold parentOf at h
  cases hi : s.scopes[i]? with
  | none => rw [hi] at h; cases h
  | some t => exact (List.getElem?_eq_some_iff.mp hi).1

theorem Known.holds.later {n : Nat} {D : ScopeId → String → Prop} {s s' : CState} {w : Known} (h : w.holds n s) (o : Onward n D s s') :
    w.holds n s' := by
  cases w with
  | inside sc p => exact ⟨h.1, (o.par _ (parentOf_lt h.2)).trans h.2⟩
  | named i m => exact o.names _ _ h
  | bound sc m => exact o.keeps _ _ h
  | fact p => exact h

theorem Onward.refl {n : Nat} {D : ScopeId → String → Prop} {s : CState} : Onward n D s s :=
  ⟨Nat.le_refl _, fun _ _ => rfl, fun _ _ _ _ => rfl, rfl, fun _ _ h => h, fun _ _ h => h⟩

theorem Onward.trans {n : Nat} {D : ScopeId → String → Prop} {s s1 s2 : CState} (h : Onward n D s s1) (h' : Onward n D s1 s2) :
    Onward n D s s2 :=
  ⟨Nat.le_trans h.grows h'.grows, fun i hi => (h'.par i (Nat.lt_of_lt_of_le hi h.grows)).trans (h.par i hi),
    fun i m hi hd => (h'.same i m hi hd).trans (h.same i m hi hd), h'.waits.trans h.waits, fun i m hm => h'.keeps i m (h.keeps i m hm),
    fun i m hm => h'.names i m (h.names i m hm)⟩

/-! ## Functions that leave scopes alone -/

/-- The function changes no scope, no place and no name of a symbol. -/
class Still {α : Type} (m : C α) : Prop where
  run : ∀ s a s', m s = .ok (a, s') → s'.scopes = s.scopes ∧ s'.ana.place = s.ana.place ∧ s'.shelf = s.shelf ∧
    ∀ (i : SymId) n, (s.syms[i]?).map CSym.name = some n → (s'.syms[i]?).map CSym.name = some n

section
variable {α β : Type}

theorem Still.bind {m : C α} {f : α → C β} (h : Still m) (hf : ∀ a, Still (f a)) : Still (m >>= f) := by
  constructor
  intro s b s' hb
  obtain ⟨a, s1, h1, h2⟩ := C.bind_ok.mp hb
  have e1 := h.run _ _ _ h1
  have e2 := (hf a).run _ _ _ h2
  exact ⟨e2.1.trans e1.1, e2.2.1.trans e1.2.1, e2.2.2.1.trans e1.2.2.1, fun i n hn => e2.2.2.2 i n (e1.2.2.2 i n hn)⟩

instance {a : α} : Still (pure a : C α) := ⟨fun s b s' h => by obtain ⟨-, rfl⟩ := C.pure_ok.mp h; exact ⟨rfl, rfl, rfl, fun _ _ h => h⟩⟩
instance {n : String} : Still (C.raise n : C α) := ⟨fun _ _ _ h => (C.raise_ok.mp h).elim⟩
instance {n : String} : Still (C.error n : C α) := ⟨fun _ _ _ h => (C.error_ok.mp h).elim⟩
instance : Still C.get := ⟨fun s b s' h => by obtain ⟨-, rfl⟩ := C.get_ok.mp h; exact ⟨rfl, rfl, rfl, fun _ _ h => h⟩⟩
instance {t : Token} {m : String} : Still (C.errorAt t m : C α) := ⟨fun _ _ _ h => nomatch h⟩
instance {t : Token} : Still (C.at_ t) := ⟨fun s b s' h => by obtain rfl := C.at_ok.mp h; exact ⟨rfl, rfl, rfl, fun _ _ h => h⟩⟩
instance {r : Except PyErr α} : Still (C.lift r) := ⟨fun s b s' h => by obtain ⟨-, rfl⟩ := C.lift_ok.mp h; exact ⟨rfl, rfl, rfl, fun _ _ h => h⟩⟩

theorem Still.modify {f : CState → CState} (h : ∀ s, (f s).scopes = s.scopes ∧ (f s).ana.place = s.ana.place ∧ (f s).shelf = s.shelf ∧
    (f s).syms = s.syms) :
    Still (C.modify f) :=
  ⟨fun s b s' e => by obtain rfl := C.modify_ok.mp e; exact ⟨(h s).1, (h s).2.1, (h s).2.2.1, fun _ _ hn => (h s).2.2.2.symm ▸ hn⟩⟩

theorem Still.ite {c : Prop} [Decidable c] {m m' : C α} (h : Still m) (h' : Still m') : Still (if c then m else m') := by
  split
  · exact h
  · exact h'

theorem Still.upd {i : SymId} {f : CSym → CSym} (h : ∀ x, (f x).name = x.name) : Still (updSym i f) := by
  constructor
  intro s b s' e
  obtain rfl := C.modify_ok.mp e
  refine ⟨rfl, rfl, rfl, fun j n hj => ?_⟩
  show ((s.syms.modify i f)[j]?).map CSym.name = some n
  rw [List.getElem?_modify]
  cases hs : s.syms[j]? with
  | none => rw [hs] at hj; cases hj
  | some x =>
    rw [hs] at hj
    by_cases hij : i = j <;> simp [hij, h] <;> simpa using hj

end

/-- Steps through a function of the checker. -/
macro "still" : tactic => `(tactic| repeat' first
  | assumption
  | infer_instance
  | (refine Still.upd fun _ => ?_; first | rfl | (split <;> rfl))
  | exact Still.modify fun _ => ⟨rfl, rfl, rfl, rfl⟩
  | exact Still.modify fun _ => ⟨rfl, by simp [Ana.place], rfl, rfl⟩
  | dsimp only
  | refine Still.ite ?_ ?_
  | refine Still.bind ?_ (fun _ => ?_)
  | split)

instance {i : SymId} : Still (symOf i) := ⟨fun s a s' h => by obtain ⟨-, rfl⟩ := symOf_ok.mp h; exact ⟨rfl, rfl, rfl, fun _ _ h => h⟩⟩
instance {x : CSym} : Still (newSym x) := ⟨fun s a s' h => by
  obtain ⟨-, rfl⟩ := newSym_ok.mp h
  refine ⟨rfl, rfl, rfl, fun i n hn => ?_⟩
  have hl : i < s.syms.length := by
    by_contra hc
    rw [List.getElem?_eq_none (Nat.le_of_not_lt hc)] at hn
    cases hn
  show ((s.syms ++ [x])[i]?).map _ = _
  rw [List.getElem?_append_left hl]
  exact hn⟩
instance {sc : ScopeId} : Still (symbolsOf sc) := ⟨fun s a s' h => by obtain ⟨-, rfl⟩ := symbolsOf_ok.mp h; exact ⟨rfl, rfl, rfl, fun _ _ h => h⟩⟩
instance {sc : ScopeId} {n : String} : Still (getIn sc n) := by unfold getIn; still
instance {sc : ScopeId} {n : String} : Still (resolveIn sc n) := ⟨fun s a s' h => by
  unfold resolveIn at h; cases h; exact ⟨rfl, rfl, rfl, fun _ _ h => h⟩⟩
instance {n : String} : Still (resolve n) := by unfold resolve; still
instance {t : CTy} : Still (view t) := by unfold view; still
instance {t : CTy} : Still (showTy t) := by unfold showTy; still
instance {t u : CTy} : Still (sameTy t u) := by unfold sameTy; still
instance {t u : CTy} : Still (promTy t u) := by unfold promTy; still
instance {t u : CTy} : Still (matchTy t u) := by unfold matchTy; still
instance {t : CTy} : Still (tagOf t) := by unfold tagOf; still
instance {i : SymId} : Still (symTy i) := by unfold symTy; still
instance {n : String} : Still (namedTy n) := by unfold namedTy; still
instance {n : String} : Still (globalTy n) := by unfold globalTy; still
instance {n : String} : Still (typeSym n) := by unfold typeSym; still
instance {t : CTy} : Still (tyParams t) := by unfold tyParams; still
instance {t : CTy} {as : CArgs} : Still (bindTy t as) := by unfold bindTy; still
instance {t : CTy} : Still (optionOf t) := by unfold optionOf; still
instance {sc : ScopeId} {n : String} : Still (modOf sc n) := by unfold modOf; still
instance {n : String} : Still (modScope n) := by unfold modScope; still

theorem modPathOf_still : ∀ (l : List String) (p : String), Still (modPathOf p l)
  | [], _ => by unfold modPathOf; still
  | c :: cs, p => by
      unfold modPathOf
      have := modPathOf_still cs
      still

instance {p : String} {l : List String} : Still (modPathOf p l) := modPathOf_still l p

theorem constructTy_still {t : CTy} {b : Bool} {as : Option (C (List CTy))} {n : Nat} (h : ∀ m, as = some m → Still m) :
    Still (constructTy t b as n) := by
  unfold constructTy
  split
  · infer_instance
  · split
    · infer_instance
    · have := h _ rfl
      still

theorem pathTy_still {comps : List (List Char)} {b : Bool} {as : Option (C (List CTy))} {n : Nat} (h : ∀ m, as = some m → Still m) :
    Still (getTy.pathTy comps b as n) := by
  unfold getTy.pathTy
  have := fun t => constructTy_still (t := t) (b := b) (n := n) h
  still

mutual
theorem getTy_still : ∀ t, Still (getTy t)
  | .name tok maybe none => by
      unfold getTy
      have := fun t => constructTy_still (t := t) (b := maybe) (as := none) (n := 0) (by simp)
      still
  | .name tok maybe (some args) => by
      unfold getTy
      have := getTys_still args
      have := fun t => constructTy_still (t := t) (b := maybe) (as := some (getTys args)) (n := args.length) (by simpa using this)
      still
  | .path _ comps maybe none => by unfold getTy; exact pathTy_still (by simp)
  | .path _ comps maybe (some args) => by
      unfold getTy
      have := getTys_still args
      exact pathTy_still (by simpa using this)
  | .array el maybe => by
      unfold getTy
      have := getTy_still el
      still
theorem getTys_still : ∀ ts, Still (getTys ts)
  | [] => by unfold getTys; still
  | t :: ts => by
      unfold getTys
      have := getTy_still t
      have := getTys_still ts
      still
end

instance {t : TyExpr} : Still (getTy t) := getTy_still t
instance {ts : List TyExpr} : Still (getTys ts) := getTys_still ts
instance {t : Option TyExpr} : Still (getTy? t) := by unfold getTy?; still

instance {as : CArgs} {i : SymId} : Still (bindVar as i) := by unfold bindVar; still

theorem bindParams_still {as : CArgs} : ∀ l, Still (bindParams as l)
  | [] => by unfold bindParams; still
  | (n, i) :: rest => by
      unfold bindParams
      have := bindParams_still (as := as) rest
      still

instance {as : CArgs} {l : List (String × SymId)} : Still (bindParams as l) := bindParams_still l

theorem genericParams_still : ∀ l, Still (genericParams l)
  | [] => by unfold genericParams; still
  | (n, i) :: rest => by
      unfold genericParams
      have := genericParams_still rest
      still

instance {l : List (String × SymId)} : Still (genericParams l) := genericParams_still l
instance {as : CArgs} {i : SymId} : Still (bindSym as i) := by unfold bindSym; still
instance {o : SymId} {p : String} : Still (objProperty o p) := by unfold objProperty; still
instance {t : CTy} {p : String} : Still (getProperty t p) := by unfold getProperty; still
instance {t : CTy} {n : String} {i : SymId} : Still (defineMethod t n i) := by unfold defineMethod; still
instance {par : Par} {t : CTy} {m : Token} : Still (getProp par t m) := by unfold getProp; still

theorem downPath_still : ∀ (l : List Token) (i : SymId), Still (downPath i l)
  | [], _ => by unfold downPath; still
  | c :: cs, i => by
      unfold downPath
      have := downPath_still cs
      still

instance {i : SymId} {l : List Token} : Still (downPath i l) := downPath_still l i
instance {b : Bool} {l : List Token} : Still (usePath b l) := by unfold usePath; still

instance {m n : String} {t : CTy} : Still (newVar m n t) := by unfold newVar; still

instance {n a b : String} : Still (validateDecl n a b) := by unfold validateDecl; still

instance {t : CTy} {k : Nat} : Still (variantAt t k) := by unfold variantAt; still

instance {vars : List (Nat × SymId)} {v : Iguala.MVar} : Still (treeSym vars v) := by unfold treeSym; still

theorem treeSyms_still {vars : List (Nat × SymId)} : ∀ vs, Still (treeSyms vars vs)
  | [] => by unfold treeSyms; still
  | v :: vs => by
      unfold treeSyms
      have := treeSyms_still (vars := vars) vs
      still

instance {vars : List (Nat × SymId)} {vs : List Iguala.MVar} : Still (treeSyms vars vs) := treeSyms_still vs

theorem bindingSyms_still {vars : List (Nat × SymId)} : ∀ l, Still (bindingSyms vars l)
  | [] => by unfold bindingSyms; still
  | (n, v) :: rest => by
      unfold bindingSyms
      have := bindingSyms_still (vars := vars) rest
      still

instance {vars : List (Nat × SymId)} {l : List (String × Iguala.MVar)} : Still (bindingSyms vars l) := bindingSyms_still l
instance {t : CTy} {k : Iguala.Cons} : Still (consRef t k) := by unfold consRef; still

mutual
theorem annotTree_still {vars : List (Nat × SymId)} {b : Nat → List (String × Iguala.MVar)} : ∀ t, Still (annotTree vars b t)
  | .fail => by unfold annotTree; still
  | .success _ => by unfold annotTree; still
  | .switch v cases none => by
      unfold annotTree
      have := fun u => annotCases_still (vars := vars) (b := b) u cases
      still
  | .switch v cases (some f) => by
      unfold annotTree
      have := fun u => annotCases_still (vars := vars) (b := b) u cases
      have := annotTree_still (vars := vars) (b := b) f
      still
theorem annotCases_still {vars : List (Nat × SymId)} {b : Nat → List (String × Iguala.MVar)} (u : CTy) :
    ∀ cs, Still (annotCases vars b u cs)
  | [] => by unfold annotCases; still
  | (k, args, t) :: rest => by
      unfold annotCases
      have := annotTree_still (vars := vars) (b := b) t
      have := annotCases_still (vars := vars) (b := b) u rest
      still
end

instance {vars : List (Nat × SymId)} {b : Nat → List (String × Iguala.MVar)} {t : Iguala.MTree} : Still (annotTree vars b t) :=
  annotTree_still t

/-! ## The parts of visits -/

instance {t : Token} : Still (constTy t) := by unfold constTy; still
instance {n a : Nat} {d : String} : Still (checkArity n d a) := by unfold checkArity; still
instance {x : CSym} : Still (callDesc x) := by unfold callDesc; still

theorem promArgs_still : ∀ as ts, Still (promArgs as ts)
  | [], _ => by unfold promArgs; still
  | _ :: _, [] => by unfold promArgs; still
  | a :: as, t :: ts => by
      unfold promArgs
      have := promArgs_still as ts
      still

instance {as : List AExpr} {ts : List CTy} : Still (promArgs as ts) := promArgs_still as ts

theorem paramTys_still : ∀ l, Still (paramTys l)
  | [] => by unfold paramTys; still
  | (_, i) :: rest => by
      unfold paramTys
      have := paramTys_still rest
      still

instance {l : List (String × SymId)} : Still (paramTys l) := paramTys_still l

theorem promVariant_still : ∀ as ts i, Still (promVariant as ts i)
  | [], _, _ => by unfold promVariant; still
  | _ :: _, [], _ => by unfold promVariant; still
  | a :: as, t :: ts, i => by
      unfold promVariant
      have := promVariant_still as ts
      still

instance {as : List AExpr} {ts : List CTy} {i : Nat} : Still (promVariant as ts i) := promVariant_still as ts i

theorem fieldTys_still : ∀ l, Still (fieldTys l)
  | [] => by unfold fieldTys; still
  | (_, i) :: rest => by
      unfold fieldTys
      have := fieldTys_still rest
      still

instance {l : List (String × SymId)} : Still (fieldTys l) := fieldTys_still l

instance {i : SymId} : Still (declaredVar i) := by unfold declaredVar; still
instance {b : Bool} {ps : List Param} : Still (checkNumParams b ps) := by unfold checkNumParams; still

theorem markFields_still : ∀ l, Still (markFields l)
  | [] => by unfold markFields; still
  | (_, i) :: rest => by
      unfold markFields
      have := markFields_still rest
      still

instance {l : List (String × SymId)} : Still (markFields l) := markFields_still l

theorem checkRange_still : ∀ l, Still (checkRange l)
  | [] => by unfold checkRange; still
  | e :: es => by
      unfold checkRange
      have := checkRange_still es
      still

instance {l : List AExpr} : Still (checkRange l) := checkRange_still l

instance {t : Token} : Still (useVar t) := by unfold useVar; still
instance {t : Token} {n : String} : Still (assertFree t n) := by unfold assertFree; still
instance {m n : String} {t : Token} {l r : AExpr} : Still (assignTy m t n l r) := by unfold assignTy; still
instance {t : Token} {a b : AExpr} : Still (binTy t a b) := by unfold binTy; still
instance {t : Token} {a : AExpr} : Still (unTy t a) := by unfold unTy; still
instance {t : Token} {a b : AExpr} : Still (indexTy t a b) := by unfold indexTy; still
instance {t : CTy} : Still (indexSetOk t) := by unfold indexSetOk; still
instance {t : Token} {a : AExpr} {u : CTy} : Still (convTy t a u) := by unfold convTy; still
instance {m : String} {t : Token} : Still (alvoTy m t) := by unfold alvoTy; still
instance {n : String} {as : List AExpr} : Still (vecOp n as) := by unfold vecOp; still
instance {as : List AExpr} : Still (tamOp as) := by unfold tamOp; still
instance {e : Expr} {n : Nat} : Still (vecTy e n) := by unfold vecTy; still
instance {i : SymId} : Still (callKind i) := by unfold callKind; still
instance {e : AExpr} {t : Option Token} {m : String} : Still (condTag e t m) := by unfold condTag; still
instance {t : Token} {b : Bool} : Still (retornaTy t b) := by unfold retornaTy; still

theorem paramSyms_still {m : String} : ∀ (ps : List Param) acc, Still (paramSyms m ps acc)
  | [], _ => by unfold paramSyms; still
  | p :: ps, acc => by
      unfold paramSyms
      have := paramSyms_still (m := m) ps
      still

instance {m : String} {ps : List Param} {acc : List (String × SymId)} : Still (paramSyms m ps acc) := paramSyms_still ps acc

theorem declareVariants_still {m : String} {u : SymId} : ∀ (vs : List UniaoVariant) k, Still (declareVariants m u vs k)
  | [], _ => by unfold declareVariants; still
  | v :: vs, k => by
      unfold declareVariants
      have := declareVariants_still (m := m) (u := u) vs
      still

instance {m : String} {u : SymId} {vs : List UniaoVariant} {k : Nat} : Still (declareVariants m u vs k) := declareVariants_still vs k

instance {x : AExpr} : Still (checkSel x) := by unfold checkSel; still
instance {x : AExpr} : Still (checkSize x) := by unfold checkSize; still



/-! ## The judgement -/

/-- Started at place `P` with `W` known, the function ends at `P'` and tells `R`; of the first `n` scopes it changes only
what `D` allows. -/
class Within {α : Type} (P P' : Place) (n : Nat) (D : ScopeId → String → Prop) (W : List Known) (R : α → List Known) (m : C α) :
    Prop where
  run : ∀ s a s', s.ana.place = P → n ≤ s.scopes.length → Rooted s → (∀ w ∈ W, w.holds n s) → m s = .ok (a, s') →
    s'.ana.place = P' ∧ Rooted s' ∧ Onward n D s s' ∧ ∀ w ∈ R a, w.holds n s'

/-- The function comes back to the place where it began. -/
abbrev Back {α : Type} (P : Place) (n : Nat) (D : ScopeId → String → Prop) (W : List Known) (m : C α) : Prop :=
  Within P P n D W (fun _ => []) m

section
variable {α β : Type} {P P1 P' : Place} {n : Nat} {D : ScopeId → String → Prop} {W : List Known} {R : β → List Known}

theorem Within.bind {R1 : α → List Known} {m : C α} {f : α → C β} (h : Within P P1 n D W R1 m)
    (hf : ∀ a, Within P1 P' n D (R1 a ++ W) R (f a)) : Within P P' n D W R (m >>= f) := by
  constructor
  intro s b s' hp hn hr hw hb
  obtain ⟨a, s1, h1, h2⟩ := C.bind_ok.mp hb
  obtain ⟨e1, r1, o1, k1⟩ := h.run _ _ _ hp hn hr hw h1
  obtain ⟨e2, r2, o2, k2⟩ := (hf a).run _ _ _ e1 (Nat.le_trans hn o1.grows) r1 (fun w hm => by
    rcases List.mem_append.mp hm with hm | hm
    · exact k1 w hm
    · exact (hw w hm).later o1) h2
  exact ⟨e2, r2, o1.trans o2, k2⟩

theorem Within.next {m : C α} {f : α → C β} (h : Back P n D W m) (hf : ∀ a, Within P P' n D W R (f a)) :
    Within P P' n D W R (m >>= f) := Within.bind h hf

theorem Rooted.still {s s' : CState} (h : Rooted s) (e : s'.scopes = s.scopes) (ep : s'.ana.place = s.ana.place) : Rooted s' := by
  have e1 : s'.ana.ctxScope = s.ana.ctxScope := congrArg Place.scope ep
  have e2 : s'.ana.tyCtx = s.ana.tyCtx := congrArg Place.tys ep
  refine ⟨fun i p => ?_, ?_, ?_⟩
  · unfold parentOf; rw [e]; exact h.down i p
  · rw [e, e1]; exact h.here
  · rw [e, e2]; exact h.tys

instance (priority := low) {m : C α} [h : Still m] : Within P P n D W (fun _ => []) m := by
  constructor
  intro s a s' hp hn hr hw hm
  obtain ⟨e, ep, ew, hnames⟩ := h.run _ _ _ hm
  refine ⟨ep.trans hp, hr.still e ep, ⟨e ▸ Nat.le_refl _, fun i _ => by unfold parentOf; rw [e], fun i m _ _ => by rw [e], ew, fun i m h => by rw [e]; exact h, hnames⟩, by simp⟩

theorem Within.get {f : CState → C β} (hf : ∀ s0, s0.ana.place = P → Within P P' n D W R (f s0)) :
    Within P P' n D W R (C.get >>= f) := by
  constructor
  intro s b s' hp hn hr hw hb
  obtain ⟨a, s1, h1, h2⟩ := C.bind_ok.mp hb
  obtain ⟨rfl, rfl⟩ := C.get_ok.mp h1
  exact (hf _ hp).run _ _ _ hp hn hr hw h2

theorem Within.pure {a : β} (h : ∀ w ∈ R a, w ∈ W) : Within P P n D W R (pure a : C β) := by
  constructor
  intro s b s' hp hn hr hw hb
  obtain ⟨rfl, rfl⟩ := C.pure_ok.mp hb
  exact ⟨hp, hr, .refl, fun w hm => hw w (h w hm)⟩

instance {m : String} : Within P P' n D W R (C.error m : C β) := ⟨fun _ _ _ _ _ _ _ h => (C.error_ok.mp h).elim⟩
instance {m : String} : Within P P' n D W R (C.raise m : C β) := ⟨fun _ _ _ _ _ _ _ h => (C.raise_ok.mp h).elim⟩
instance {t : Token} {m : String} : Within P P' n D W R (C.errorAt t m : C β) := ⟨fun _ _ _ _ _ _ _ h => nomatch h⟩

theorem Within.ite {c : Prop} [Decidable c] {m m' : C β} (h : Within P P' n D W R m) (h' : Within P P' n D W R m') :
    Within P P' n D W R (if c then m else m') := by
  split
  · exact h
  · exact h'

/-- A new symbol has its name. -/
theorem Within.newSym {x : CSym} {f : SymId → C β} (hf : ∀ i, Within P P' n D (.named i x.name :: W) R (f i)) :
    Within P P' n D W R (newSym x >>= f) := by
  refine Within.bind (R1 := fun i => [.named i x.name]) ?_ hf
  constructor
  intro s a s' hp hn hr hw hm
  have hb := (inferInstance : Back P n D W (Check.newSym x)).run _ _ _ hp hn hr hw hm
  refine ⟨hb.1, hb.2.1, hb.2.2.1, fun w hw => ?_⟩
  obtain ⟨rfl, rfl⟩ := newSym_ok.mp hm
  obtain rfl := List.mem_singleton.mp hw
  show ((s.syms ++ [x])[s.syms.length]?).map CSym.name = some x.name
  simp

/-- A new scope is inside the given one. -/
theorem Within.newScope {p : ScopeId} {f : ScopeId → C β} (hp : p = P.scope ∨ p = P.tys)
    (hf : ∀ sc, Within P P' n D (.inside sc p :: W) R (f sc)) : Within P P' n D W R (newScope (some p) >>= f) := by
  refine Within.bind (R1 := fun i => [.inside i p]) ?_ hf
  constructor
  intro s a s' hP hn hr hw hm
  obtain ⟨rfl, rfl⟩ := newScope_ok.mp hm
  have hlt : (p : Nat) < s.scopes.length := by
    rcases hp with rfl | rfl
    · rw [← hP]; exact hr.here
    · rw [← hP]; exact hr.tys
  have hpar : ∀ i : Nat, i < s.scopes.length →
      parentOf { s with scopes := s.scopes ++ [⟨[], some p⟩] } i = parentOf s i := by
    intro i hi
    unfold parentOf
    simp only
    rw [List.getElem?_append_left hi]
  have hnew : parentOf { s with scopes := s.scopes ++ [⟨[], some p⟩] } s.scopes.length = some p := by
    unfold parentOf; simp
  refine ⟨hP, ⟨fun i q hq => ?_, ?_, ?_⟩, ⟨by simp, hpar, fun i m hi _ => ?_, rfl, fun i m hi => ?_, fun _ _ h => h⟩, fun w hw => ?_⟩
  · have hi := parentOf_lt hq
    simp only [List.length_append, List.length_cons, List.length_nil] at hi
    rcases Nat.lt_or_ge i s.scopes.length with hlt' | hge
    · exact hr.down i q ((hpar i hlt').symm.trans hq)
    · obtain rfl : i = s.scopes.length := Nat.le_antisymm (Nat.le_of_lt_succ hi) hge
      obtain rfl := Option.some.inj (hnew.symm.trans hq)
      exact hlt
  · simp only [List.length_append]; exact Nat.lt_of_lt_of_le hr.here (Nat.le_add_right _ _)
  · simp only [List.length_append]; exact Nat.lt_of_lt_of_le hr.tys (Nat.le_add_right _ _)
  · unfold lookIn
    simp only
    rw [List.getElem?_append_left (Nat.lt_of_lt_of_le hi hn)]
  · unfold lookIn at hi ⊢
    cases hs : s.scopes[i]? with
    | none => rw [hs] at hi; cases hi
    | some t =>
      simp only
      rw [List.getElem?_append_left (List.getElem?_eq_some_iff.mp hs).1]
      exact hi
  · obtain rfl := List.mem_singleton.mp hw
    exact ⟨hn, hnew⟩

theorem Within.innerScope {f : ScopeId → C β} (hf : ∀ sc, Within P P' n D (.inside sc P.scope :: W) R (f sc)) :
    Within P P' n D W R (innerScope >>= f) := by
  unfold Check.innerScope
  rw [show ((do let s ← C.get; Check.newScope (some s.ana.ctxScope)) >>= f) =
    (C.get >>= fun s => Check.newScope (some s.ana.ctxScope) >>= f) from by
      funext s; rfl]
  refine Within.get fun s0 h0 => ?_
  have e : s0.ana.ctxScope = P.scope := congrArg Place.scope h0
  rw [e]
  exact Within.newScope (.inl rfl) hf

theorem look_assign {name m : String} {i : SymId} : ∀ (l : List (String × SymId)), m ≠ name →
    (assign name i l).find? (·.1 == m) = l.find? (·.1 == m)
  | [], h => by simp [assign, Ne.symm h]
  | (k, w) :: rest, h => by
      unfold assign
      split
      · rename_i hk
        subst hk
        simp [Ne.symm h]
      · simp only [List.find?_cons, look_assign rest h]

theorem look_assigned {name : String} {i : SymId} : ∀ (l : List (String × SymId)), (assign name i l).find? (·.1 == name) = some (name, i)
  | [] => by simp [assign]
  | (k, w) :: rest => by
      unfold assign
      split
      · simp [*]
      · rename_i hk
        simp [hk, look_assigned rest]

theorem lookIn_defined {scopes : List ScopeTab} {sc : ScopeId} {name : String} {i : SymId} (h : (sc : Nat) < scopes.length) :
    lookIn (scopes.modify sc fun t => { t with symbols := assign name i t.symbols }) sc name = some i := by
  unfold lookIn
  rw [List.getElem?_modify, List.getElem?_eq_getElem h]
  simp [look, look_assigned]

theorem lookIn_kept {scopes : List ScopeTab} {sc j : ScopeId} {name m : String} {i : SymId} (h : (lookIn scopes j m).isSome) :
    (lookIn (scopes.modify sc fun t => { t with symbols := assign name i t.symbols }) j m).isSome := by
  have hj : (j : Nat) < scopes.length := by
    unfold lookIn at h
    cases hs : scopes[j]? with
    | none => rw [hs] at h; cases h
    | some t => exact (List.getElem?_eq_some_iff.mp hs).1
  by_cases hm : m = name
  · subst hm
    by_cases hs : sc = j
    · subst hs
      rw [lookIn_defined hj]
      rfl
    · unfold lookIn at h ⊢
      rw [List.getElem?_modify]
      simpa [hs] using h
  · unfold lookIn at h ⊢
    rw [List.getElem?_modify]
    cases hs : scopes[j]? with
    | none => rw [hs] at h; cases h
    | some t =>
      rw [hs] at h
      by_cases hc : sc = j <;> simp [hc, look, look_assign _ hm] <;> simpa [look] using h

/-- Where a name may be defined. -/
def Free (n : Nat) (D : ScopeId → String → Prop) (sc : ScopeId) (m : String) : Prop := n ≤ (sc : Nat) ∨ D sc m

theorem Within.define {sc : ScopeId} {name : String} {i : SymId} (h : Free n D sc name) : Back P n D W (define sc name i) := by
  constructor
  intro s a s' hP hn hr hw hm
  obtain rfl := C.modify_ok.mp hm
  have hpar : ∀ j : Nat, parentOf { s with scopes := s.scopes.modify sc fun t => { t with symbols := assign name i t.symbols } } j =
      parentOf s j := by
    intro j
    unfold parentOf
    simp only [List.getElem?_modify]
    cases s.scopes[j]? <;> simp
    split <;> rfl
  refine ⟨hP, ⟨fun j p hj => hr.down j p ((hpar j).symm.trans hj), ?_, ?_⟩, ⟨by simp, fun j _ => hpar j, fun j m hj hd => ?_,
    rfl, fun j m hj => ?_, fun _ _ h => h⟩, by simp⟩
  · simpa using hr.here
  · simpa using hr.tys
  · unfold lookIn
    simp only [List.getElem?_modify]
    cases hs : s.scopes[j]? with
    | none => simp
    | some t =>
      by_cases hjs : sc = j
      · subst hjs
        have hm : m ≠ name := by
          rintro rfl
          rcases h with h | h
          · exact absurd hj (Nat.not_lt.mpr h)
          · exact hd h
        simp [look, look_assign _ hm]
      · simp [hjs]
  · exact lookIn_kept hj

/-- The name is then defined in the scope where the checker is. -/
theorem Within.defineHere {name : String} {i : SymId} (h : Free n D P.scope name) :
    Within P P n D W (fun _ => [.bound P.scope name]) (Check.define P.scope name i) := by
  constructor
  intro s a s' hP hn hr hw hm
  obtain ⟨h1, h2, h3, -⟩ := (Within.define (W := W) (i := i) h).run s a s' hP hn hr hw hm
  refine ⟨h1, h2, h3, fun w hw => ?_⟩
  obtain rfl := List.mem_singleton.mp hw
  obtain rfl := C.modify_ok.mp hm
  subst hP
  exact (congrArg Option.isSome (lookIn_defined (name := name) (i := i) hr.here)).trans rfl

/-- The name of a symbol. -/
theorem Within.symOf {i : SymId} {f : CSym → C β} (hf : ∀ x, (∀ name, Known.named i name ∈ W → x.name = name) → Within P P' n D W R (f x)) :
    Within P P' n D W R (symOf i >>= f) := by
  constructor
  intro s b s' hP hn hr hw hb
  obtain ⟨x, s1, h1, h2⟩ := C.bind_ok.mp hb
  obtain ⟨hx, rfl⟩ := symOf_ok.mp h1
  refine (hf x fun name hk => ?_).run _ _ _ hP hn hr hw h2
  have : (s1.syms[i]?).map CSym.name = some name := hw _ hk
  rw [hx] at this
  exact Option.some.inj this

/-- The symbol has a name that may be defined there. -/
theorem Within.defineSymbol {cfg : CCfg} {i : SymId} {d : Nat} {sc : ScopeId} {name : String} (hk : Known.named i name ∈ W)
    (h : Free n D sc name) : Back P n D W (Check.defineSymbol cfg i d sc) := by
  unfold Check.defineSymbol
  refine Within.symOf fun x hx => ?_
  refine Within.next inferInstance fun l => ?_
  dsimp only
  obtain rfl := hx _ hk
  refine Within.ite (Within.next ?_ fun _ => Within.define h) (Within.define h)
  have : Still (updSym i fun x => { x with outId := "_r" ++ toString d ++ toString l.length ++ "_" }) := by still
  infer_instance

theorem Within.declareHere {cfg : CCfg} {i : SymId} {d : Nat} {name : String} (hk : Known.named i name ∈ W)
    (h : Free n D P.scope name) : Within P P n D W (fun _ => [.bound P.scope name]) (Check.defineSymbol cfg i d P.scope) := by
  unfold Check.defineSymbol
  refine Within.symOf fun x hx => ?_
  refine Within.next inferInstance fun l => ?_
  dsimp only
  obtain rfl := hx _ hk
  refine Within.ite (Within.next ?_ fun _ => Within.defineHere h) (Within.defineHere h)
  have : Still (updSym i fun x => { x with outId := "_r" ++ toString d ++ toString l.length ++ "_" }) := by still
  infer_instance

/-- Anything may be defined in a scope that is not one of the first. -/
theorem Within.defineAny {cfg : CCfg} {i : SymId} {d : Nat} {sc : ScopeId} (h : ∀ m, Free n D sc m) :
    Back P n D W (Check.defineSymbol cfg i d sc) := by
  unfold Check.defineSymbol
  refine Within.symOf fun x hx => ?_
  refine Within.next inferInstance fun l => ?_
  dsimp only
  refine Within.ite (Within.next ?_ fun _ => Within.define (h _)) (Within.define (h _))
  have : Still (updSym i fun x => { x with outId := "_r" ++ toString d ++ toString l.length ++ "_" }) := by still
  infer_instance

/-- What is known of a scope. -/
theorem Within.new {sc p : ScopeId} {m : C β} (hk : Known.inside sc p ∈ W) (h : n ≤ (sc : Nat) → Within P P' n D W R m) :
    Within P P' n D W R m :=
  ⟨fun s a s' hP hn hr hw hm => (h (hw _ hk).1).run s a s' hP hn hr hw hm⟩

theorem Within.enter {sc p : ScopeId} (hk : Known.inside sc p ∈ W) :
    Within P { P with «scope» := sc, depth := P.depth + 1 } n D W (fun _ => []) (enterScope sc) := by
  constructor
  intro s a s' hP hn hr hw hm
  obtain rfl := C.modify_ok.mp hm
  subst hP
  exact ⟨rfl, ⟨hr.down, parentOf_lt (hw _ hk).2, hr.tys⟩, ⟨Nat.le_refl _, fun _ _ => rfl, fun _ _ _ _ => rfl, rfl, fun _ _ h => h, fun _ _ h => h⟩, by simp⟩

theorem Within.leave {p : ScopeId} (hk : Known.inside P.scope p ∈ W) :
    Within P { P with «scope» := p, depth := P.depth - 1 } n D W (fun _ => []) leaveScope := by
  constructor
  intro s a s' hP hn hr hw hm
  subst hP
  have hp : (s.scopes[s.ana.ctxScope]?).bind ScopeTab.parent = some p := (hw _ hk).2
  unfold leaveScope at hm
  rw [hp] at hm
  cases hm
  exact ⟨rfl, ⟨hr.down, Nat.lt_trans (hr.down _ _ hp) hr.here, hr.tys⟩,
    ⟨Nat.le_refl _, fun _ _ => rfl, fun _ _ _ _ => rfl, rfl, fun _ _ h => h, fun _ _ h => h⟩, by simp⟩

theorem Within.leaveTy {p : ScopeId} (hk : Known.inside P.tys p ∈ W) :
    Within P { P with tys := p } n D W (fun _ => []) leaveTyCtx := by
  constructor
  intro s a s' hP hn hr hw hm
  subst hP
  have hp : (s.scopes[s.ana.tyCtx]?).bind ScopeTab.parent = some p := (hw _ hk).2
  unfold leaveTyCtx at hm
  rw [hp] at hm
  cases hm
  exact ⟨rfl, ⟨hr.down, hr.here, Nat.lt_trans (hr.down _ _ hp) hr.tys⟩,
    ⟨Nat.le_refl _, fun _ _ => rfl, fun _ _ _ _ => rfl, rfl, fun _ _ h => h, fun _ _ h => h⟩, by simp⟩

/-- What is known of several scopes. -/
theorem Within.arms {γ : Type} {l : List (ScopeId × γ)} {p : ScopeId} {m : C β} (hk : ∀ y ∈ l, Known.inside y.1 p ∈ W)
    (h : (∀ y ∈ l, n ≤ (y.1 : Nat)) → Within P P' n D W R m) : Within P P' n D W R m :=
  ⟨fun s a s' hP hn hr hw hm => (h fun y hy => (hw _ (hk y hy)).1).run s a s' hP hn hr hw hm⟩

/-- More may be known. -/
theorem Within.known {W' : List Known} {m : C β} (h : Within P P' n D W R m) (hw : ∀ w ∈ W, w ∈ W') : Within P P' n D W' R m :=
  ⟨fun s a s' hP hn hr hk hm => h.run s a s' hP hn hr (fun w hm => hk w (hw w hm)) hm⟩

/-- What was known is known. -/
theorem Within.told {m : C β} (h : Back P n D W m) (hR : ∀ a, ∀ w ∈ R a, w ∈ W) : Within P P n D W R m :=
  ⟨fun s a s' hP hn hr hk hm => by
    obtain ⟨h1, h2, h3, -⟩ := h.run s a s' hP hn hr hk hm
    exact ⟨h1, h2, h3, fun w hw => (hk w (hR a w hw)).later h3⟩⟩

/-- Less may be told. -/
theorem Within.forget {m : C β} (h : Within P P' n D W R m) : Within P P' n D W (fun _ => []) m :=
  ⟨fun s a s' hP hn hr hk hm => by
    obtain ⟨h1, h2, h3, -⟩ := h.run s a s' hP hn hr hk hm
    exact ⟨h1, h2, h3, by simp⟩⟩

/-- A change of the place only. -/
theorem Within.set {f : CState → CState} (hs : ∀ s, (f s).scopes = s.scopes ∧ (f s).syms = s.syms ∧ (f s).shelf = s.shelf)
    (hp : ∀ s, s.ana.place = P → (f s).ana.place = P' ) (h1 : P'.scope = P.scope) (h2 : P'.tys = P.tys) :
    Within P P' n D W (fun _ => []) (C.modify f) := by
  constructor
  intro s a s' hP hn hr hw hm
  obtain rfl := C.modify_ok.mp hm
  have e1 : (f s).ana.ctxScope = s.ana.ctxScope := by
    have := congrArg Place.scope (hp s hP)
    exact this.trans (h1.trans (congrArg Place.scope hP).symm)
  have e2 : (f s).ana.tyCtx = s.ana.tyCtx := by
    have := congrArg Place.tys (hp s hP)
    exact this.trans (h2.trans (congrArg Place.tys hP).symm)
  refine ⟨hp s hP, ⟨fun i p => ?_, ?_, ?_⟩, ⟨(hs s).1 ▸ Nat.le_refl _, fun i _ => by unfold parentOf; rw [(hs s).1], fun _ _ _ _ => by rw [(hs s).1],
    (hs s).2.2, fun _ _ h => by rw [(hs s).1]; exact h, fun _ _ h => by rw [(hs s).2.1]; exact h⟩, by simp⟩
  · unfold parentOf; rw [(hs s).1]; exact hr.down i p
  · rw [(hs s).1, e1]; exact hr.here
  · rw [(hs s).1, e2]; exact hr.tys

end

/-- Steps through a function of the checker. -/
macro "within" : tactic => `(tactic| repeat' first
  | assumption
  | infer_instance
  | dsimp only
  | refine Within.ite ?_ ?_
  | refine Within.next ?_ (fun _ => ?_)
  | split)

theorem C.assoc {α β γ : Type} {m : C α} {f : α → C β} {g : β → C γ} : (m >>= f) >>= g = m >>= fun a => f a >>= g := by
  funext s
  change (match (match m s with
        | Except.error e => (Except.error e : Except PyErr (β × CState))
        | .ok (a, s') => f a s') with
      | Except.error e => (Except.error e : Except PyErr (γ × CState))
      | .ok (a, s') => g a s') =
    (match m s with
      | Except.error e => (Except.error e : Except PyErr (γ × CState))
      | .ok (a, s') => (match f a s' with
        | Except.error e => (Except.error e : Except PyErr (γ × CState))
        | .ok (a, s') => g a s'))
  cases m s <;> rfl

/-! ## Functions that make scopes -/

section
variable {α β : Type} {P P' : Place} {n : Nat} {D : ScopeId → String → Prop} {W : List Known} {R : β → List Known}

theorem defineTvars_back {m : String} {sc : ScopeId} (h : ∀ x, Free n D sc x) : ∀ l, Back P n D W (defineTvars m sc l)
  | [] => by unfold defineTvars; within
  | x :: xs => by
      unfold defineTvars
      have := fun i => Within.define (P := P) (W := W) (i := i) (h x)
      have := defineTvars_back (m := m) h xs
      within

theorem Within.enterTy {mod : String} {l : List String} {f : Unit → C β}
    (hf : ∀ sc, Within { P with tys := sc } P' n D (.inside sc P.tys :: W) R (f ())) :
    Within P P' n D W R (enterTyCtx mod l >>= f) := by
  unfold enterTyCtx
  rw [C.assoc]
  refine Within.get fun s0 h0 => ?_
  rw [show s0.ana.tyCtx = P.tys from congrArg Place.tys h0, C.assoc]
  refine Within.newScope (.inr rfl) fun sc => ?_
  rw [C.assoc]
  refine Within.new List.mem_cons_self fun hsc => ?_
  refine Within.next (defineTvars_back (fun _ => .inl hsc) l) fun _ => ?_
  refine Within.bind (P1 := { P with tys := sc }) (R1 := fun _ => []) ?_ fun _ => hf sc
  constructor
  intro s a s' hP hn hr hw hm
  obtain rfl := C.modify_ok.mp hm
  subst hP
  exact ⟨rfl, ⟨hr.down, hr.here, parentOf_lt (hw _ List.mem_cons_self).2⟩,
    ⟨Nat.le_refl _, fun _ _ => rfl, fun _ _ _ _ => rfl, rfl, fun _ _ h => h, fun _ _ h => h⟩, by simp⟩

theorem defineParams_back {cfg : CCfg} {d : Nat} {sc : ScopeId} (h : ∀ x, Free n D sc x) : ∀ l, Back P n D W (defineParams cfg d sc l)
  | [] => by unfold defineParams; within
  | (_, i) :: rest => by
      unfold defineParams
      have := Within.defineAny (P := P) (W := W) (cfg := cfg) (d := d) (i := i) h
      have := defineParams_back (cfg := cfg) (d := d) h rest
      within

theorem makeFunc_within {cfg : CCfg} {m : String} {i : SymId} {ps : List Param} {name : String} (hk : Known.named i name ∈ W)
    (h : Free n D P.scope name) : Within P P n D W (fun sc => [.inside sc P.scope, .bound P.scope name]) (makeFunc cfg m i ps) := by
  unfold makeFunc
  have : Still (updSym i fun x => { x with isGlobal := true }) := by still
  refine Within.next inferInstance fun _ => Within.get fun s0 h0 => ?_
  rw [show s0.ana.ctxScope = P.scope from congrArg Place.scope h0]
  refine Within.bind (Within.declareHere hk h) fun _ => Within.next inferInstance fun ps => Within.innerScope fun sc => ?_
  refine Within.new List.mem_cons_self fun hsc => ?_
  refine Within.next (defineParams_back (fun _ => .inl hsc) _) fun _ => ?_
  have : Still (updSym i fun x => match x.body with
    | .func t _ => { x with body := .func t ps }
    | .method t u _ => { x with body := .method t u ps }
    | _ => x) := by still
  refine Within.next inferInstance fun _ => Within.pure ?_
  simp

theorem bindPattern_back {cfg : CCfg} {m : String} {sc : ScopeId} {t : CTy} {tok : Token} (h : ∀ x, Free n D sc x) :
    Back P n D W (bindPattern cfg m sc t tok) := by
  unfold bindPattern
  have := fun d i => Within.defineAny (P := P) (W := W) (cfg := cfg) (d := d) (i := i) h
  within

theorem checkPatArgs_back {cfg : CCfg} {m : String} {sc : ScopeId} (h : ∀ x, Free n D sc x) : ∀ (ps : List Pat) ts,
    Back P n D W (checkPatArgs cfg m sc ps ts)
  | [], _ => by unfold checkPatArgs; within
  | p :: ps, [] => by unfold checkPatArgs; cases p <;> within
  | .bind tok :: ps, t :: ts => by
      unfold checkPatArgs
      have := bindPattern_back (P := P) (W := W) (cfg := cfg) (m := m) (t := t) (tok := tok) h
      have := checkPatArgs_back (cfg := cfg) (m := m) h ps ts
      within
  | .int _ :: ps, t :: ts => by unfold checkPatArgs; exact checkPatArgs_back h ps ts
  | .str _ :: ps, t :: ts => by unfold checkPatArgs; exact checkPatArgs_back h ps ts
  | .adtPath .. :: _, _ :: _ => by unfold checkPatArgs; within
  | .adtVar .. :: _, _ :: _ => by unfold checkPatArgs; within

theorem checkPattern_back {cfg : CCfg} {m : String} {sc : ScopeId} {t : CTy} {p : Pat} (h : ∀ x, Free n D sc x) :
    Back P n D W (checkPattern cfg m sc t p) := by
  cases p with
  | int t => unfold checkPattern; within
  | str t => unfold checkPattern; within
  | bind tok =>
    unfold checkPattern
    have := bindPattern_back (P := P) (W := W) (cfg := cfg) (m := m) (t := t) (tok := tok) h
    within
  | adtVar tok args => unfold checkPattern; within
  | adtPath comps args =>
    unfold checkPattern
    have := checkPatArgs_back (P := P) (W := W) (cfg := cfg) (m := m) h args
    within

theorem checkArms_within {cfg : CCfg} {m : String} {t : CTy} : ∀ (ps : List Pat) (W : List Known),
    Within P P n D W (fun l => l.map fun x => .inside x.1 P.scope) (checkArms cfg m t ps)
  | [], W => by unfold checkArms; exact Within.pure (by simp)
  | p :: ps, W => by
      unfold checkArms
      refine Within.innerScope fun sc => Within.new List.mem_cons_self fun hsc => ?_
      refine Within.next (checkPattern_back fun _ => .inl hsc) fun r => ?_
      obtain ⟨u, q⟩ := r
      refine Within.next inferInstance fun b => Within.ite ?_ ?_
      · refine Within.bind (checkArms_within ps _) fun rest => Within.pure ?_
        intro w hw
        rcases List.mem_cons.mp (List.map_cons ▸ hw) with rfl | hw
        · simp
        · exact List.mem_append_left _ hw
      · refine Within.next inferInstance fun _ => ?_
        refine Within.next inferInstance fun _ => inferInstance

theorem newTreeVars_back {m : String} {sc : ScopeId} (h : ∀ x, Free n D sc x) : ∀ vs ts, Back P n D W (newTreeVars m sc vs ts)
  | [], _ => by unfold newTreeVars; within
  | _ :: _, [] => by unfold newTreeVars; within
  | v :: vs, t :: ts => by
      unfold newTreeVars
      have := fun i => Within.define (P := P) (W := W) (i := i) (h v.name)
      have := newTreeVars_back (m := m) h vs ts
      within

theorem caseVars_back {m : String} {sc : ScopeId} {t : CTy} (h : ∀ x, Free n D sc x) : ∀ cs, Back P n D W (caseVars m sc t cs)
  | [] => by unfold caseVars; within
  | (k, args, u) :: rest => by
      have := caseVars_back (m := m) (t := t) h rest
      have := fun vs ts => newTreeVars_back (P := P) (W := W) (m := m) h vs ts
      cases k <;> (unfold caseVars; within)

mutual
theorem declareTree_back {m : String} {sc : ScopeId} (h : ∀ x, Free n D sc x) : ∀ t vars, Back P n D W (declareTree m sc t vars)
  | .fail, _ => by unfold declareTree; within
  | .success _, _ => by unfold declareTree; within
  | .switch v cases none, vars => by
      unfold declareTree
      have := fun t => caseVars_back (P := P) (W := W) (m := m) (t := t) h cases
      have := declareCases_back (m := m) h cases
      within
  | .switch v cases (some f), vars => by
      unfold declareTree
      have := fun t => caseVars_back (P := P) (W := W) (m := m) (t := t) h cases
      have := declareCases_back (m := m) h cases
      have := declareTree_back (m := m) h f
      within
theorem declareCases_back {m : String} {sc : ScopeId} (h : ∀ x, Free n D sc x) : ∀ cs vars, Back P n D W (declareCases m sc cs vars)
  | [], _ => by unfold declareCases; within
  | (_, _, t) :: rest, vars => by
      unfold declareCases
      have := declareTree_back (m := m) h t
      have := declareCases_back (m := m) h rest
      within
end

theorem defineAgain_back {m : String} {sc : ScopeId} (h : ∀ x, Free n D sc x) : ∀ l, Back P n D W (defineAgain m sc l)
  | [] => by unfold defineAgain; within
  | (x, i) :: rest => by
      unfold defineAgain
      have := fun j => Within.define (P := P) (W := W) (i := j) (h x)
      have := defineAgain_back (m := m) h rest
      within

mutual
theorem declareBlocks_back {m : String} {scs : List ScopeId} (h : ∀ sc ∈ scs, ∀ x, Free n D sc x) : ∀ d, Back P n D W (declareBlocks m scs d)
  | .fail => by unfold declareBlocks; within
  | .success b k => by
      unfold declareBlocks
      split
      · exact defineAgain_back (h _ (List.mem_of_getElem? ‹_›)) _
      · infer_instance
  | .switch _ cases _ => by unfold declareBlocks; exact declareBlockCases_back h cases
theorem declareBlockCases_back {m : String} {scs : List ScopeId} (h : ∀ sc ∈ scs, ∀ x, Free n D sc x) :
    ∀ cs, Back P n D W (declareBlockCases m scs cs)
  | [] => by unfold declareBlockCases; within
  | (_, _, d) :: rest => by
      unfold declareBlockCases
      have := declareBlocks_back (m := m) h d
      have := declareBlockCases_back (m := m) h rest
      within
end

theorem compileArms_back {cfg : CCfg} {m : String} {tok : Token} {sc : ScopeId} {e : AExpr} {arms : List (ScopeId × Iguala.MPat)}
    (h : ∀ x, Free n D sc x) (ha : ∀ a ∈ arms, ∀ x, Free n D a.1 x) : Back P n D W (compileArms cfg m tok sc e arms) := by
  unfold compileArms
  have := fun d i => Within.defineAny (P := P) (W := W) (cfg := cfg) (d := d) (i := i) h
  have := fun t vars => declareTree_back (P := P) (W := W) (m := m) h t vars
  have := fun d => declareBlocks_back (P := P) (W := W) (m := m) (scs := arms.map (·.1)) (n := n) (D := D) (by
    intro sc hsc
    obtain ⟨a, ham, rfl⟩ := List.mem_map.mp hsc
    exact ha a ham) d
  within

theorem yieldBlock_back {tok : Token} {sc : ScopeId} {c : C (List AStmt)} (hk : Known.inside sc P.scope ∈ W)
    (hc : Back { P with «scope» := sc, depth := P.depth + 1, yields := true } n D W c) : Back P n D W (yieldBlock tok sc c) := by
  unfold yieldBlock
  refine Within.next inferInstance fun _ => Within.bind (Within.enter hk) fun _ => Within.get fun s0 h0 => ?_
  have hy : s0.ana.yield.isSome = P.yields := congrArg Place.yields h0
  refine Within.bind (P1 := { P with «scope» := sc, depth := P.depth + 1, yields := true }) (R1 := fun _ => [])
    (Within.set (fun _ => ⟨rfl, rfl, rfl⟩) ?_ rfl rfl) fun _ => ?_
  · intro s hs
    simp only [Ana.place] at hs ⊢
    injection hs with h1 h2 h3 h4 h5 h6 h7
    simp [*]
  · refine Within.next hc fun body => Within.next inferInstance fun s1 => ?_
    dsimp only
    refine Within.next inferInstance fun b => Within.ite inferInstance ?_
    refine Within.bind (P1 := { P with «scope» := sc, depth := P.depth + 1 }) (R1 := fun _ => [])
      (Within.set (fun _ => ⟨rfl, rfl, rfl⟩) ?_ rfl rfl) fun _ => ?_
    · intro s hs
      simp only [Ana.place] at hs ⊢
      injection hs with h1 h2 h3 h4 h5 h6 h7
      simp [*]
    · refine Within.bind (Within.leave (p := P.scope) hk) fun _ => ?_
      exact Within.pure (by simp)

theorem runArms_back {acts : List (C AArm)} (h : ∀ a ∈ acts, Back P n D W a) : ∀ ks f d, Back P n D W (runArms acts ks f d)
  | [], some _, _ => by unfold runArms; within
  | [], none, _ => by unfold runArms; within
  | k :: ks, f, d => by
      unfold runArms
      have := runArms_back h ks
      split
      · infer_instance
      · have := h _ (List.mem_of_getElem? ‹_›)
        within

theorem declareVar_within {cfg : CCfg} {m : String} {tok name : Token} {ty : TyExpr} {e : Option Expr} (h : Free n D P.scope name.str) :
    Within P P n D W (fun _ => [.bound P.scope name.str]) (declareVar cfg m tok name ty e) := by
  unfold declareVar
  refine Within.next inferInstance fun _ => Within.next inferInstance fun t => ?_
  unfold newVar
  refine Within.newSym fun i => Within.get fun s0 h0 => ?_
  rw [show s0.ana.ctxScope = P.scope from congrArg Place.scope h0]
  refine Within.bind (Within.declareHere List.mem_cons_self h) fun _ => ?_
  refine Within.told ?_ (by simp)
  within

theorem declareVar_back {cfg : CCfg} {m : String} {tok name : Token} {ty : TyExpr} {e : Option Expr} (h : Free n D P.scope name.str) :
    Back P n D W (declareVar cfg m tok name ty e) := (declareVar_within h).forget

theorem inFunction_back {i : SymId} {b : C ABlock} (h : Back { P with func := some i } n D W b) : Back P n D W (inFunction i b) := by
  unfold inFunction
  refine Within.get fun s0 h0 => ?_
  have hf : s0.ana.ctxFunc = P.func := congrArg Place.func h0
  dsimp only
  refine Within.bind (P1 := { P with func := some i }) (R1 := fun _ => []) (Within.set (fun _ => ⟨rfl, rfl, rfl⟩) ?_ rfl rfl) fun _ => ?_
  · rintro s rfl; rfl
  · refine Within.next h fun r => ?_
    refine Within.bind (P1 := P) (R1 := fun _ => []) (Within.set (fun _ => ⟨rfl, rfl, rfl⟩) ?_ rfl rfl) fun _ => Within.pure (by simp)
    intro s hs
    simp only [Ana.place] at hs ⊢
    injection hs with h1 h2 h3 h4 h5 h6 h7
    rw [hf]
    simp [*]

theorem inBlock_back {sc : ScopeId} {c : C (List AStmt)} (hk : Known.inside sc P.scope ∈ W)
    (hc : Back { P with «scope» := sc, depth := P.depth + 1 } n D W c) : Back P n D W (inBlock sc c) := by
  unfold inBlock
  refine Within.next inferInstance fun _ => Within.bind (Within.enter hk) fun _ => ?_
  refine Within.next hc fun body => ?_
  refine Within.bind (Within.leave (p := P.scope) hk) fun _ => ?_
  exact Within.pure (by simp)

theorem newBlock_back {c : C (List AStmt)}
    (hc : ∀ sc, n ≤ sc → Back { P with «scope» := sc, depth := P.depth + 1 } n D (.inside sc P.scope :: W) c) : Back P n D W (newBlock c) := by
  unfold newBlock
  refine Within.innerScope fun sc => Within.new List.mem_cons_self fun hsc => ?_
  exact inBlock_back List.mem_cons_self (hc sc hsc)

/-- What is declared so stands outside of blocks. -/
theorem validateDecl_within {a b c : String} : Within P P n D W (fun _ => [.fact (P.depth = 0)]) (validateDecl a b c) := by
  unfold validateDecl
  refine Within.get fun s0 h0 => ?_
  rw [show s0.ana.depth = P.depth from congrArg Place.depth h0]
  by_cases h : P.depth > 0
  · rw [if_pos h]; infer_instance
  · rw [if_neg h]
    have h0 : P.depth = 0 := Nat.eq_zero_of_not_pos h
    refine Within.next inferInstance fun r => ?_
    split
    · refine ⟨fun s a s' hP hn hr hw hm => ?_⟩
      obtain ⟨rfl, rfl⟩ := C.pure_ok.mp hm
      exact ⟨hP, hr, Onward.refl, by simpa [Known.holds] using h0⟩
    · infer_instance

theorem declareFunc_within {cfg : CCfg} {m : String} {name : Token} {ps : List Param} {r : Option TyExpr} {b : Option (List Stmt)}
    {v : Bool} {as : List Annotation} (h : Free n D P.scope name.str) :
    Within P P n D W (fun x => [.inside x.2 P.scope, .bound P.scope name.str, .fact (P.depth = 0)]) (declareFunc cfg m name ps r b v as) := by
  unfold declareFunc
  refine Within.bind validateDecl_within fun _ => Within.next inferInstance fun _ => Within.next inferInstance fun t => ?_
  refine Within.newSym fun i => ?_
  refine Within.bind (makeFunc_within List.mem_cons_self h) fun sc => ?_
  refine Within.ite (Within.pure (by simp)) ?_
  refine Within.next inferInstance fun _ => Within.ite (Within.pure (by simp)) ?_
  exact Within.next inferInstance fun _ => inferInstance

theorem Within.declareMethod {cfg : CCfg} {m : String} {g : List Token} {t : TyExpr} {name : Token} {ps : List Param} {r : Option TyExpr}
    {b : List Stmt} {as : List Annotation} {f : SymId × ScopeId × CTy → C β} (h : Free n D P.scope name.str)
    (hf : ∀ ts x, Within { P with tys := ts } P' n D (.inside x.2.1 P.scope :: .bound P.scope name.str :: .fact (P.depth = 0) :: .inside ts P.tys :: W) R (f x)) :
    Within P P' n D W R (declareMethod cfg m g t name ps r b as >>= f) := by
  unfold Check.declareMethod
  dsimp only
  rw [C.assoc]
  refine Within.enterTy fun ts => ?_
  refine Within.bind (R1 := fun x => [.inside x.2.1 P.scope, .bound P.scope name.str, .fact (P.depth = 0)]) ?_ (hf ts)
  refine Within.next inferInstance fun t => Within.next inferInstance fun _ => Within.next inferInstance fun x => ?_
  split
  · refine Within.next inferInstance fun _ => Within.ite inferInstance ?_
    exact Within.next inferInstance fun _ => inferInstance
  · refine Within.next inferInstance fun _ => Within.bind validateDecl_within fun _ => Within.next inferInstance fun _ => ?_
    refine Within.newSym fun i => ?_
    refine Within.bind (makeFunc_within List.mem_cons_self h) fun sc => ?_
    refine Within.next inferInstance fun j => Within.next inferInstance fun s0 => ?_
    refine Within.new (sc := sc) (p := P.scope) (by simp) fun hsc => ?_
    refine Within.next (Within.defineAny fun _ => .inl hsc) fun _ => ?_
    refine Within.next (defineTvars_back (fun _ => .inl hsc) _) fun _ => ?_
    refine Within.ite (Within.pure (by simp)) ?_
    refine Within.next inferInstance fun _ => Within.ite (Within.pure (by simp)) ?_
    exact Within.next inferInstance fun _ => inferInstance

theorem declareUniao_within {cfg : CCfg} {m : String} {name : Token} {g : List Token} {vs : List UniaoVariant} (h : Free n D P.scope name.str) :
    Within P P n D W (fun _ => [.bound P.scope name.str]) (declareUniao cfg m name g vs) := by
  unfold declareUniao
  refine Within.innerScope fun reg => Within.get fun s0 h0 => ?_
  have e : s0.ana.ctxScope = P.scope := congrArg Place.scope h0
  simp only [e]
  refine Within.next inferInstance fun r => ?_
  split
  · infer_instance
  · refine Within.enterTy fun ts => Within.newSym fun u => ?_
    refine Within.bind (Within.declareHere (P := { P with tys := ts }) List.mem_cons_self h) fun _ => ?_
    refine Within.bind (Within.enter (p := P.scope) (by simp)) fun _ => ?_
    refine Within.next inferInstance fun _ => ?_
    refine Within.bind (Within.leave (p := P.scope) (by simp)) fun _ => ?_
    refine Within.bind (Within.leaveTy (p := P.tys) (by simp)) fun _ => ?_
    exact Within.pure (by simp)

theorem Within.openRegisto {cfg : CCfg} {m : String} {name : Token} {g : List Token} {f : SymId × ScopeId → C β}
    (h : Free n D P.scope name.str)
    (hf : ∀ ts r reg, n ≤ reg → Within { P with tys := ts, «scope» := reg, depth := P.depth + 1 } P' n D
      (.named r name.str :: .inside ts P.tys :: .inside reg P.scope :: W) R (f (r, reg))) :
    Within P P' n D W R (openRegisto cfg m name g >>= f) := by
  unfold Check.openRegisto
  rw [C.assoc]
  refine Within.innerScope fun reg => ?_
  rw [C.assoc]
  refine Within.get fun s0 h0 => ?_
  have e : s0.ana.ctxScope = P.scope := congrArg Place.scope h0
  simp only [e]
  rw [C.assoc]
  refine Within.next inferInstance fun r => ?_
  split
  · exact (inferInstance : Within P P' n D (.inside reg P.scope :: W) R (C.error _ : C β))
  · rw [C.assoc]
    refine Within.enterTy fun ts => ?_
    rw [C.assoc]
    refine Within.newSym fun r => ?_
    rw [C.assoc]
    refine Within.next (Within.defineSymbol List.mem_cons_self h) fun _ => ?_
    rw [C.assoc]
    have : Still (C.modify fun s => { s with ana := { s.ana with ctxReg := true } }) := by still
    refine Within.next inferInstance fun _ => ?_
    rw [C.assoc]
    refine Within.bind (Within.enter (p := P.scope) (by simp)) fun _ => ?_
    exact Within.new (sc := reg) (p := P.scope) (by simp) fun hreg => hf ts r reg hreg

theorem closeRegisto_within {cfg : CCfg} {r : SymId} {reg ts : ScopeId} {name : String} (h : Free n D P.scope name)
    (h1 : Known.named r name ∈ W) (h2 : Known.inside ts P.tys ∈ W) (h3 : Known.inside reg P.scope ∈ W) :
    Within { P with tys := ts, «scope» := reg, depth := P.depth + 1 } P n D W (fun _ => [.bound P.scope name]) (closeRegisto cfg r reg) := by
  unfold closeRegisto
  refine Within.next inferInstance fun l => Within.next inferInstance fun _ => ?_
  refine Within.bind (P1 := { P with tys := ts }) (R1 := fun _ => []) (Within.leave (p := P.scope) h3) fun _ => ?_
  refine Within.get fun s0 h0 => ?_
  rw [show s0.ana.ctxScope = P.scope from congrArg Place.scope h0]
  refine Within.bind (Within.declareHere (P := { P with tys := ts }) (by simpa using h1) h) fun _ => ?_
  refine Within.bind (Within.leaveTy (p := P.tys) (by simpa using h2)) fun _ => ?_
  have : Still (C.modify fun s => { s with ana := { s.ana with ctxReg := false } }) := by still
  refine Within.told inferInstance ?_
  simp

theorem paraScope_within {cfg : CCfg} {m : String} {name : Token} :
    Within P P n D W (fun sc => [.inside sc P.scope]) (paraScope cfg m name) := by
  unfold paraScope
  refine Within.next inferInstance fun t => Within.next inferInstance fun i => Within.innerScope fun sc => ?_
  refine Within.next inferInstance fun s0 => Within.new List.mem_cons_self fun hsc => ?_
  refine Within.next (Within.defineAny fun _ => .inl hsc) fun _ => Within.pure (by simp)

end

/-! ## Visits -/

/-- The names a statement defines in the scope it stands in.  A method defines its name like a function. -/
def defines : Stmt → List String
  | .varDecl _ name _ _ => [name.str]
  | .func name _ _ _ _ _ => [name.str]
  | .method _ _ name _ _ _ _ => [name.str]
  | .registo name _ _ _ => [name.str]
  | .uniao name _ _ _ => [name.str]
  | _ => []

section
variable {cfg : CCfg} {mod : String} {n : Nat} {D : ScopeId → String → Prop}

mutual
theorem visitE_back : ∀ e : Expr, ∀ P W par, Back P n D W (visitE cfg mod par e)
  | .const tok, P, W, par => by
      unfold visitE
      within
  | .fmtStr tok parts, P, W, par => by
      unfold visitE
      have := visitParts_back parts
      within
  | .var tok, P, W, par => by
      unfold visitE
      within
  | .converta tok e ty, P, W, par => by
      unfold visitE
      have := visitE_back e
      within
  | .alvo tok, P, W, par => by
      unfold visitE
      within
  | .bin tok a b, P, W, par => by
      unfold visitE
      have := visitE_back a
      have := visitE_back b
      within
  | .un tok e, P, W, par => by
      unfold visitE
      have := visitE_back e
      within
  | .assign tok l r, P, W, par => by
      unfold visitE
      have := visitE_back l
      have := visitE_back r
      within
  | .list tok ty es, P, W, par => by
      unfold visitE
      have := visitElems_back es
      within
  | .named name e, P, W, par => by
      unfold visitE
      have := visitE_back e
      within
  | .get e member, P, W, par => by
      unfold visitE
      have := visitE_back e
      within
  | .index tok a b, P, W, par => by
      unfold visitE
      have := visitE_back a
      have := visitE_back b
      within
  | .indexSet tok a b, P, W, par => by
      unfold visitE
      have := visitE_back a
      have := visitE_back b
      within
  | .set a b, P, W, par => by
      unfold visitE
      have := visitE_back a
      have := visitE_back b
      within
  | .path comps, P, W, par => by
      unfold visitE
      within
  | .call callee args, P, W, par => by
      unfold visitE
      have := visitCallee_back callee
      have := visitVec_back args
      have := visitEs_back args
      have := visitArgs_back args
      have := visitInits_back args
      within
  | .iguala tok target arms, P, W, par => by
      unfold visitE
      refine Within.next inferInstance fun _ => Within.innerScope fun sc => Within.new List.mem_cons_self fun hsc => ?_
      refine Within.bind (Within.enter (p := P.scope) (by simp)) fun _ => ?_
      refine Within.next (visitE_back target _ _ _) fun x => ?_
      refine Within.next inferInstance fun b => Within.ite inferInstance ?_
      refine Within.bind (checkArms_within _ _) fun pats => ?_
      refine Within.next (Within.arms (fun y hy => List.mem_append_left _ (List.mem_map.mpr ⟨y, hy, rfl⟩)) fun ha =>
        compileArms_back (fun _ => .inl hsc) fun a ham _ => .inl (ha a ham)) fun r => ?_
      obtain ⟨ir, reached⟩ := r
      refine Within.next (runArms_back (armActs_back arms _ _ _ fun sc' hs => ?_) _ _ _) fun d => ?_
      · obtain ⟨y, hy, rfl⟩ := List.mem_map.mp hs
        exact List.mem_append_left _ (List.mem_map.mpr ⟨y, hy, rfl⟩)
      · obtain ⟨t, done⟩ := d
        refine Within.bind (Within.leave (p := P.scope) (by simp)) fun _ => ?_
        exact Within.pure (by simp)
theorem armActs_back : ∀ as : List Arm, ∀ P W scs, (∀ sc ∈ scs, Known.inside sc P.scope ∈ W) → ∀ a ∈ armActs cfg mod as scs, Back P n D W a
  | [], _, _, _, _ => by unfold armActs; simp
  | .mk _ _ bt b :: rest, _, _, [], _ => by unfold armActs; simp
  | .mk _ _ bt b :: rest, P, W, sc :: scs, h => by
      unfold armActs
      intro a ha
      rcases List.mem_cons.mp ha with rfl | ha
      · have hk := h sc List.mem_cons_self
        exact Within.new hk fun hsc => yieldBlock_back hk (visitYs_back b _ _ fun _ => .inl hsc)
      · exact armActs_back rest P W scs (fun s hs => h s (List.mem_cons_of_mem _ hs)) a ha
theorem visitCallee_back : ∀ e : Expr, ∀ P W, Back P n D W (visitCallee cfg mod e)
  | .var tok, P, W => by unfold visitCallee; within
  | .get e member, P, W => by
      unfold visitCallee
      have := visitE_back e
      within
  | .path comps, P, W => by unfold visitCallee; within
  | .call _ _, _, _ | .const _, _, _ | .fmtStr _ _, _, _ | .converta _ _ _, _, _ | .alvo _, _, _ | .bin _ _ _, _, _ | .un _ _, _, _
  | .assign _ _ _, _, _ | .list _ _ _, _, _ | .named _ _, _, _ | .index _ _ _, _, _ | .indexSet _ _ _, _, _ | .set _ _, _, _
  | .iguala _ _ _, _, _ => by unfold visitCallee; within
theorem visitEs_back : ∀ es : List Expr, ∀ P W par, Back P n D W (visitEs cfg mod par es)
  | [], P, W, par => by unfold visitEs; within
  | e :: es, P, W, par => by
      unfold visitEs
      have := visitE_back e
      have := visitEs_back es
      within
theorem visitParts_back : ∀ es : List Expr, ∀ P W tok t, Back P n D W (visitParts cfg mod tok t es)
  | [], P, W, _, _ => by unfold visitParts; within
  | e :: es, P, W, tok, t => by
      unfold visitParts
      have := visitE_back e
      have := visitParts_back es
      within
theorem visitElems_back : ∀ es : List Expr, ∀ P W t i, Back P n D W (visitElems cfg mod t es i)
  | [], P, W, _, _ => by unfold visitElems; within
  | e :: es, P, W, t, i => by
      unfold visitElems
      have := visitE_back e
      have := visitElems_back es
      within
theorem visitArgs_back : ∀ es : List Expr, ∀ P W, Back P n D W (visitArgs cfg mod es)
  | [], P, W => by unfold visitArgs; within
  | e :: es, P, W => by
      unfold visitArgs
      have := visitE_back e
      have := visitArgs_back es
      within
theorem visitVec_back : ∀ es : List Expr, ∀ P W, Back P n D W (visitVec cfg mod es)
  | [], P, W => by unfold visitVec; within
  | [_], P, W => by unfold visitVec; within
  | first :: size :: sizes, P, W => by
      unfold visitVec
      have := visitE_back size
      have := visitSizes_back sizes
      within
theorem visitSizes_back : ∀ es : List Expr, ∀ P W, Back P n D W (visitSizes cfg mod es)
  | [], P, W => by unfold visitSizes; within
  | e :: es, P, W => by
      unfold visitSizes
      have := visitE_back e
      have := visitSizes_back es
      within
theorem visitInits_back : ∀ es : List Expr, ∀ P W f m seen, Back P n D W (visitInits cfg mod f m es seen)
  | [], P, W, _, _, _ => by unfold visitInits; within
  | e :: es, P, W, f, m, seen => by
      cases e with
      | named arg e =>
        unfold visitInits
        have := visitE_back e
        have := visitInits_back es
        within
      | _ => unfold visitInits; within
theorem visitS_back : ∀ s : Stmt, ∀ P W y l, (∀ m ∈ defines s, Free n D P.scope m) → Back P n D W (visitS cfg mod y l s)
  | .expr e, P, W, y, l, h => by
      unfold visitS
      have := visitE_back e
      within
  | .varDecl tok name ty none, P, W, y, l, h => by
      unfold visitS
      have := declareVar_back (W := W) (cfg := cfg) (m := mod) (tok := tok) (ty := ty) (e := none) (h name.str (by simp [defines]))
      within
  | .varDecl tok name ty (some e), P, W, y, l, h => by
      unfold visitS
      have := declareVar_back (W := W) (cfg := cfg) (m := mod) (tok := tok) (ty := ty) (e := some e) (h name.str (by simp [defines]))
      have := visitE_back e
      within
  | .loopCtl tok, P, W, y, l, h => by unfold visitS; within
  | .retorna tok none, P, W, y, l, h => by unfold visitS; within
  | .retorna tok (some e), P, W, y, l, h => by
      unfold visitS
      have := visitE_back e
      within
  | .produz tok e, P, W, y, l, h => by
      unfold visitS
      have := visitE_back e
      have : ∀ x : AExpr, Still (C.modify fun s => { s with ana := { s.ana with yield := s.ana.yield.map fun y => { y with ty := x.ty } } }) := by
        intro x; still
      within
  | .mostra tok e, P, W, y, l, h => by
      unfold visitS
      have := visitE_back e
      within
  | .se tok c b es none, P, W, y, l, h => by
      unfold visitS
      have := visitE_back c
      have := newBlock_back (P := P) (W := W) fun sc hs => visitSs_back b _ _ fun _ => .inl hs
      have := visitElses_back es
      within
  | .se tok c b es (some d), P, W, y, l, h => by
      unfold visitS
      have := visitE_back c
      have := newBlock_back (P := P) (W := W) fun sc hs => visitSs_back b _ _ fun _ => .inl hs
      have := visitElses_back es
      have := newBlock_back (P := P) (W := W) fun sc hs => visitSs_back d _ _ fun _ => .inl hs
      within
  | .enquanto tok c b, P, W, y, l, h => by
      unfold visitS
      refine Within.next inferInstance fun _ => Within.next (visitE_back c _ _ _) fun x => Within.next inferInstance fun _ => ?_
      refine Within.get fun s0 h0 => ?_
      have hl : s0.ana.inLoop = P.loop := congrArg Place.loop h0
      dsimp only
      refine Within.bind (P1 := { P with loop := true }) (R1 := fun _ => []) (Within.set (fun _ => ⟨rfl, rfl, rfl⟩) ?_ rfl rfl) fun _ => ?_
      · rintro s rfl; rfl
      · refine Within.next (newBlock_back fun sc hs => visitSs_back b _ _ fun _ => .inl hs) fun bl => ?_
        refine Within.bind (P1 := P) (R1 := fun _ => []) (Within.set (fun _ => ⟨rfl, rfl, rfl⟩) ?_ rfl rfl) fun _ => Within.pure (by simp)
        intro s hs
        simp only [Ana.place] at hs ⊢
        injection hs with h1 h2 h3 h4 h5 h6 h7
        rw [hl]
        simp [*]
  | .escolha tok c cs none, P, W, y, l, h => by
      unfold visitS
      have := visitE_back c
      have := visitCases_back cs
      within
  | .escolha tok c cs (some d), P, W, y, l, h => by
      unfold visitS
      have := visitE_back c
      have := visitCases_back cs
      have := newBlock_back (P := P) (W := W) fun sc hs => visitSs_back d _ _ fun _ => .inl hs
      within
  | .para tok x a z none b, P, W, y, l, h => by
      unfold visitS
      refine Within.next inferInstance fun _ => Within.next (visitE_back a _ _ _) fun _ => Within.next (visitE_back z _ _ _) fun _ => ?_
      refine Within.next inferInstance fun _ => Within.bind paraScope_within fun sc => ?_
      refine Within.new (sc := sc) (p := P.scope) (by simp) fun hs => ?_
      refine Within.next (inBlock_back (by simp) (visitSs_back b _ _ fun _ => .inl hs)) fun _ => Within.pure (by simp)
  | .para tok x a z (some i) b, P, W, y, l, h => by
      unfold visitS
      refine Within.next inferInstance fun _ => Within.next (visitE_back a _ _ _) fun _ => Within.next (visitE_back z _ _ _) fun _ => ?_
      refine Within.next (visitE_back i _ _ _) fun _ => ?_
      refine Within.next inferInstance fun _ => Within.bind paraScope_within fun sc => ?_
      refine Within.new (sc := sc) (p := P.scope) (by simp) fun hs => ?_
      refine Within.next (inBlock_back (by simp) (visitSs_back b _ _ fun _ => .inl hs)) fun _ => Within.pure (by simp)
  | .func x ps r none v as, P, W, y, l, h => by
      unfold visitS
      refine Within.next inferInstance fun _ => Within.bind (declareFunc_within (h x.str (by simp [defines]))) fun q => ?_
      obtain ⟨i, sc⟩ := q
      exact Within.pure (by simp)
  | .func x ps r (some b) v as, P, W, y, l, h => by
      unfold visitS
      refine Within.next inferInstance fun _ => Within.bind (declareFunc_within (h x.str (by simp [defines]))) fun q => ?_
      obtain ⟨i, sc⟩ := q
      refine Within.ite (Within.pure (by simp)) ?_
      refine Within.new (sc := sc) (p := P.scope) (by simp) fun hs => ?_
      refine Within.next (inFunction_back (inBlock_back (by simp) (visitSs_back b _ _ fun _ => .inl hs))) fun _ => Within.pure (by simp)
  | .method gs t x ps r b as, P, W, y, l, h => by
      unfold visitS
      refine Within.next inferInstance fun _ => Within.declareMethod (h x.str (by simp [defines])) fun ts q => ?_
      obtain ⟨i, sc, t⟩ := q
      refine Within.ite ?_ ?_
      · refine Within.next inferInstance fun _ => Within.bind (Within.leaveTy (p := P.tys) (by simp)) fun _ => Within.pure (by simp)
      · refine Within.new (sc := sc) (p := P.scope) (by simp) fun hs => ?_
        refine Within.next (inFunction_back (inBlock_back (by simp) (visitSs_back b _ _ fun _ => .inl hs))) fun _ => ?_
        refine Within.next inferInstance fun _ => Within.bind (Within.leaveTy (p := P.tys) (by simp)) fun _ => Within.pure (by simp)
  | .registo x gs fs as, P, W, y, l, h => by
      unfold visitS
      refine Within.next inferInstance fun _ => Within.openRegisto (h x.str (by simp [defines])) fun ts r reg hr => ?_
      refine Within.next (visitFields_back fs _ _ fun _ => .inl hr) fun inits => ?_
      refine Within.bind (closeRegisto_within (h x.str (by simp [defines])) (by simp) (by simp) (by simp)) fun _ => Within.pure (by simp)
  | .uniao x gs vs as, P, W, y, l, h => by
      unfold visitS
      have := (declareUniao_within (W := W) (cfg := cfg) (m := mod) (g := gs) (vs := vs) (h x.str (by simp [defines]))).forget
      within
  | .usa _ _ _, P, W, _, _, _ => by unfold visitS; within
theorem visitFields_back : ∀ ss : List Stmt, ∀ P W, (∀ m, Free n D P.scope m) → Back P n D W (visitFields cfg mod ss)
  | [], P, W, _ => by unfold visitFields; within
  | s :: ss, P, W, h => by
      have hr := visitFields_back ss P W h
      match s with
      | .varDecl tok name ty none =>
        unfold visitFields
        have := declareVar_back (W := W) (cfg := cfg) (m := mod) (tok := tok) (ty := ty) (e := none) (h name.str)
        within
      | .varDecl tok name ty (some e) =>
        unfold visitFields
        have := declareVar_back (W := W) (cfg := cfg) (m := mod) (tok := tok) (ty := ty) (e := some e) (h name.str)
        have := visitE_back e
        within
      | .expr _ | .loopCtl _ | .retorna _ _ | .produz _ _ | .mostra _ _ | .se _ _ _ _ _ | .enquanto _ _ _
      | .escolha _ _ _ _ | .para _ _ _ _ _ _ | .func _ _ _ _ _ _ | .method _ _ _ _ _ _ _ | .registo _ _ _ _
      | .uniao _ _ _ _ | .usa _ _ _ => unfold visitFields; within
theorem visitCases_back : ∀ es : List ElseIf, ∀ P W t, Back P n D W (visitCases cfg mod t es)
  | [], P, W, _ => by unfold visitCases; within
  | .mk tok c b :: rest, P, W, t => by
      unfold visitCases
      have := visitE_back c
      have := newBlock_back (P := P) (W := W) fun sc hs => visitSs_back b _ _ fun _ => .inl hs
      have := visitCases_back rest
      within
theorem visitElses_back : ∀ es : List ElseIf, ∀ P W, Back P n D W (visitElses cfg mod es)
  | [], P, W => by unfold visitElses; within
  | .mk tok c b :: rest, P, W => by
      unfold visitElses
      have := visitE_back c
      have := newBlock_back (P := P) (W := W) fun sc hs => visitSs_back b _ _ fun _ => .inl hs
      have := visitElses_back rest
      within
theorem visitSs_back : ∀ ss : List Stmt, ∀ P W, (∀ m, Free n D P.scope m) → Back P n D W (visitSs cfg mod ss)
  | [], P, W, _ => by unfold visitSs; within
  | s :: ss, P, W, h => by
      unfold visitSs
      have := fun y l => visitS_back s P W y l fun m _ => h m
      have := visitSs_back ss P W h
      within
theorem visitYs_back : ∀ ss : List Stmt, ∀ P W, (∀ m, Free n D P.scope m) → Back P n D W (visitYs cfg mod ss)
  | [], P, W, _ => by unfold visitYs; within
  | s :: ss, P, W, h => by
      unfold visitYs
      have := fun y l => visitS_back s P W y l fun m _ => h m
      have := visitYs_back ss P W h
      within
end

end

/-! ## Declarations -/

section
variable {cfg : CCfg} {mod : String} {n : Nat} {D : ScopeId → String → Prop}

/-- After a declaration its name is defined in the scope it stands in. -/
theorem visitS_bound : ∀ s : Stmt, ∀ P W y l, (∀ m ∈ defines s, Free n D P.scope m) →
    ∀ x ∈ defines s, Within P P n D W (fun _ => [.bound P.scope x]) (visitS cfg mod y l s)
  | .varDecl tok name ty none, P, W, y, l, h, x, hx => by
      obtain rfl := List.mem_singleton.mp hx
      unfold visitS
      refine Within.next inferInstance fun _ => Within.bind (declareVar_within (h _ hx)) fun q => Within.told ?_ (by simp)
      within
  | .varDecl tok name ty (some e), P, W, y, l, h, x, hx => by
      obtain rfl := List.mem_singleton.mp hx
      unfold visitS
      refine Within.next inferInstance fun _ => Within.bind (declareVar_within (h _ hx)) fun q => Within.told ?_ (by simp)
      have := visitE_back (cfg := cfg) (mod := mod) (n := n) (D := D) e
      within
  | .func f ps r none v as, P, W, y, l, h, x, hx => by
      obtain rfl := List.mem_singleton.mp hx
      unfold visitS
      refine Within.next inferInstance fun _ => Within.bind (declareFunc_within (h _ hx)) fun q => ?_
      obtain ⟨i, sc⟩ := q
      exact Within.pure (by simp)
  | .func f ps r (some b) v as, P, W, y, l, h, x, hx => by
      obtain rfl := List.mem_singleton.mp hx
      unfold visitS
      refine Within.next inferInstance fun _ => Within.bind (declareFunc_within (h _ hx)) fun q => ?_
      obtain ⟨i, sc⟩ := q
      refine Within.ite (Within.pure (by simp)) ?_
      refine Within.new (sc := sc) (p := P.scope) (by simp) fun hs => ?_
      refine Within.next (inFunction_back (inBlock_back (by simp) (visitSs_back b _ _ fun _ => .inl hs))) fun _ => Within.pure (by simp)
  | .method gs t f ps r b as, P, W, y, l, h, x, hx => by
      obtain rfl := List.mem_singleton.mp hx
      unfold visitS
      refine Within.next inferInstance fun _ => Within.declareMethod (h _ hx) fun ts q => ?_
      obtain ⟨i, sc, t⟩ := q
      refine Within.ite ?_ ?_
      · refine Within.next inferInstance fun _ => Within.bind (Within.leaveTy (p := P.tys) (by simp)) fun _ => Within.pure (by simp)
      · refine Within.new (sc := sc) (p := P.scope) (by simp) fun hs => ?_
        refine Within.next (inFunction_back (inBlock_back (by simp) (visitSs_back b _ _ fun _ => .inl hs))) fun _ => ?_
        refine Within.next inferInstance fun _ => Within.bind (Within.leaveTy (p := P.tys) (by simp)) fun _ => Within.pure (by simp)
  | .registo f gs fs as, P, W, y, l, h, x, hx => by
      obtain rfl := List.mem_singleton.mp hx
      unfold visitS
      refine Within.next inferInstance fun _ => Within.openRegisto (h _ hx) fun ts r reg hr => ?_
      refine Within.next (visitFields_back fs _ _ fun _ => .inl hr) fun inits => ?_
      refine Within.bind (closeRegisto_within (h _ hx) (by simp) (by simp) (by simp)) fun _ => Within.pure (by simp)
  | .uniao f gs vs as, P, W, y, l, h, x, hx => by
      obtain rfl := List.mem_singleton.mp hx
      unfold visitS
      refine Within.next inferInstance fun _ => Within.bind (declareUniao_within (h _ hx)) fun q => Within.pure (by simp)
  | .expr _, _, _, _, _, _, _, hx | .loopCtl _, _, _, _, _, _, _, hx | .retorna _ _, _, _, _, _, _, _, hx | .produz _ _, _, _, _, _, _, _, hx
  | .mostra _ _, _, _, _, _, _, _, hx | .se _ _ _ _ _, _, _, _, _, _, _, hx | .enquanto _ _ _, _, _, _, _, _, _, hx
  | .escolha _ _ _ _, _, _, _, _, _, _, hx | .para _ _ _ _ _ _, _, _, _, _, _, _, hx | .usa _ _ _, _, _, _, _, _, _, hx => nomatch hx

end

/-- The function fails where the name is defined in the scope. -/
def Refuses {α : Type} (x : String) (m : C α) : Prop := ∀ s a s', m s = .ok (a, s') → lookIn s.scopes s.ana.ctxScope x = none

section
variable {α β : Type} {x : String}

theorem Refuses.first {m : C α} {f : α → C β} (h : Refuses x m) : Refuses x (m >>= f) := by
  intro s b s' hb
  obtain ⟨a, s1, h1, -⟩ := C.bind_ok.mp hb
  exact h s a s1 h1

theorem Refuses.after {m : C α} {f : α → C β} (hm : Still m) (h : ∀ a, Refuses x (f a)) : Refuses x (m >>= f) := by
  intro s b s' hb
  obtain ⟨a, s1, h1, h2⟩ := C.bind_ok.mp hb
  obtain ⟨e1, e2, -⟩ := hm.run _ _ _ h1
  have := h a s1 b s' h2
  rw [e1, congrArg Place.scope e2 |> (show s1.ana.ctxScope = s.ana.ctxScope from ·)] at this
  exact this

theorem assertFree_refuses {tok : Token} : Refuses x (assertFree tok x) := by
  intro s b s' hb
  unfold assertFree at hb
  obtain ⟨a, s1, h1, h2⟩ := C.bind_ok.mp hb
  obtain ⟨rfl, rfl⟩ := C.get_ok.mp h1
  obtain ⟨r, s2, h3, h4⟩ := C.bind_ok.mp h2
  obtain ⟨hr, rfl⟩ := getIn_ok.mp h3
  rw [← hr]
  cases r with
  | none => rfl
  | some i =>
    dsimp only at h4
    split at h4
    · obtain ⟨_, _, _, h5⟩ := C.bind_ok.mp h4
      exact (C.error_ok.mp h5).elim
    · exact (C.error_ok.mp h4).elim

theorem validateDecl_refuses {a b : String} : Refuses x (validateDecl x a b) := by
  intro s b s' hb
  unfold validateDecl at hb
  obtain ⟨a, s1, h1, h2⟩ := C.bind_ok.mp hb
  obtain ⟨rfl, rfl⟩ := C.get_ok.mp h1
  split at h2
  · exact (C.error_ok.mp h2).elim
  obtain ⟨r, s2, h3, h4⟩ := C.bind_ok.mp h2
  obtain ⟨hr, rfl⟩ := getIn_ok.mp h3
  rw [← hr]
  cases r with
  | none => rfl
  | some i => exact (C.error_ok.mp h4).elim

/-- After making a scope. -/
theorem Refuses.inner {f : ScopeId → C β} (h : ∀ sc, Refuses x (f sc)) : Refuses x (innerScope >>= f) := by
  intro s b s' hb
  obtain ⟨sc, s1, h1, h2⟩ := C.bind_ok.mp hb
  unfold innerScope at h1
  obtain ⟨s0, s2, h3, h4⟩ := C.bind_ok.mp h1
  obtain ⟨rfl, rfl⟩ := C.get_ok.mp h3
  obtain ⟨rfl, rfl⟩ := newScope_ok.mp h4
  have := h _ _ _ _ h2
  dsimp only at this
  unfold lookIn at this ⊢
  rcases Nat.lt_or_ge s2.ana.ctxScope s2.scopes.length with hlt | hge
  · rwa [List.getElem?_append_left hlt] at this
  · rw [List.getElem?_eq_none hge]
    rfl

end

/-- A declaration, not of a method, is refused if its name is defined in the scope. -/
theorem visitS_refuses {cfg : CCfg} {mod : String} {y l : Bool} : ∀ s : Stmt, (∀ gs t f ps r b as, s ≠ .method gs t f ps r b as) →
    ∀ x ∈ defines s, Refuses x (visitS cfg mod y l s)
  | .varDecl tok name ty none, _, x, hx => by
      obtain rfl := List.mem_singleton.mp hx
      unfold visitS
      refine Refuses.after inferInstance fun _ => Refuses.first ?_
      unfold declareVar
      exact Refuses.first assertFree_refuses
  | .varDecl tok name ty (some e), _, x, hx => by
      obtain rfl := List.mem_singleton.mp hx
      unfold visitS
      refine Refuses.after inferInstance fun _ => Refuses.first ?_
      unfold declareVar
      exact Refuses.first assertFree_refuses
  | .func f ps r none v as, _, x, hx => by
      obtain rfl := List.mem_singleton.mp hx
      unfold visitS
      refine Refuses.after inferInstance fun _ => Refuses.first ?_
      unfold declareFunc
      exact Refuses.first validateDecl_refuses
  | .func f ps r (some b) v as, _, x, hx => by
      obtain rfl := List.mem_singleton.mp hx
      unfold visitS
      refine Refuses.after inferInstance fun _ => Refuses.first ?_
      unfold declareFunc
      exact Refuses.first validateDecl_refuses
  | .registo f gs fs as, _, x, hx => by
      obtain rfl := List.mem_singleton.mp hx
      unfold visitS
      refine Refuses.after inferInstance fun _ => Refuses.first ?_
      unfold openRegisto
      refine Refuses.inner fun sc => ?_
      intro s b s' hb
      obtain ⟨a, s1, h1, h2⟩ := C.bind_ok.mp hb
      obtain ⟨rfl, rfl⟩ := C.get_ok.mp h1
      obtain ⟨r, s2, h3, h4⟩ := C.bind_ok.mp h2
      obtain ⟨hr, rfl⟩ := getIn_ok.mp h3
      rw [← hr]
      cases r with
      | none => rfl
      | some i => exact (C.error_ok.mp h4).elim
  | .uniao f gs vs as, _, x, hx => by
      obtain rfl := List.mem_singleton.mp hx
      unfold visitS
      refine Refuses.after inferInstance fun _ => Refuses.first ?_
      unfold declareUniao
      refine Refuses.inner fun sc => ?_
      intro s b s' hb
      obtain ⟨a, s1, h1, h2⟩ := C.bind_ok.mp hb
      obtain ⟨rfl, rfl⟩ := C.get_ok.mp h1
      obtain ⟨r, s2, h3, h4⟩ := C.bind_ok.mp h2
      obtain ⟨hr, rfl⟩ := getIn_ok.mp h3
      rw [← hr]
      cases r with
      | none => rfl
      | some i => exact (C.error_ok.mp h4).elim
  | .method gs t f ps r b as, h, _, _ => absurd rfl (h gs t f ps r b as)
  | .expr _, _, _, hx | .loopCtl _, _, _, hx | .retorna _ _, _, _, hx | .produz _ _, _, _, hx
  | .mostra _ _, _, _, hx | .se _ _ _ _ _, _, _, hx | .enquanto _ _ _, _, _, hx
  | .escolha _ _ _ _, _, _, hx | .para _ _ _ _ _ _, _, _, hx | .usa _ _ _, _, _, hx => nomatch hx

/-! ## What a name means -/

/-- A name means the same where no scope around has changed for it. -/
theorem seen_kept {s s' : CState} {x : String} (hd : ∀ i p : Nat, parentOf s i = some p → p < i)
    (hlook : ∀ i : Nat, i < s.scopes.length → lookIn s'.scopes i x = lookIn s.scopes i x)
    (hpar : ∀ i : Nat, i < s.scopes.length → parentOf s' i = parentOf s i) (hgrow : s.scopes.length ≤ s'.scopes.length) :
    ∀ k : Nat, k < s.scopes.length → ∀ i, Seen s'.scopes x k i ↔ Seen s.scopes x k i := by
  intro k
  induction k using Nat.strongRecOn with
  | ind k ih =>
    intro hk i
    have h1 := hlook k hk
    have h2 := hpar k hk
    obtain ⟨t, ht⟩ : ∃ t, s.scopes[k]? = some t := ⟨_, List.getElem?_eq_getElem hk⟩
    obtain ⟨t', ht'⟩ : ∃ t', s'.scopes[k]? = some t' := ⟨_, List.getElem?_eq_getElem (Nat.lt_of_lt_of_le hk hgrow)⟩
    have hl : look t' x = look t x := by simpa [lookIn, ht, ht'] using h1
    have hp : t'.parent = t.parent := by simpa [parentOf, ht, ht'] using h2
    constructor
    · intro h
      cases h with
      | here a b => rw [ht'] at a; cases a; exact .here ht (hl ▸ b)
      | up a b c d =>
        rw [ht'] at a
        cases a
        rename_i p
        have hlt := hd k p (by simp [parentOf, ht, ← hp, c])
        exact .up ht (hl ▸ b) (hp ▸ c) ((ih p hlt (Nat.lt_trans hlt hk) i).mp d)
    · intro h
      cases h with
      | here a b => rw [ht] at a; cases a; exact .here ht' (hl ▸ b)
      | up a b c d =>
        rw [ht] at a
        cases a
        rename_i p
        have hlt := hd k p (by simp [parentOf, ht, c])
        exact .up ht' (hl ▸ b) (hp ▸ c) ((ih p hlt (Nat.lt_trans hlt hk) i).mpr d)

end Amanda.Check

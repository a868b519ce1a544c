import Verif.ParseLines
import Verif.Elaborate

/-!
# The lines the checker reports

Used by C64: errors raised by the checker carry the line of a token of the tree that is visited, or line 1, the line of
the tokens blocks are given (ast.py:80).
-/

namespace Amanda.Check

open Lines

/-! ## Functions that report nothing -/

/-- Errors without a line. -/
def Silent {α : Type} (r : Except PyErr α) : Prop := ∀ m l c, r ≠ .error (.amanda m l c)

section
variable {α β : Type}

theorem silent_ok {a : α} : Silent (.ok a : Except PyErr α) := fun _ _ _ h => nomatch h
theorem silent_exc {n : String} : Silent (.error (.exc n) : Except PyErr α) := fun _ _ _ h => nomatch h
theorem silent_fuel : Silent (.error .fuel : Except PyErr α) := fun _ _ _ h => nomatch h

theorem silent_error {x : Except PyErr α} {e : PyErr} (h : Silent x) (hx : x = .error e) : Silent (.error e : Except PyErr β) := by
  intro m l c he
  cases he
  exact h m l c hx

theorem silent_bind {x : Except PyErr α} {f : α → Except PyErr β} (h : Silent x) (hf : ∀ a, Silent (f a)) : Silent (x >>= f) := by
  cases x with
  | error e => intro m l c he; exact h m l c (by cases he; rfl)
  | ok a => exact hf a

theorem silent_map {x : Except PyErr α} {f : α → β} (h : Silent x) : Silent (x.map f) := by
  cases x with
  | error e => intro m l c he; exact h m l c (by cases he; rfl)
  | ok a => exact silent_ok

theorem silent_mapM {f : α → Except PyErr β} (hf : ∀ a, Silent (f a)) : ∀ l : List α, Silent (l.mapM f)
  | [] => by rw [List.mapM_nil]; exact silent_ok
  | a :: l => by
      rw [List.mapM_cons]
      exact silent_bind (hf a) fun _ => silent_bind (silent_mapM hf l) fun _ => silent_ok

end

mutual
theorem promote_silent (a : Ty) : ∀ b, Silent (Ty.promote a b)
  | .app m n args => by
      unfold Ty.promote
      split
      · exact silent_ok
      · split
        · exact silent_ok
        · split
          · exact silent_error (promoteInner_silent a args) ‹_›
          · exact silent_ok
          · exact silent_ok
  | .prim _ | .vec _ | .registo _ _ | .uniao _ _ | .tvar _ | .module _ => by unfold Ty.promote; exact silent_ok
theorem promoteInner_silent (a : Ty) : ∀ b, Silent (Ty.promoteInner a b)
  | .nil => by unfold Ty.promoteInner; exact silent_exc
  | .cons p t rest => by
      unfold Ty.promoteInner
      split
      · split
        · exact silent_ok
        · split
          · exact silent_error (promote_silent a t) ‹_›
          · exact silent_ok
      · exact promoteInner_silent a rest
end

theorem typesMatch_silent (a b : Ty) : Silent (Ty.typesMatch a b) := by
  unfold Ty.typesMatch
  split
  · exact silent_ok
  · exact silent_map (promote_silent _ _)

mutual
theorem checkCast_silent (a : Ty) : ∀ b, Silent (Ty.checkCast a b)
  | .app m n args => by
      unfold Ty.checkCast
      split
      · exact silent_ok
      · split
        · exact silent_ok
        · exact castInner_silent a args
  | .prim _ | .vec _ | .registo _ _ | .uniao _ _ | .tvar _ | .module _ => by unfold Ty.checkCast; exact silent_ok
theorem castInner_silent (a : Ty) : ∀ b, Silent (Ty.castInner a b)
  | .nil => by unfold Ty.castInner; exact silent_exc
  | .cons p t rest => by
      unfold Ty.castInner
      split
      · split
        · exact silent_ok
        · exact checkCast_silent a t
      · exact castInner_silent a rest
end

section
open Iguala

theorem spread_silent (v : MVar) : ∀ (rs : List Nat) (cases : List RawCase) (σ : Iguala.PState), Silent (spread v rs cases σ)
  | [], _, _ => by unfold spread; exact silent_ok
  | r :: rs, cases, σ => by
      unfold spread
      repeat' first
        | exact silent_exc
        | exact spread_silent v _ _ _
        | split

theorem gather_silent (v : MVar) : ∀ (rs : List Nat) (t : List (Cons × Nat)) (raw : List RawCase) (fb : List Nat) (σ : Iguala.PState),
    Silent (gather v rs t raw fb σ)
  | [], _, _, _, _ => by unfold gather; exact silent_ok
  | r :: rs, t, raw, fb, σ => by
      unfold gather
      repeat' first
        | exact silent_exc
        | exact gather_silent v _ _ _ _ _
        | split

theorem compileCases_silent {go : List Nat → Iguala.P MTree} (hg : ∀ l σ, Silent (go l σ)) :
    ∀ (cs : List RawCase) (σ : Iguala.PState), Silent (compileCases go cs σ)
  | [], _ => by unfold compileCases; exact silent_ok
  | (k, vs, ids) :: rest, σ => by
      unfold compileCases
      split
      · exact silent_error (hg _ _) ‹_›
      · split
        · exact silent_error (compileCases_silent hg rest _) ‹_›
        · exact silent_ok

theorem branch_silent {U : Unions} {go : List Nat → Iguala.P MTree} (hg : ∀ l σ, Silent (go l σ)) (r : Nat) (rs : List Nat) (σ : Iguala.PState) :
    Silent (branch U go r rs σ) := by
  unfold branch
  split
  · exact silent_ok
  · simp only
    split
    · split
      · exact silent_error (spread_silent _ _ _ _) ‹_›
      · split
        · exact silent_error (compileCases_silent hg _ _) ‹_›
        · exact silent_ok
    · split
      · split
        · exact silent_error (gather_silent _ _ _ _ _ _) ‹_›
        · split
          · exact silent_error (compileCases_silent hg _ _) ‹_›
          · split
            · exact silent_error (hg _ _) ‹_›
            · exact silent_ok
      · exact silent_exc

theorem compileRows_silent (U : Unions) : ∀ (n : Nat) (rs : List Nat) (σ : Iguala.PState), Silent (compileRows U n rs σ)
  | 0, _, _ => by unfold compileRows; exact silent_fuel
  | _ + 1, [], _ => by unfold compileRows; exact silent_ok
  | n + 1, r :: rs, σ => by unfold compileRows; exact branch_silent (compileRows_silent U n) r rs _

theorem compile_silent (U : Unions) (v : MVar) (arms : List MPat) (names : List String) : Silent (compile U v arms names) := by
  unfold compile
  split
  · exact silent_error (compileRows_silent U _ _ _) ‹_›
  · exact silent_ok

theorem patternName_silent (terms : List Term) : ∀ (n : Nat) (t : Term), Silent (patternName terms n t)
  | 0, _ => by unfold patternName; exact silent_exc
  | n + 1, t => by
      unfold patternName
      split
      · exact silent_ok
      · split
        · refine silent_error (silent_mapM (fun a => ?_) _) ‹_›
          split
          · split
            · exact patternName_silent terms n _
            · exact silent_exc
          · exact silent_ok
        · exact silent_ok

theorem caseTerm_silent (v : MVar) (args : List MVar) (k : Cons) : Silent (caseTerm v args k) := by
  unfold caseTerm
  split <;> first | exact silent_ok | exact silent_exc

mutual
theorem missingNames_silent : ∀ (t : MTree) (terms : List Term), Silent (missingNames t terms)
  | .success _, _ => by unfold missingNames; exact silent_ok
  | .fail, terms => by
      unfold missingNames
      split
      · exact silent_ok
      · exact silent_map (patternName_silent _ _ _)
  | .switch v cases none, terms => by unfold missingNames; exact missingCases_silent v cases terms
  | .switch v cases (some t), terms => by
      unfold missingNames
      exact silent_bind (missingCases_silent v cases terms) fun _ => silent_bind (missingNames_silent t terms) fun _ => silent_ok
theorem missingCases_silent (v : MVar) : ∀ (cs : List (Cons × List MVar × MTree)) (terms : List Term), Silent (missingCases v cs terms)
  | [], _ => by unfold missingCases; exact silent_ok
  | (k, args, t) :: rest, terms => by
      unfold missingCases
      exact silent_bind (caseTerm_silent v args k) fun term => silent_bind (missingNames_silent t _) fun _ =>
        silent_bind (missingCases_silent v rest terms) fun _ => silent_ok
end

end

/-! ## The judgement -/

/-- What a run may end with: the current line, or the line of an error, is one of `Q`; the analyzers that wait are the
same. -/
def endsIn {α : Type} (Q : Nat → Prop) (w : List Ana) : Except PyErr (α × CState) → Prop
  | .ok r => Q r.2.ana.line ∧ r.2.waiting = w
  | .error (.amanda _ l _) => Q l
  | .error _ => True

/-- Started at a line of `Q`, the function stays on such lines, and so do its errors. -/
class Lined {α : Type} (Q : Nat → Prop) (m : C α) : Prop where
  run : ∀ s : CState, Q s.ana.line → endsIn Q s.waiting (m s)

/-- The same started anywhere. -/
def Anew {α : Type} (Q : Nat → Prop) (m : C α) : Prop := ∀ s : CState, endsIn Q s.waiting (m s)

section
variable {α β : Type} {Q : Nat → Prop}

theorem Anew.lined {m : C α} (h : Anew Q m) : Lined Q m := ⟨fun s _ => h s⟩

theorem Lined.bind {m : C α} {f : α → C β} (h : Lined Q m) (hf : ∀ a, Lined Q (f a)) : Lined Q (m >>= f) := by
  constructor
  intro s hs
  have h1 := h.run s hs
  show endsIn Q s.waiting (match m s with | .error e => .error e | .ok (a, s') => f a s')
  cases hm : m s with
  | error e => rw [hm] at h1; cases e <;> exact h1
  | ok r => rw [hm] at h1; exact h1.2 ▸ (hf r.1).run r.2 h1.1

theorem Anew.bind {m : C α} {f : α → C β} (h : Anew Q m) (hf : ∀ a, Lined Q (f a)) : Anew Q (m >>= f) := by
  intro s
  have h1 := h s
  show endsIn Q s.waiting (match m s with | .error e => .error e | .ok (a, s') => f a s')
  cases hm : m s with
  | error e => rw [hm] at h1; cases e <;> exact h1
  | ok r => rw [hm] at h1; exact h1.2 ▸ (hf r.1).run r.2 h1.1

instance {a : α} : Lined Q (pure a : C α) := ⟨fun _ h => ⟨h, rfl⟩⟩
instance {n : String} : Lined Q (C.raise n : C α) := ⟨fun _ _ => trivial⟩
instance {n : String} : Lined Q (C.error n : C α) := ⟨fun _ h => h⟩
instance : Lined Q C.get := ⟨fun _ h => ⟨h, rfl⟩⟩

theorem Anew.raise {n : String} : Anew Q (C.raise n : C α) := fun _ => trivial

theorem Lined.modify {f : CState → CState} (h : ∀ s, (f s).ana.line = s.ana.line ∧ (f s).waiting = s.waiting) : Lined Q (C.modify f) :=
  ⟨fun s hs => show Q (f s).ana.line ∧ (f s).waiting = s.waiting from ⟨(h s).1.symm ▸ hs, (h s).2⟩⟩

theorem Lined.errorAt {t : Token} {m : String} (h : Q t.line) : Lined Q (C.errorAt t m : C α) := ⟨fun _ _ => h⟩

theorem Anew.at_ {t : Token} (h : Q t.line) : Anew Q (C.at_ t) := fun _ => ⟨h, rfl⟩

theorem Lined.at_ {t : Token} (h : Q t.line) : Lined Q (C.at_ t) := (Anew.at_ h).lined

theorem Lined.lift {r : Except PyErr α} (h : Silent r) : Lined Q (C.lift r) := by
  constructor
  intro s hs
  unfold C.lift
  split
  · exact ⟨hs, rfl⟩
  · rename_i e
    cases e with
    | amanda m l c => exact absurd rfl (h m l c)
    | _ => trivial

theorem Lined.ite {c : Prop} [Decidable c] {m m' : C α} (h : Lined Q m) (h' : Lined Q m') : Lined Q (if c then m else m') := by
  split
  · exact h
  · exact h'

end

/-- Steps through a function of the checker. -/
macro "lined" : tactic => `(tactic| repeat' first
  | assumption
  | infer_instance
  | exact Lined.modify fun _ => ⟨rfl, rfl⟩
  | exact Lined.lift (promote_silent _ _)
  | exact Lined.lift (typesMatch_silent _ _)
  | exact Lined.lift (checkCast_silent _ _)
  | exact Lined.lift (compile_silent _ _ _ _)
  | exact Lined.lift (missingNames_silent _ _)
  | (refine Lined.at_ ?_; assumption)
  | (refine Lined.errorAt ?_; assumption)
  | dsimp only
  | refine Lined.ite ?_ ?_
  | refine Lined.bind ?_ (fun _ => ?_)
  | split)

section
variable {Q : Nat → Prop}

instance {i : SymId} : Lined Q (symOf i) := ⟨fun s hs => by unfold symOf; split <;> first | exact ⟨hs, rfl⟩ | exact trivial⟩
instance {x : CSym} : Lined Q (newSym x) := ⟨fun _ hs => ⟨hs, rfl⟩⟩
instance {i : SymId} {f : CSym → CSym} : Lined Q (updSym i f) := ⟨fun _ hs => ⟨hs, rfl⟩⟩
instance {p : Option ScopeId} : Lined Q (newScope p) := ⟨fun _ hs => ⟨hs, rfl⟩⟩
instance {sc : ScopeId} {n : String} {i : SymId} : Lined Q (define sc n i) := ⟨fun _ hs => ⟨hs, rfl⟩⟩
instance {sc : ScopeId} : Lined Q (symbolsOf sc) := ⟨fun _ hs => ⟨hs, rfl⟩⟩
instance {sc : ScopeId} {n : String} : Lined Q (getIn sc n) := by unfold getIn; lined
instance {sc : ScopeId} {n : String} : Lined Q (resolveIn sc n) := ⟨fun _ hs => ⟨hs, rfl⟩⟩
instance {n : String} : Lined Q (resolve n) := by unfold resolve; lined
instance {cfg : CCfg} {i : SymId} {d : Nat} {sc : ScopeId} : Lined Q (defineSymbol cfg i d sc) := by unfold defineSymbol; lined
instance {t : CTy} : Lined Q (view t) := by unfold view; lined
instance {t : CTy} : Lined Q (showTy t) := by unfold showTy; lined
instance {t u : CTy} : Lined Q (sameTy t u) := by unfold sameTy; lined
instance {t u : CTy} : Lined Q (promTy t u) := by unfold promTy; lined
instance {t u : CTy} : Lined Q (matchTy t u) := by unfold matchTy; lined
instance {t : CTy} : Lined Q (tagOf t) := by unfold tagOf; lined
instance {i : SymId} : Lined Q (symTy i) := by unfold symTy; lined
instance {n : String} : Lined Q (namedTy n) := by unfold namedTy; lined
instance {n : String} : Lined Q (globalTy n) := by unfold globalTy; lined
instance {n : String} : Lined Q (typeSym n) := by unfold typeSym; lined
instance {t : CTy} : Lined Q (tyParams t) := by unfold tyParams; lined
instance {t : CTy} {as : CArgs} : Lined Q (bindTy t as) := by unfold bindTy; lined
instance {t : CTy} : Lined Q (optionOf t) := by unfold optionOf; lined
instance {sc : ScopeId} {n : String} : Lined Q (modOf sc n) := by unfold modOf; lined
instance {n : String} : Lined Q (modScope n) := by unfold modScope; lined

theorem modPathOf_lined : ∀ (l : List String) (p : String), Lined Q (modPathOf p l)
  | [], _ => by unfold modPathOf; lined
  | c :: cs, p => by
      unfold modPathOf
      have := modPathOf_lined cs
      lined

instance {p : String} {l : List String} : Lined Q (modPathOf p l) := modPathOf_lined l p

theorem constructTy_lined {t : CTy} {b : Bool} {as : Option (C (List CTy))} {n : Nat} (h : ∀ m, as = some m → Lined Q m) :
    Lined Q (constructTy t b as n) := by
  unfold constructTy
  split
  · infer_instance
  · split
    · infer_instance
    · have := h _ rfl
      lined

theorem pathTy_lined {comps : List (List Char)} {b : Bool} {as : Option (C (List CTy))} {n : Nat} (h : ∀ m, as = some m → Lined Q m) :
    Lined Q (getTy.pathTy comps b as n) := by
  unfold getTy.pathTy
  have := fun t => constructTy_lined (t := t) (b := b) (n := n) h
  lined

mutual
theorem getTy_lined : ∀ t, Lined Q (getTy t)
  | .name tok maybe none => by
      unfold getTy
      have := fun t => constructTy_lined (Q := Q) (t := t) (b := maybe) (as := none) (n := 0) (by simp)
      lined
  | .name tok maybe (some args) => by
      unfold getTy
      have := getTys_lined args
      have := fun t => constructTy_lined (Q := Q) (t := t) (b := maybe) (as := some (getTys args)) (n := args.length) (by simpa using this)
      lined
  | .path _ comps maybe none => by unfold getTy; exact pathTy_lined (by simp)
  | .path _ comps maybe (some args) => by
      unfold getTy
      have := getTys_lined args
      exact pathTy_lined (by simpa using this)
  | .array el maybe => by
      unfold getTy
      have := getTy_lined el
      lined
theorem getTys_lined : ∀ ts, Lined Q (getTys ts)
  | [] => by unfold getTys; lined
  | t :: ts => by
      unfold getTys
      have := getTy_lined t
      have := getTys_lined ts
      lined
end

instance {t : TyExpr} : Lined Q (getTy t) := getTy_lined t
instance {ts : List TyExpr} : Lined Q (getTys ts) := getTys_lined ts
instance {t : Option TyExpr} : Lined Q (getTy? t) := by unfold getTy?; lined

end

section
variable {Q : Nat → Prop}

instance {as : CArgs} {i : SymId} : Lined Q (bindVar as i) := by unfold bindVar; lined

theorem bindParams_lined {as : CArgs} : ∀ l, Lined Q (bindParams as l)
  | [] => by unfold bindParams; lined
  | (n, i) :: rest => by
      unfold bindParams
      have := bindParams_lined (as := as) rest
      lined

instance {as : CArgs} {l : List (String × SymId)} : Lined Q (bindParams as l) := bindParams_lined l

theorem genericParams_lined : ∀ l, Lined Q (genericParams l)
  | [] => by unfold genericParams; lined
  | (n, i) :: rest => by
      unfold genericParams
      have := genericParams_lined rest
      lined

instance {l : List (String × SymId)} : Lined Q (genericParams l) := genericParams_lined l
instance {as : CArgs} {i : SymId} : Lined Q (bindSym as i) := by unfold bindSym; lined
instance {o : SymId} {p : String} : Lined Q (objProperty o p) := by unfold objProperty; lined
instance {t : CTy} {p : String} : Lined Q (getProperty t p) := by unfold getProperty; lined
instance {t : CTy} {n : String} {i : SymId} : Lined Q (defineMethod t n i) := by unfold defineMethod; lined
instance {par : Par} {t : CTy} {m : Token} : Lined Q (getProp par t m) := by unfold getProp; lined

theorem useVar_lined {t : Token} (h : Q t.line) : Lined Q (useVar t) := by unfold useVar; lined

theorem downPath_lined : ∀ (l : List Token) (i : SymId), Lined Q (downPath i l)
  | [], _ => by unfold downPath; lined
  | c :: cs, i => by
      unfold downPath
      have := downPath_lined cs
      lined

instance {i : SymId} {l : List Token} : Lined Q (downPath i l) := downPath_lined l i
instance {b : Bool} {l : List Token} : Lined Q (usePath b l) := by unfold usePath; lined
instance {sc : ScopeId} : Lined Q (enterScope sc) := by unfold enterScope; lined
instance : Lined Q leaveScope := ⟨fun s hs => by unfold leaveScope; split <;> first | exact ⟨hs, rfl⟩ | exact trivial⟩
instance : Lined Q innerScope := by unfold innerScope; lined

theorem assertFree_lined {t : Token} {n : String} (h : Q t.line) : Lined Q (assertFree t n) := by unfold assertFree; lined

theorem defineTvars_lined {m : String} {sc : ScopeId} : ∀ l, Lined Q (defineTvars m sc l)
  | [] => by unfold defineTvars; lined
  | n :: ns => by
      unfold defineTvars
      have := defineTvars_lined (m := m) (sc := sc) ns
      lined

instance {m : String} {sc : ScopeId} {l : List String} : Lined Q (defineTvars m sc l) := defineTvars_lined l
instance {m : String} {l : List String} : Lined Q (enterTyCtx m l) := by unfold enterTyCtx; lined
instance : Lined Q leaveTyCtx := ⟨fun s hs => by unfold leaveTyCtx; split <;> first | exact ⟨hs, rfl⟩ | exact trivial⟩
instance {m n : String} {t : CTy} : Lined Q (newVar m n t) := by unfold newVar; lined

theorem paramSyms_lined {m : String} : ∀ (ps : List Param), (∀ p ∈ ps, Q p.name.line) → ∀ acc, Lined Q (paramSyms m ps acc)
  | [], _, _ => by unfold paramSyms; lined
  | p :: ps, h, acc => by
      unfold paramSyms
      have := paramSyms_lined (m := m) ps fun q hq => h q (List.mem_cons_of_mem _ hq)
      have := h p List.mem_cons_self
      lined

theorem defineParams_lined {cfg : CCfg} {d : Nat} {sc : ScopeId} : ∀ l, Lined Q (defineParams cfg d sc l)
  | [] => by unfold defineParams; lined
  | (_, i) :: rest => by
      unfold defineParams
      have := defineParams_lined (cfg := cfg) (d := d) (sc := sc) rest
      lined

instance {cfg : CCfg} {d : Nat} {sc : ScopeId} {l : List (String × SymId)} : Lined Q (defineParams cfg d sc l) :=
  defineParams_lined l
instance {n a b : String} : Lined Q (validateDecl n a b) := by unfold validateDecl; lined

theorem makeFunc_lined {cfg : CCfg} {m : String} {i : SymId} {ps : List Param} (h : ∀ p ∈ ps, Q p.name.line) :
    Lined Q (makeFunc cfg m i ps) := by
  unfold makeFunc
  have := paramSyms_lined (m := m) ps h
  lined

theorem bindPattern_lined {cfg : CCfg} {m : String} {sc : ScopeId} {t : CTy} {tok : Token} (h : Q tok.line) :
    Lined Q (bindPattern cfg m sc t tok) := by
  unfold bindPattern; lined

theorem checkPatArgs_lined {cfg : CCfg} {m : String} {sc : ScopeId} : ∀ (ps : List Pat), patsLines Q ps → ∀ ts,
    Lined Q (checkPatArgs cfg m sc ps ts)
  | [], _, _ => by unfold checkPatArgs; lined
  | p :: ps, h, [] => by unfold checkPatArgs; cases p <;> lined
  | .bind tok :: ps, h, t :: ts => by
      unfold checkPatArgs
      simp only [patsLines, patLines] at h
      have := bindPattern_lined (Q := Q) (cfg := cfg) (m := m) (sc := sc) (t := t) h.1
      have := checkPatArgs_lined (cfg := cfg) (m := m) (sc := sc) ps h.2 ts
      lined
  | .int _ :: ps, h, t :: ts => by
      unfold checkPatArgs
      simp only [patsLines] at h
      exact checkPatArgs_lined ps h.2 ts
  | .str _ :: ps, h, t :: ts => by
      unfold checkPatArgs
      simp only [patsLines] at h
      exact checkPatArgs_lined ps h.2 ts
  | .adtPath .. :: _, _, _ :: _ => by unfold checkPatArgs; lined
  | .adtVar .. :: _, _, _ :: _ => by unfold checkPatArgs; lined

theorem checkPattern_lined {cfg : CCfg} {m : String} {sc : ScopeId} {t : CTy} {p : Pat} (h : patLines Q p) :
    Lined Q (checkPattern cfg m sc t p) := by
  cases p with
  | int t => unfold checkPattern; lined
  | str t => unfold checkPattern; lined
  | bind tok =>
    unfold checkPattern
    have := bindPattern_lined (Q := Q) (cfg := cfg) (m := m) (sc := sc) (t := t) (tok := tok) h
    lined
  | adtVar tok args =>
    unfold checkPattern
    simp only [patLines] at h
    have := useVar_lined (Q := Q) h.1
    have := Lined.at_ (Q := Q) h.1
    lined
  | adtPath comps args =>
    unfold checkPattern
    simp only [patLines] at h
    have : Q (comps.headD noTok).line := by
      cases comps with
      | nil => exact absurd rfl h.1
      | cons c cs => exact h.2.1 c List.mem_cons_self
    have := Lined.at_ (Q := Q) this
    have := checkPatArgs_lined (Q := Q) (cfg := cfg) (m := m) (sc := sc) args h.2.2
    lined

theorem endsIn_bind {α β : Type} {m : C α} {f : α → C β} {s : CState} (h : endsIn Q s.waiting (m s)) (hf : ∀ a, Lined Q (f a)) :
    endsIn Q s.waiting ((m >>= f) s) := by
  show endsIn Q s.waiting (match m s with | .error e => .error e | .ok (a, s') => f a s')
  cases hm : m s with
  | error e => rw [hm] at h; cases e <;> exact h
  | ok r => rw [hm] at h; exact h.2 ▸ (hf r.1).run r.2 h.1

/-- A binding pattern of an arm, whose scope is new, is never refused. -/
theorem bindPattern_new {cfg : CCfg} {m : String} {t : CTy} {tok : Token} {s : CState} {p : Option ScopeId} (hs : Q s.ana.line) :
    endsIn Q s.waiting (bindPattern cfg m s.scopes.length t tok { s with scopes := s.scopes ++ [⟨[], p⟩] }) := by
  have e : bindPattern cfg m s.scopes.length t tok { s with scopes := s.scopes ++ [⟨[], p⟩] } =
      (newVar m tok.str t >>= fun i => C.get >>= fun s' => defineSymbol cfg i (s'.ana.depth + 1) s.scopes.length)
        { s with scopes := s.scopes ++ [⟨[], p⟩] } := by
    have hg : getIn s.scopes.length tok.str { s with scopes := s.scopes ++ [⟨[], p⟩] } =
        .ok (none, { s with scopes := s.scopes ++ [⟨[], p⟩] }) := by
      show Except.ok (((((s.scopes ++ [(⟨[], p⟩ : ScopeTab)])[s.scopes.length]?).map ScopeTab.symbols).getD []).find?
        (·.1 == tok.str) |>.map (·.2), _) = _
      simp
    unfold bindPattern
    show (match getIn s.scopes.length tok.str _ with
      | Except.error e => Except.error e
      | Except.ok (a, s') => (match a with | some _ => _ | none => _ : C Unit) s') = _
    rw [hg]
  rw [e]
  refine Lined.run (self := ?_) _ hs
  lined

theorem checkArms_lined {cfg : CCfg} {m : String} {t : CTy} : ∀ (ps : List Pat), (∀ p ∈ ps, armPatLines Q p) →
    Lined Q (checkArms cfg m t ps)
  | [], _ => by unfold checkArms; lined
  | p :: ps, h => by
      have ih := checkArms_lined (cfg := cfg) (m := m) (t := t) ps fun q hq => h q (List.mem_cons_of_mem _ hq)
      have hp := h p List.mem_cons_self
      unfold checkArms
      cases p with
      | bind tok =>
        constructor
        intro s hs
        refine endsIn_bind (m := checkPattern cfg m s.scopes.length t (.bind tok))
          (s := { s with scopes := s.scopes ++ [⟨[], some s.ana.ctxScope⟩] }) ?_ ?_
        · unfold checkPattern
          exact endsIn_bind (bindPattern_new hs) fun _ => inferInstance
        · intro a; lined
      | _ =>
        have := fun sc => checkPattern_lined (Q := Q) (cfg := cfg) (m := m) (sc := sc) (t := t) hp
        lined

instance {t : CTy} {k : Nat} : Lined Q (variantAt t k) := by unfold variantAt; lined

theorem newTreeVars_lined {m : String} {sc : ScopeId} : ∀ vs ts, Lined Q (newTreeVars m sc vs ts)
  | [], _ => by unfold newTreeVars; lined
  | _ :: _, [] => by unfold newTreeVars; lined
  | v :: vs, t :: ts => by
      unfold newTreeVars
      have := newTreeVars_lined (m := m) (sc := sc) vs ts
      lined

instance {m : String} {sc : ScopeId} {vs : List Iguala.MVar} {ts : List CTy} : Lined Q (newTreeVars m sc vs ts) := newTreeVars_lined vs ts

theorem caseVars_lined {m : String} {sc : ScopeId} {t : CTy} : ∀ cs, Lined Q (caseVars m sc t cs)
  | [] => by unfold caseVars; lined
  | (k, args, u) :: rest => by
      have := caseVars_lined (m := m) (sc := sc) (t := t) rest
      cases k <;> (unfold caseVars; lined)

instance {m : String} {sc : ScopeId} {t : CTy} {cs : List (Iguala.Cons × List Iguala.MVar × Iguala.MTree)} :
    Lined Q (caseVars m sc t cs) := caseVars_lined cs

instance {vars : List (Nat × SymId)} {v : Iguala.MVar} : Lined Q (treeSym vars v) := by unfold treeSym; lined

theorem treeSyms_lined {vars : List (Nat × SymId)} : ∀ vs, Lined Q (treeSyms vars vs)
  | [] => by unfold treeSyms; lined
  | v :: vs => by
      unfold treeSyms
      have := treeSyms_lined (vars := vars) vs
      lined

instance {vars : List (Nat × SymId)} {vs : List Iguala.MVar} : Lined Q (treeSyms vars vs) := treeSyms_lined vs

mutual
theorem declareTree_lined {m : String} {sc : ScopeId} : ∀ t vars, Lined Q (declareTree m sc t vars)
  | .fail, _ => by unfold declareTree; lined
  | .success _, _ => by unfold declareTree; lined
  | .switch v cases none, vars => by
      unfold declareTree
      have := declareCases_lined (m := m) (sc := sc) cases
      lined
  | .switch v cases (some f), vars => by
      unfold declareTree
      have := declareCases_lined (m := m) (sc := sc) cases
      have := declareTree_lined (m := m) (sc := sc) f
      lined
theorem declareCases_lined {m : String} {sc : ScopeId} : ∀ cs vars, Lined Q (declareCases m sc cs vars)
  | [], _ => by unfold declareCases; lined
  | (_, _, t) :: rest, vars => by
      unfold declareCases
      have := declareTree_lined (m := m) (sc := sc) t
      have := declareCases_lined (m := m) (sc := sc) rest
      lined
end

instance {m : String} {sc : ScopeId} {t : Iguala.MTree} {vars : List (Nat × SymId)} : Lined Q (declareTree m sc t vars) :=
  declareTree_lined t vars

theorem bindingSyms_lined {vars : List (Nat × SymId)} : ∀ l, Lined Q (bindingSyms vars l)
  | [] => by unfold bindingSyms; lined
  | (n, v) :: rest => by
      unfold bindingSyms
      have := bindingSyms_lined (vars := vars) rest
      lined

instance {vars : List (Nat × SymId)} {l : List (String × Iguala.MVar)} : Lined Q (bindingSyms vars l) := bindingSyms_lined l
instance {t : CTy} {k : Iguala.Cons} : Lined Q (consRef t k) := by unfold consRef; lined

mutual
theorem annotTree_lined {vars : List (Nat × SymId)} {b : Nat → List (String × Iguala.MVar)} : ∀ t, Lined Q (annotTree vars b t)
  | .fail => by unfold annotTree; lined
  | .success _ => by unfold annotTree; lined
  | .switch v cases none => by
      unfold annotTree
      have := fun u => annotCases_lined (vars := vars) (b := b) u cases
      lined
  | .switch v cases (some f) => by
      unfold annotTree
      have := fun u => annotCases_lined (vars := vars) (b := b) u cases
      have := annotTree_lined (vars := vars) (b := b) f
      lined
theorem annotCases_lined {vars : List (Nat × SymId)} {b : Nat → List (String × Iguala.MVar)} (u : CTy) :
    ∀ cs, Lined Q (annotCases vars b u cs)
  | [] => by unfold annotCases; lined
  | (k, args, t) :: rest => by
      unfold annotCases
      have := annotTree_lined (vars := vars) (b := b) t
      have := annotCases_lined (vars := vars) (b := b) u rest
      lined
end

instance {vars : List (Nat × SymId)} {b : Nat → List (String × Iguala.MVar)} {t : Iguala.MTree} : Lined Q (annotTree vars b t) :=
  annotTree_lined t

theorem defineAgain_lined {m : String} {sc : ScopeId} : ∀ l, Lined Q (defineAgain m sc l)
  | [] => by unfold defineAgain; lined
  | (n, i) :: rest => by
      unfold defineAgain
      have := defineAgain_lined (m := m) (sc := sc) rest
      lined

instance {m : String} {sc : ScopeId} {l : List (String × SymId)} : Lined Q (defineAgain m sc l) := defineAgain_lined l

mutual
theorem declareBlocks_lined {m : String} {scs : List ScopeId} : ∀ d, Lined Q (declareBlocks m scs d)
  | .fail => by unfold declareBlocks; lined
  | .success _ _ => by unfold declareBlocks; lined
  | .switch _ cases _ => by unfold declareBlocks; exact declareBlockCases_lined cases
theorem declareBlockCases_lined {m : String} {scs : List ScopeId} : ∀ cs, Lined Q (declareBlockCases m scs cs)
  | [] => by unfold declareBlockCases; lined
  | (_, _, d) :: rest => by
      unfold declareBlockCases
      have := declareBlocks_lined (m := m) (scs := scs) d
      have := declareBlockCases_lined (m := m) (scs := scs) rest
      lined
end

instance {m : String} {scs : List ScopeId} {d : ADec} : Lined Q (declareBlocks m scs d) := declareBlocks_lined d

theorem compileArms_lined {cfg : CCfg} {m : String} {tok : Token} {sc : ScopeId} {e : AExpr} {arms : List (ScopeId × Iguala.MPat)}
    (h : Q tok.line) : Lined Q (compileArms cfg m tok sc e arms) := by
  unfold compileArms Iguala.Match.missingPatterns
  lined

/-! ## The parts of visits -/

instance {t : Token} : Lined Q (constTy t) := by unfold constTy; lined
instance {n a : Nat} {d : String} : Lined Q (checkArity n d a) := by unfold checkArity; lined
instance {x : CSym} : Lined Q (callDesc x) := by unfold callDesc; lined

theorem promArgs_lined : ∀ as ts, Lined Q (promArgs as ts)
  | [], _ => by unfold promArgs; lined
  | _ :: _, [] => by unfold promArgs; lined
  | a :: as, t :: ts => by
      unfold promArgs
      have := promArgs_lined as ts
      lined

instance {as : List AExpr} {ts : List CTy} : Lined Q (promArgs as ts) := promArgs_lined as ts

theorem paramTys_lined : ∀ l, Lined Q (paramTys l)
  | [] => by unfold paramTys; lined
  | (_, i) :: rest => by
      unfold paramTys
      have := paramTys_lined rest
      lined

instance {l : List (String × SymId)} : Lined Q (paramTys l) := paramTys_lined l

theorem promVariant_lined : ∀ as ts i, Lined Q (promVariant as ts i)
  | [], _, _ => by unfold promVariant; lined
  | _ :: _, [], _ => by unfold promVariant; lined
  | a :: as, t :: ts, i => by
      unfold promVariant
      have := promVariant_lined as ts
      lined

instance {as : List AExpr} {ts : List CTy} {i : Nat} : Lined Q (promVariant as ts i) := promVariant_lined as ts i

theorem fieldTys_lined : ∀ l, Lined Q (fieldTys l)
  | [] => by unfold fieldTys; lined
  | (_, i) :: rest => by
      unfold fieldTys
      have := fieldTys_lined rest
      lined

instance {l : List (String × SymId)} : Lined Q (fieldTys l) := fieldTys_lined l

theorem yieldBlock_lined {tok : Token} {sc : ScopeId} {c : C (List AStmt)} (h : Q tok.line) (hc : Lined Q c) :
    Lined Q (yieldBlock tok sc c) := by
  unfold yieldBlock; lined

theorem runArms_lined {acts : List (C AArm)} (h : ∀ a ∈ acts, Lined Q a) : ∀ ks f d, Lined Q (runArms acts ks f d)
  | [], some _, _ => by unfold runArms; lined
  | [], none, _ => by unfold runArms; lined
  | k :: ks, f, d => by
      unfold runArms
      have := runArms_lined h ks
      split
      · infer_instance
      · have := h _ (List.mem_of_getElem? ‹_›)
        lined

theorem assignTy_lined {m n : String} {t : Token} {l r : AExpr} (h : Q t.line) : Lined Q (assignTy m t n l r) := by
  unfold assignTy; lined
theorem binTy_lined {t : Token} {a b : AExpr} (h : Q t.line) : Lined Q (binTy t a b) := by unfold binTy; lined
theorem unTy_lined {t : Token} {a : AExpr} (h : Q t.line) : Lined Q (unTy t a) := by unfold unTy; lined
instance {t : Token} {a b : AExpr} : Lined Q (indexTy t a b) := by unfold indexTy; lined
instance {t : CTy} : Lined Q (indexSetOk t) := by unfold indexSetOk; lined
instance {t : Token} {a : AExpr} {u : CTy} : Lined Q (convTy t a u) := by unfold convTy; lined
instance {m : String} {t : Token} : Lined Q (alvoTy m t) := by unfold alvoTy; lined
instance {n : String} {as : List AExpr} : Lined Q (vecOp n as) := by unfold vecOp; lined
instance {as : List AExpr} : Lined Q (tamOp as) := by unfold tamOp; lined
instance {e : Expr} {n : Nat} : Lined Q (vecTy e n) := by unfold vecTy; lined
instance {i : SymId} : Lined Q (callKind i) := by unfold callKind; lined

theorem condTag_lined {e : AExpr} {t : Option Token} {m : String} (h : ∀ x, t = some x → Q x.line) : Lined Q (condTag e t m) := by
  unfold condTag
  cases t with
  | none => lined
  | some x => have := h x rfl; lined

theorem retornaTy_lined {t : Token} {b : Bool} (h : Q t.line) : Lined Q (retornaTy t b) := by unfold retornaTy; lined

theorem declareVar_lined {cfg : CCfg} {m : String} {t n : Token} {ty : TyExpr} {e : Option Expr} (h : Q t.line) :
    Lined Q (declareVar cfg m t n ty e) := by
  unfold declareVar
  have := fun s => assertFree_lined (Q := Q) (n := s) h
  lined

instance {i : SymId} : Lined Q (declaredVar i) := by unfold declaredVar; lined
instance {b : Bool} {ps : List Param} : Lined Q (checkNumParams b ps) := by unfold checkNumParams; lined

theorem inFunction_lined {i : SymId} {b : C ABlock} (h : Lined Q b) : Lined Q (inFunction i b) := by unfold inFunction; lined

theorem inBlock_lined {sc : ScopeId} {c : C (List AStmt)} (h1 : Q 1) (h : Lined Q c) : Lined Q (inBlock sc c) := by
  unfold inBlock
  have : Q blockTok.line := h1
  lined

theorem declareFunc_lined {cfg : CCfg} {m : String} {n : Token} {ps : List Param} {r : Option TyExpr} {b : Option (List Stmt)}
    {v : Bool} {as : List Annotation} (hn : Q n.line) (hp : ∀ p ∈ ps, Q p.name.line) :
    Lined Q (declareFunc cfg m n ps r b v as) := by
  unfold declareFunc
  have := fun i => makeFunc_lined (Q := Q) (cfg := cfg) (m := m) (i := i) hp
  lined

theorem declareMethod_lined {cfg : CCfg} {m : String} {g : List Token} {t : TyExpr} {n : Token} {ps : List Param} {r : Option TyExpr}
    {b : List Stmt} {as : List Annotation} (hn : Q n.line) (hp : ∀ p ∈ ps, Q p.name.line) :
    Lined Q (declareMethod cfg m g t n ps r b as) := by
  unfold declareMethod
  have := fun i => makeFunc_lined (Q := Q) (cfg := cfg) (m := m) (i := i) hp
  lined

theorem declareVariants_lined {m : String} {u : SymId} : ∀ (vs : List UniaoVariant), (∀ v ∈ vs, Q v.name.line) → ∀ k,
    Lined Q (declareVariants m u vs k)
  | [], _, _ => by unfold declareVariants; lined
  | v :: vs, h, k => by
      unfold declareVariants
      have := declareVariants_lined (m := m) (u := u) vs fun w hw => h w (List.mem_cons_of_mem _ hw)
      have := h v List.mem_cons_self
      lined

theorem declareUniao_lined {cfg : CCfg} {m : String} {n : Token} {g : List Token} {vs : List UniaoVariant} (h : ∀ v ∈ vs, Q v.name.line) :
    Lined Q (declareUniao cfg m n g vs) := by
  unfold declareUniao
  have := fun u => declareVariants_lined (Q := Q) (m := m) (u := u) vs h
  lined

instance {cfg : CCfg} {m : String} {n : Token} {g : List Token} : Lined Q (openRegisto cfg m n g) := by unfold openRegisto; lined

theorem markFields_lined : ∀ l, Lined Q (markFields l)
  | [] => by unfold markFields; lined
  | (_, i) :: rest => by
      unfold markFields
      have := markFields_lined rest
      lined

instance {l : List (String × SymId)} : Lined Q (markFields l) := markFields_lined l
instance {cfg : CCfg} {r : SymId} {sc : ScopeId} : Lined Q (closeRegisto cfg r sc) := by unfold closeRegisto; lined
instance {cfg : CCfg} {m : String} {n : Token} : Lined Q (paraScope cfg m n) := by unfold paraScope; lined

theorem checkRange_lined : ∀ l, Lined Q (checkRange l)
  | [] => by unfold checkRange; lined
  | e :: es => by
      unfold checkRange
      have := checkRange_lined es
      lined

instance {l : List AExpr} : Lined Q (checkRange l) := checkRange_lined l

theorem newBlock_lined {c : C (List AStmt)} (h1 : Q 1) (h : Lined Q c) : Lined Q (newBlock c) := by
  unfold newBlock
  have := fun sc => inBlock_lined (sc := sc) h1 h
  lined

instance {x : AExpr} : Lined Q (checkSel x) := by unfold checkSel; lined
instance {x : AExpr} : Lined Q (checkSize x) := by unfold checkSize; lined

end

/-! ## Visits -/

section
variable {Q : Nat → Prop} {cfg : CCfg} {mod : String}

mutual
theorem visitE_anew (h1 : Q 1) : ∀ e : Expr, exprLines Q e → ∀ par, Anew Q (visitE cfg mod par e)
  | .const tok, h, par => by
      simp only [exprLines] at h
      unfold visitE
      refine Anew.bind (Anew.at_ h) fun _ => ?_
      lined
  | .fmtStr tok parts, h, par => by
      simp only [exprLines] at h
      unfold visitE
      refine Anew.bind (Anew.at_ h.1) fun _ => ?_
      have := fun t => visitParts_lined h1 parts h.2 tok h.1 t
      lined
  | .var tok, h, par => by
      simp only [exprLines] at h
      unfold visitE
      refine Anew.bind (Anew.at_ h) fun _ => ?_
      have := useVar_lined h
      lined
  | .converta tok e ty, h, par => by
      simp only [exprLines] at h
      unfold visitE
      refine Anew.bind (Anew.at_ h.1) fun _ => ?_
      have := fun par => (visitE_anew h1 e h.2 par).lined
      lined
  | .alvo tok, h, par => by
      simp only [exprLines] at h
      unfold visitE
      refine Anew.bind (Anew.at_ h) fun _ => ?_
      lined
  | .bin tok a b, h, par => by
      simp only [exprLines] at h
      unfold visitE
      refine Anew.bind (Anew.at_ h.1) fun _ => ?_
      have := fun par => (visitE_anew h1 a h.2.1 par).lined
      have := fun par => (visitE_anew h1 b h.2.2 par).lined
      have := fun a b => binTy_lined (a := a) (b := b) h.1
      lined
  | .un tok e, h, par => by
      simp only [exprLines] at h
      unfold visitE
      refine Anew.bind (Anew.at_ h.1) fun _ => ?_
      have := fun par => (visitE_anew h1 e h.2 par).lined
      have := fun a => unTy_lined (a := a) h.1
      lined
  | .assign tok l r, h, par => by
      simp only [exprLines] at h
      unfold visitE
      refine Anew.bind (Anew.at_ h.1) fun _ => ?_
      have := fun par => (visitE_anew h1 l h.2.1 par).lined
      have := fun par => (visitE_anew h1 r h.2.2 par).lined
      have := fun l r n => assignTy_lined (m := mod) (l := l) (r := r) (n := n) h.1
      lined
  | .list tok ty es, h, par => by
      simp only [exprLines] at h
      unfold visitE
      refine Anew.bind (Anew.at_ h.1) fun _ => ?_
      have := fun t => visitElems_lined h1 es h.2 t
      lined
  | .named name e, h, par => by
      simp only [exprLines] at h
      unfold visitE
      refine Anew.bind (Anew.at_ h.1) fun _ => ?_
      have := fun par => (visitE_anew h1 e h.2 par).lined
      lined
  | .get e member, h, par => by
      simp only [exprLines] at h
      unfold visitE
      refine Anew.bind (Anew.at_ h.1) fun _ => ?_
      have := fun par => (visitE_anew h1 e h.2 par).lined
      lined
  | .index tok a b, h, par => by
      simp only [exprLines] at h
      unfold visitE
      refine Anew.bind (Anew.at_ h.1) fun _ => ?_
      have := fun par => (visitE_anew h1 a h.2.1 par).lined
      have := fun par => (visitE_anew h1 b h.2.2 par).lined
      lined
  | .indexSet tok a b, h, par => by
      simp only [exprLines] at h
      unfold visitE
      refine Anew.bind (Anew.at_ h.1) fun _ => ?_
      have := fun par => (visitE_anew h1 a h.2.1 par).lined
      have := fun par => (visitE_anew h1 b h.2.2 par).lined
      have := Lined.at_ h.1
      lined
  | .set a b, h, par => by
      simp only [exprLines] at h
      unfold visitE
      have hb := exprLines_token h.2
      refine Anew.bind (Anew.at_ hb) fun _ => ?_
      have := fun par => (visitE_anew h1 a h.1 par).lined
      have := fun par => (visitE_anew h1 b h.2 par).lined
      have := Lined.at_ hb
      lined
  | .path comps, h, par => by
      simp only [exprLines] at h
      unfold visitE
      have : Q (comps.headD noTok).line := by
        cases comps with
        | nil => exact absurd rfl h.1
        | cons c cs => exact h.2 c List.mem_cons_self
      refine Anew.bind (Anew.at_ this) fun _ => ?_
      lined
  | .call callee args, h, par => by
      simp only [exprLines] at h
      unfold visitE
      refine Anew.bind (Anew.at_ (exprLines_token h.1)) fun _ => ?_
      have := visitCallee_lined h1 callee h.1
      have := visitVec_lined h1 args h.2
      have := fun par => visitEs_lined h1 args h.2 par
      have := visitArgs_lined h1 args h.2
      have := fun f n => visitInits_lined h1 args h.2 f n
      lined
  | .iguala tok target arms, h, par => by
      simp only [exprLines] at h
      unfold visitE
      refine Anew.bind (Anew.at_ h.1) fun _ => ?_
      have := fun par => (visitE_anew h1 target h.2.1 par).lined
      have := fun t => checkArms_lined (cfg := cfg) (m := mod) (t := t) (arms.map armPat) (Q := Q) (by
        have ha := armsLines_iff.mp h.2.2
        intro p hp
        obtain ⟨a, ham, rfl⟩ := List.mem_map.mp hp
        have := ha a ham
        cases a
        simp only [armLines] at this
        exact this.2.1)
      have := fun sc e as => compileArms_lined (cfg := cfg) (m := mod) (sc := sc) (e := e) (arms := as) h.1
      have := fun scs => runArms_lined (Q := Q) (armActs_lined h1 arms h.2.2 scs)
      lined
theorem armActs_lined (h1 : Q 1) : ∀ as : List Arm, armsLines Q as → ∀ scs, ∀ a ∈ armActs cfg mod as scs, Lined Q a
  | [], _, _ => by unfold armActs; simp
  | .mk _ _ bt b :: rest, h, [] => by unfold armActs; simp
  | .mk _ _ bt b :: rest, h, sc :: scs => by
      simp only [armsLines, armLines] at h
      unfold armActs
      intro a ha
      rcases List.mem_cons.mp ha with rfl | ha
      · exact yieldBlock_lined h.1.2.2.1 (visitYs_lined h1 b h.1.2.2.2)
      · exact armActs_lined h1 rest h.2 scs a ha
theorem visitCallee_lined (h1 : Q 1) : ∀ e : Expr, exprLines Q e → Lined Q (visitCallee cfg mod e)
  | .var tok, h => by unfold visitCallee; lined
  | .get e member, h => by
      simp only [exprLines] at h
      unfold visitCallee
      have := fun par => (visitE_anew h1 e h.2 par).lined
      have := Lined.at_ h.1
      lined
  | .path comps, h => by
      simp only [exprLines] at h
      unfold visitCallee
      have : Q (comps.headD noTok).line := by
        cases comps with
        | nil => exact absurd rfl h.1
        | cons c cs => exact h.2 c List.mem_cons_self
      have := Lined.at_ this
      lined
  | .call _ _, _ | .const _, _ | .fmtStr _ _, _ | .converta _ _ _, _ | .alvo _, _ | .bin _ _ _, _ | .un _ _, _ | .assign _ _ _, _
  | .list _ _ _, _ | .named _ _, _ | .index _ _ _, _ | .indexSet _ _ _, _ | .set _ _, _ | .iguala _ _ _, _ => by
      unfold visitCallee; lined
theorem visitEs_lined (h1 : Q 1) : ∀ es : List Expr, exprsLines Q es → ∀ par, Lined Q (visitEs cfg mod par es)
  | [], _, _ => by unfold visitEs; lined
  | e :: es, h, par => by
      simp only [exprsLines] at h
      unfold visitEs
      have := (visitE_anew h1 e h.1 par).lined
      have := visitEs_lined h1 es h.2 par
      lined
theorem visitParts_lined (h1 : Q 1) : ∀ es : List Expr, exprsLines Q es → ∀ tok, Q tok.line → ∀ t, Lined Q (visitParts cfg mod tok t es)
  | [], _, _, _, _ => by unfold visitParts; lined
  | e :: es, h, tok, ht, t => by
      simp only [exprsLines] at h
      unfold visitParts
      have := fun par => (visitE_anew h1 e h.1 par).lined
      have := visitParts_lined h1 es h.2 tok ht t
      lined
theorem visitElems_lined (h1 : Q 1) : ∀ es : List Expr, exprsLines Q es → ∀ t i, Lined Q (visitElems cfg mod t es i)
  | [], _, _, _ => by unfold visitElems; lined
  | e :: es, h, t, i => by
      simp only [exprsLines] at h
      unfold visitElems
      have := fun par => (visitE_anew h1 e h.1 par).lined
      have := visitElems_lined h1 es h.2 t
      lined
theorem visitArgs_lined (h1 : Q 1) : ∀ es : List Expr, exprsLines Q es → Lined Q (visitArgs cfg mod es)
  | [], _ => by unfold visitArgs; lined
  | e :: es, h => by
      simp only [exprsLines] at h
      unfold visitArgs
      have := fun par => (visitE_anew h1 e h.1 par).lined
      have := visitArgs_lined h1 es h.2
      have := exprLines_token h.1
      lined
theorem visitVec_lined (h1 : Q 1) : ∀ es : List Expr, exprsLines Q es → Lined Q (visitVec cfg mod es)
  | [], _ => by unfold visitVec; lined
  | [_], _ => by unfold visitVec; lined
  | first :: size :: sizes, h => by
      simp only [exprsLines] at h
      unfold visitVec
      have := fun par => (visitE_anew h1 size h.2.1 par).lined
      have := visitSizes_lined h1 sizes h.2.2
      lined
theorem visitSizes_lined (h1 : Q 1) : ∀ es : List Expr, exprsLines Q es → Lined Q (visitSizes cfg mod es)
  | [], _ => by unfold visitSizes; lined
  | e :: es, h => by
      simp only [exprsLines] at h
      unfold visitSizes
      have := fun par => (visitE_anew h1 e h.1 par).lined
      have := visitSizes_lined h1 es h.2
      lined
theorem visitInits_lined (h1 : Q 1) : ∀ es : List Expr, exprsLines Q es → ∀ f n seen, Lined Q (visitInits cfg mod f n es seen)
  | [], _, _, _, _ => by unfold visitInits; lined
  | e :: es, h, f, n, seen => by
      simp only [exprsLines] at h
      have ht := exprLines_token h.1
      cases e with
      | named arg e =>
        have h' := h.1
        simp only [exprLines] at h'
        unfold visitInits
        have := fun par => (visitE_anew h1 e h'.2 par).lined
        have := visitInits_lined h1 es h.2 f n
        have := Lined.at_ h'.1
        lined
      | _ => unfold visitInits; lined
theorem visitS_anew (h1 : Q 1) : ∀ s : Stmt, stmtLines Q s → ∀ y l, Anew Q (visitS cfg mod y l s)
  | .expr e, h, y, l => by
      simp only [stmtLines] at h
      unfold visitS
      exact Anew.bind (visitE_anew h1 e h _) fun _ => inferInstance
  | .varDecl tok name ty none, h, y, l => by
      simp only [stmtLines] at h
      unfold visitS
      refine Anew.bind (Anew.at_ h.1) fun _ => ?_
      have := declareVar_lined (Q := Q) (cfg := cfg) (m := mod) (n := name) (ty := ty) (e := none) h.1
      lined
  | .varDecl tok name ty (some e), h, y, l => by
      simp only [stmtLines] at h
      unfold visitS
      refine Anew.bind (Anew.at_ h.1) fun _ => ?_
      have := declareVar_lined (Q := Q) (cfg := cfg) (m := mod) (n := name) (ty := ty) (e := some e) h.1
      have := fun par => (visitE_anew h1 e h.2.2 par).lined
      lined
  | .loopCtl tok, h, y, l => by
      simp only [stmtLines] at h
      unfold visitS
      refine Anew.bind (Anew.at_ h) fun _ => ?_
      lined
  | .retorna tok none, h, y, l => by
      simp only [stmtLines] at h
      unfold visitS
      refine Anew.bind (Anew.at_ h) fun _ => ?_
      have := fun b => retornaTy_lined (b := b) h
      lined
  | .retorna tok (some e), h, y, l => by
      simp only [stmtLines] at h
      unfold visitS
      refine Anew.bind (Anew.at_ h.1) fun _ => ?_
      have := fun b => retornaTy_lined (b := b) h.1
      have := fun par => (visitE_anew h1 e h.2 par).lined
      lined
  | .produz tok e, h, y, l => by
      simp only [stmtLines] at h
      unfold visitS
      refine Anew.bind (Anew.at_ h.1) fun _ => ?_
      have := fun par => (visitE_anew h1 e h.2 par).lined
      lined
  | .mostra tok e, h, y, l => by
      simp only [stmtLines] at h
      unfold visitS
      refine Anew.bind (Anew.at_ h.1) fun _ => ?_
      have := fun par => (visitE_anew h1 e h.2 par).lined
      lined
  | .se tok c b es none, h, y, l => by
      simp only [stmtLines] at h
      unfold visitS
      refine Anew.bind (Anew.at_ h.1) fun _ => ?_
      have := fun par => (visitE_anew h1 c h.2.1 par).lined
      have := fun e m => condTag_lined (Q := Q) (e := e) (t := none) (m := m) (by simp)
      have := newBlock_lined h1 (visitSs_lined h1 b h.2.2.1)
      have := visitElses_lined h1 es h.2.2.2
      lined
  | .se tok c b es (some d), h, y, l => by
      simp only [stmtLines] at h
      unfold visitS
      refine Anew.bind (Anew.at_ h.1) fun _ => ?_
      have := fun par => (visitE_anew h1 c h.2.1 par).lined
      have := fun e m => condTag_lined (Q := Q) (e := e) (t := none) (m := m) (by simp)
      have := newBlock_lined h1 (visitSs_lined h1 b h.2.2.1)
      have := visitElses_lined h1 es h.2.2.2.1
      have := newBlock_lined h1 (visitSs_lined h1 d h.2.2.2.2)
      lined
  | .enquanto tok c b, h, y, l => by
      simp only [stmtLines] at h
      unfold visitS
      refine Anew.bind (Anew.at_ h.1) fun _ => ?_
      have := fun par => (visitE_anew h1 c h.2.1 par).lined
      have := fun e m => condTag_lined (Q := Q) (e := e) (t := some tok) (m := m) (by rintro x ⟨⟩; exact h.1)
      have := newBlock_lined h1 (visitSs_lined h1 b h.2.2)
      lined
  | .escolha tok c cs none, h, y, l => by
      simp only [stmtLines] at h
      unfold visitS
      refine Anew.bind (Anew.at_ h.1) fun _ => ?_
      have := fun par => (visitE_anew h1 c h.2.1 par).lined
      have := fun t => visitCases_lined h1 cs h.2.2 t
      lined
  | .escolha tok c cs (some d), h, y, l => by
      simp only [stmtLines] at h
      unfold visitS
      refine Anew.bind (Anew.at_ h.1) fun _ => ?_
      have := fun par => (visitE_anew h1 c h.2.1 par).lined
      have := fun t => visitCases_lined h1 cs h.2.2.1 t
      have := newBlock_lined h1 (visitSs_lined h1 d h.2.2.2)
      lined
  | .para tok n a z none b, h, y, l => by
      simp only [stmtLines] at h
      unfold visitS
      refine Anew.bind (Anew.at_ h.1) fun _ => ?_
      have := fun par => (visitE_anew h1 a h.2.2.1 par).lined
      have := fun par => (visitE_anew h1 z h.2.2.2.1 par).lined
      have := fun sc => inBlock_lined (sc := sc) h1 (visitSs_lined h1 b h.2.2.2.2)
      lined
  | .para tok n a z (some i) b, h, y, l => by
      simp only [stmtLines] at h
      unfold visitS
      refine Anew.bind (Anew.at_ h.1) fun _ => ?_
      have := fun par => (visitE_anew h1 a h.2.2.1 par).lined
      have := fun par => (visitE_anew h1 z h.2.2.2.1 par).lined
      have := fun par => (visitE_anew h1 i h.2.2.2.2.1 par).lined
      have := fun sc => inBlock_lined (sc := sc) h1 (visitSs_lined h1 b h.2.2.2.2.2)
      lined
  | .func n ps r none v as, h, y, l => by
      simp only [stmtLines] at h
      unfold visitS
      refine Anew.bind (Anew.at_ h.1) fun _ => ?_
      have := declareFunc_lined (Q := Q) (cfg := cfg) (m := mod) (r := r) (b := none) (v := v) (as := as) h.1 h.2.1
      lined
  | .func n ps r (some b) v as, h, y, l => by
      simp only [stmtLines] at h
      unfold visitS
      refine Anew.bind (Anew.at_ h.1) fun _ => ?_
      have := declareFunc_lined (Q := Q) (cfg := cfg) (m := mod) (r := r) (b := some b) (v := v) (as := as) h.1 h.2.1
      have := fun i sc => inFunction_lined (i := i) (inBlock_lined (sc := sc) h1 (visitSs_lined h1 b h.2.2.2))
      lined
  | .method gs t n ps r b as, h, y, l => by
      simp only [stmtLines] at h
      unfold visitS
      refine Anew.bind (Anew.at_ h.2.1) fun _ => ?_
      have := declareMethod_lined (Q := Q) (cfg := cfg) (m := mod) (g := gs) (t := t) (r := r) (b := b) (as := as) h.2.1 h.2.2.1
      have := fun i sc => inFunction_lined (i := i) (inBlock_lined (sc := sc) h1 (visitSs_lined h1 b h.2.2.2.2))
      lined
  | .registo n gs fs as, h, y, l => by
      simp only [stmtLines] at h
      unfold visitS
      refine Anew.bind (Anew.at_ h.1) fun _ => ?_
      have := visitFields_lined h1 fs h.2.2.2
      lined
  | .uniao n gs vs as, h, y, l => by
      simp only [stmtLines] at h
      unfold visitS
      refine Anew.bind (Anew.at_ h.1) fun _ => ?_
      have := declareUniao_lined (Q := Q) (cfg := cfg) (m := mod) (n := n) (g := gs) h.2.2.2
      lined
  | .usa _ _ _, h, _, _ => by simp only [stmtLines] at h
theorem visitFields_lined (h1 : Q 1) : ∀ ss : List Stmt, stmtsLines Q ss → Lined Q (visitFields cfg mod ss)
  | [], _ => by unfold visitFields; lined
  | s :: ss, h => by
      simp only [stmtsLines] at h
      have hr := visitFields_lined h1 ss h.2
      match s, h with
      | .varDecl tok name ty none, h =>
        have h' := h.1
        simp only [stmtLines] at h'
        unfold visitFields
        have := declareVar_lined (Q := Q) (cfg := cfg) (m := mod) (n := name) (ty := ty) (e := none) h'.1
        lined
      | .varDecl tok name ty (some e), h =>
        have h' := h.1
        simp only [stmtLines] at h'
        unfold visitFields
        have := declareVar_lined (Q := Q) (cfg := cfg) (m := mod) (n := name) (ty := ty) (e := some e) h'.1
        have := fun par => (visitE_anew h1 e h'.2.2 par).lined
        lined
      | .expr _, _ | .loopCtl _, _ | .retorna _ _, _ | .produz _ _, _ | .mostra _ _, _ | .se _ _ _ _ _, _ | .enquanto _ _ _, _
      | .escolha _ _ _ _, _ | .para _ _ _ _ _ _, _ | .func _ _ _ _ _ _, _ | .method _ _ _ _ _ _ _, _ | .registo _ _ _ _, _
      | .uniao _ _ _ _, _ | .usa _ _ _, _ => unfold visitFields; lined
theorem visitCases_lined (h1 : Q 1) : ∀ es : List ElseIf, elsesLines Q es → ∀ t, Lined Q (visitCases cfg mod t es)
  | [], _, _ => by unfold visitCases; lined
  | .mk tok c b :: rest, h, t => by
      simp only [elsesLines, elseLines] at h
      unfold visitCases
      have := fun par => (visitE_anew h1 c h.1.2.1 par).lined
      have := newBlock_lined h1 (visitSs_lined h1 b h.1.2.2)
      have := visitCases_lined h1 rest h.2 t
      lined
theorem visitElses_lined (h1 : Q 1) : ∀ es : List ElseIf, elsesLines Q es → Lined Q (visitElses cfg mod es)
  | [], _ => by unfold visitElses; lined
  | .mk tok c b :: rest, h => by
      simp only [elsesLines, elseLines] at h
      unfold visitElses
      have := fun par => (visitE_anew h1 c h.1.2.1 par).lined
      have := newBlock_lined h1 (visitSs_lined h1 b h.1.2.2)
      have := visitElses_lined h1 rest h.2
      have := Lined.at_ h.1.1
      lined
theorem visitSs_lined (h1 : Q 1) : ∀ ss : List Stmt, stmtsLines Q ss → Lined Q (visitSs cfg mod ss)
  | [], _ => by unfold visitSs; lined
  | s :: ss, h => by
      simp only [stmtsLines] at h
      unfold visitSs
      have := fun y l => (visitS_anew h1 s h.1 y l).lined
      have := visitSs_lined h1 ss h.2
      lined
theorem visitYs_lined (h1 : Q 1) : ∀ ss : List Stmt, stmtsLines Q ss → Lined Q (visitYs cfg mod ss)
  | [], _ => by unfold visitYs; lined
  | s :: ss, h => by
      simp only [stmtsLines] at h
      unfold visitYs
      have := fun y l => (visitS_anew h1 s h.1 y l).lined
      have := visitYs_lined h1 ss h.2
      lined
end

end

/-! ## The transformation

`transform` gives no errors to the user. -/

/-- What a run may end with: no error for the user; the analyzers that wait are the same. -/
def hushedIn {α : Type} (w : List Ana) : Except PyErr (α × CState) → Prop
  | .ok r => r.2.waiting = w
  | .error (.amanda _ _ _) => False
  | .error _ => True

/-- The function gives no error for the user. -/
class Hushed {α : Type} (m : C α) : Prop where
  run : ∀ s : CState, hushedIn s.waiting (m s)

section
variable {α β : Type}

theorem Hushed.bind {m : C α} {f : α → C β} (h : Hushed m) (hf : ∀ a, Hushed (f a)) : Hushed (m >>= f) := by
  constructor
  intro s
  have h1 := h.run s
  show hushedIn s.waiting (match m s with | .error e => .error e | .ok (a, s') => f a s')
  cases hm : m s with
  | error e => rw [hm] at h1; cases e <;> exact h1
  | ok r => rw [hm] at h1; exact h1 ▸ (hf r.1).run r.2

instance {a : α} : Hushed (pure a : C α) := ⟨fun _ => rfl⟩
instance {n : String} : Hushed (C.raise n : C α) := ⟨fun _ => trivial⟩
instance : Hushed C.get := ⟨fun _ => rfl⟩

theorem Hushed.modify {f : CState → CState} (h : ∀ s, (f s).waiting = s.waiting) : Hushed (C.modify f) := ⟨fun s => h s⟩

theorem Hushed.lift {r : Except PyErr α} (h : Silent r) : Hushed (C.lift r) := by
  constructor
  intro s
  unfold C.lift
  split
  · rfl
  · rename_i e
    cases e with
    | amanda m l c => exact absurd rfl (h m l c)
    | _ => trivial

theorem Hushed.ite {c : Prop} [Decidable c] {m m' : C α} (h : Hushed m) (h' : Hushed m') : Hushed (if c then m else m') := by
  split
  · exact h
  · exact h'

end

/-- Steps through a function of the transformation. -/
macro "hushed" : tactic => `(tactic| repeat' first
  | assumption
  | infer_instance
  | exact Hushed.modify fun _ => rfl
  | exact Hushed.lift (promote_silent _ _)
  | dsimp only
  | refine Hushed.ite ?_ ?_
  | refine Hushed.bind ?_ (fun _ => ?_)
  | split)

instance {i : SymId} : Hushed (symOf i) := ⟨fun s => by unfold symOf; split <;> first | rfl | exact trivial⟩
instance {x : CSym} : Hushed (newSym x) := ⟨fun _ => rfl⟩
instance {i : SymId} {f : CSym → CSym} : Hushed (updSym i f) := ⟨fun _ => rfl⟩
instance {sc : ScopeId} {n : String} {i : SymId} : Hushed (define sc n i) := ⟨fun _ => rfl⟩
instance {sc : ScopeId} : Hushed (symbolsOf sc) := ⟨fun _ => rfl⟩
instance {sc : ScopeId} {n : String} : Hushed (getIn sc n) := by unfold getIn; hushed
instance {sc : ScopeId} {n : String} : Hushed (resolveIn sc n) := ⟨fun _ => rfl⟩
instance {t : CTy} : Hushed (view t) := by unfold view; hushed
instance {t u : CTy} : Hushed (sameTy t u) := by unfold sameTy; hushed
instance {n : String} : Hushed (modScope n) := by unfold modScope; hushed
instance {m n : String} {t : CTy} : Hushed (newVar m n t) := by unfold newVar; hushed
instance : Hushed initOpcao := by unfold initOpcao; hushed

section
variable {mod : String} {gsc : ScopeId}

instance {i : SymId} {m : String} : Hushed (renameSym gsc i m) := by unfold renameSym; hushed
instance {t : CTy} : Hushed (isOption t) := by unfold isOption; hushed
instance {t u : CTy} {x : TExpr} {m : Token} {b : Bool} : Hushed (getAfter gsc t x u m b) := by unfold getAfter; hushed
instance {i : SymId} : Hushed (addAlvo mod i) := by unfold addAlvo; hushed
instance {l : Nat} {t u : CTy} {p : Ty} {x : TExpr} {m : Token} {as : List TExpr} {i : SymId} :
    Hushed (callAfter mod gsc l t p x u m as i) := by unfold callAfter; hushed
instance {i : SymId} : Hushed (variantRef i) := by unfold variantRef; hushed

theorem variantRefs_hushed : ∀ l, Hushed (variantRefs l)
  | [] => by unfold variantRefs; hushed
  | (_, i) :: rest => by
      unfold variantRefs
      have := variantRefs_hushed rest
      hushed

instance {l : List (String × SymId)} : Hushed (variantRefs l) := variantRefs_hushed l

mutual
theorem toDec_hushed {arms : List (Option (Nat × ScopeId × List TStmt))} : ∀ d, Hushed (toDec arms d)
  | .fail => by unfold toDec; hushed
  | .success _ _ => by unfold toDec; hushed
  | .switch x cases none => by
      unfold toDec
      have := toCases_hushed (arms := arms) cases
      hushed
  | .switch x cases (some d) => by
      unfold toDec
      have := toCases_hushed (arms := arms) cases
      have := toDec_hushed (arms := arms) d
      hushed
theorem toCases_hushed {arms : List (Option (Nat × ScopeId × List TStmt))} : ∀ cs, Hushed (toCases arms cs)
  | [] => by unfold toCases; hushed
  | (c, vs, d) :: rest => by
      unfold toCases
      have := toDec_hushed (arms := arms) d
      have := toCases_hushed (arms := arms) rest
      hushed
end

instance {arms : List (Option (Nat × ScopeId × List TStmt))} {d : ADec} : Hushed (toDec arms d) := toDec_hushed d

theorem call_hushed {ty : CTy} {prom : Ty} {c : AExpr} {as : List AExpr} {i : SymId} {on : Bool} (h1 : Hushed (toE mod gsc on c))
    (h2 : ∀ a p t m b, c = .mk a p (.get t m b) → ∀ on, Hushed (toE mod gsc on t)) (h3 : ∀ on, Hushed (toEs mod gsc on as)) :
    Hushed (toE mod gsc on (.mk ty prom (.call c as i))) := by
  rw [toE.eq_def]
  dsimp only
  split
  any_goals (rename_i h; simp only [AExpr.mk.injEq, reduceCtorEq, and_false] at h)
  · obtain ⟨-, -, h⟩ := h
    cases h
    have := h2 _ _ _ _ _ rfl
    hushed
  · obtain ⟨-, -, h⟩ := h
    cases h
    hushed

mutual
theorem toE_hushed : ∀ (e : AExpr) on, Hushed (toE mod gsc on e)
  | .mk ty prom (.const tok), on => by unfold toE; hushed
  | .mk ty prom (.fmtStr tok parts), on => by
      unfold toE
      have := toEs_hushed parts
      hushed
  | .mk ty prom (.var tok sym), on => by unfold toE; hushed
  | .mk ty prom (.converta tok e), on => by
      unfold toE
      have := toE_hushed e
      hushed
  | .mk ty prom (.alvo tok i), on => by unfold toE; hushed
  | .mk ty prom (.bin tok a b), on => by
      unfold toE
      have := toE_hushed a
      have := toE_hushed b
      hushed
  | .mk ty prom (.un tok e), on => by
      unfold toE
      have := toE_hushed e
      hushed
  | .mk ty prom (.assign tok l r), on => by
      have := toE_hushed r
      rcases l with ⟨_, _, n⟩
      cases n with
      | var t o => cases o <;> (unfold toE; hushed)
      | _ => unfold toE; hushed
  | .mk ty prom (.iguala tok target arms ir), on => by
      unfold toE
      have := toE_hushed target
      have := toArms_hushed arms
      hushed
  | .mk ty prom (.call callee args i), on => by
      have := toEs_hushed args
      have h1 := toE_hushed callee on
      have h2 := target_hushed callee
      exact call_hushed h1 h2 this
  | .mk ty prom (.list tok es), on => by
      unfold toE
      have := toEs_hushed es
      hushed
  | .mk ty prom (.named name e), on => by
      unfold toE
      have := toE_hushed e
      hushed
  | .mk ty prom (.get target member b), on => by
      unfold toE
      have := toE_hushed target
      hushed
  | .mk ty prom (.index tok a i), on => by
      unfold toE
      have := toE_hushed a
      have := toE_hushed i
      hushed
  | .mk ty prom (.indexSet tok x v), on => by
      have := toE_hushed v
      match x with
      | .mk _ _ (.index _ a i) =>
        have := toE_hushed a
        have := toE_hushed i
        unfold toE; hushed
      | .mk _ _ (.const _) | .mk _ _ (.fmtStr _ _) | .mk _ _ (.var _ _) | .mk _ _ (.converta _ _) | .mk _ _ (.alvo _ _)
      | .mk _ _ (.bin _ _ _) | .mk _ _ (.un _ _) | .mk _ _ (.assign _ _ _) | .mk _ _ (.iguala _ _ _ _) | .mk _ _ (.call _ _ _)
      | .mk _ _ (.list _ _) | .mk _ _ (.named _ _) | .mk _ _ (.get _ _ _) | .mk _ _ (.indexSet _ _ _) | .mk _ _ (.set _ _)
      | .mk _ _ (.path _ _) => unfold toE; hushed
  | .mk ty prom (.set target e), on => by
      unfold toE
      have := toE_hushed target
      have := toE_hushed e
      hushed
  | .mk ty prom (.path comps i), on => by unfold toE; hushed
theorem target_hushed : ∀ e : AExpr, ∀ c p t m b, e = .mk c p (.get t m b) → ∀ on, Hushed (toE mod gsc on t)
  | .mk _ _ (.get x _ _), _, _, _, _, _, h, on => by
      have := toE_hushed x on
      cases h
      exact this
  | .mk _ _ (.const _), _, _, _, _, _, h, _ | .mk _ _ (.fmtStr _ _), _, _, _, _, _, h, _ | .mk _ _ (.var _ _), _, _, _, _, _, h, _
  | .mk _ _ (.converta _ _), _, _, _, _, _, h, _ | .mk _ _ (.alvo _ _), _, _, _, _, _, h, _ | .mk _ _ (.bin _ _ _), _, _, _, _, _, h, _
  | .mk _ _ (.un _ _), _, _, _, _, _, h, _ | .mk _ _ (.assign _ _ _), _, _, _, _, _, h, _ | .mk _ _ (.iguala _ _ _ _), _, _, _, _, _, h, _
  | .mk _ _ (.call _ _ _), _, _, _, _, _, h, _ | .mk _ _ (.list _ _), _, _, _, _, _, h, _ | .mk _ _ (.named _ _), _, _, _, _, _, h, _
  | .mk _ _ (.index _ _ _), _, _, _, _, _, h, _ | .mk _ _ (.indexSet _ _ _), _, _, _, _, _, h, _ | .mk _ _ (.set _ _), _, _, _, _, _, h, _
  | .mk _ _ (.path _ _), _, _, _, _, _, h, _ => nomatch h
theorem toEs_hushed : ∀ (es : List AExpr) on, Hushed (toEs mod gsc on es)
  | [], _ => by unfold toEs; hushed
  | e :: es, on => by
      unfold toEs
      have := toE_hushed e
      have := toEs_hushed es
      hushed
theorem toArms_hushed : ∀ (as : List AArm) on, Hushed (toArms mod gsc on as)
  | [], _ => by unfold toArms; hushed
  | .skipped body :: rest, on => by
      unfold toArms
      have := toArms_hushed rest
      hushed
  | .seen tok t sc body :: rest, on => by
      unfold toArms
      have := toSs_hushed body
      have := toArms_hushed rest
      hushed
theorem toS_hushed : ∀ (s : AStmt) on, Hushed (toS mod gsc on s)
  | .expr e, on => by
      unfold toS
      have := toE_hushed e
      hushed
  | .varDecl tok name ty none, on => by unfold toS; hushed
  | .varDecl tok name ty (some e), on => by
      match e with
      | .mk _ _ (.assign _ l r) =>
        have := toE_hushed r
        rcases l with ⟨_, _, n⟩
        cases n with
        | var t o => cases o <;> (unfold toS; hushed)
        | _ => unfold toS; hushed
      | .mk _ _ (.const _) | .mk _ _ (.fmtStr _ _) | .mk _ _ (.var _ _) | .mk _ _ (.converta _ _) | .mk _ _ (.alvo _ _)
      | .mk _ _ (.bin _ _ _) | .mk _ _ (.un _ _) | .mk _ _ (.index _ _ _) | .mk _ _ (.iguala _ _ _ _) | .mk _ _ (.call _ _ _)
      | .mk _ _ (.list _ _) | .mk _ _ (.named _ _) | .mk _ _ (.get _ _ _) | .mk _ _ (.indexSet _ _ _) | .mk _ _ (.set _ _)
      | .mk _ _ (.path _ _) => unfold toS; hushed
  | .loopCtl tok, on => by unfold toS; hushed
  | .retorna tok none, on => by unfold toS; hushed
  | .retorna tok (some e), on => by
      unfold toS
      have := toE_hushed e
      hushed
  | .produz tok e, on => by
      unfold toS
      have := toE_hushed e
      hushed
  | .mostra tok e, on => by
      unfold toS
      have := toE_hushed e
      hushed
  | .se tok c b es none, on => by
      unfold toS
      have := toE_hushed c
      have := toB_hushed b
      have := toElses_hushed es
      hushed
  | .se tok c b es (some d), on => by
      unfold toS
      have := toE_hushed c
      have := toB_hushed b
      have := toElses_hushed es
      have := toB_hushed d
      hushed
  | .enquanto tok c b, on => by
      unfold toS
      have := toE_hushed c
      have := toB_hushed b
      hushed
  | .escolha tok c cs none, on => by
      unfold toS
      have := toE_hushed c
      have := toChoices_hushed cs
      hushed
  | .escolha tok c cs (some d), on => by
      unfold toS
      have := toE_hushed c
      have := toChoices_hushed cs
      have := toB_hushed d
      hushed
  | .para tok n a b none body, on => by
      unfold toS
      have := toE_hushed a
      have := toE_hushed b
      have := toB_hushed body
      hushed
  | .para tok n a b (some i) body, on => by
      unfold toS
      have := toE_hushed a
      have := toE_hushed b
      have := toE_hushed i
      have := toB_hushed body
      hushed
  | .func name i b, on => by
      unfold toS
      have := toB_hushed b
      hushed
  | .declared tok i sc native body, on => by unfold toS; hushed
  | .registo name i inits, on => by
      unfold toS
      have := toEs_hushed inits
      hushed
  | .uniao name i, on => by unfold toS; hushed
  | .usa tok, on => by unfold toS; hushed
theorem toChoices_hushed : ∀ (es : List AElse), Hushed (toChoices mod gsc es)
  | [] => by unfold toChoices; hushed
  | .mk t c b :: rest => by
      unfold toChoices
      have := toE_hushed c
      have := toB_hushed b
      have := toChoices_hushed rest
      hushed
theorem toElses_hushed : ∀ (es : List AElse) on, Hushed (toElses mod gsc on es)
  | [], _ => by unfold toElses; hushed
  | .mk t c b :: rest, on => by
      unfold toElses
      have := toE_hushed c
      have := toB_hushed b
      have := toElses_hushed rest
      hushed
theorem toB_hushed : ∀ (b : ABlock) on, Hushed (toB mod gsc on b)
  | .mk sc body, on => by
      unfold toB
      have := toSs_hushed body
      hushed
theorem toSs_hushed : ∀ (ss : List AStmt) on, Hushed (toSs mod gsc on ss)
  | [], _ => by unfold toSs; hushed
  | s :: ss, on => by
      unfold toSs
      have := toS_hushed s
      have := toSs_hushed ss
      hushed
end

end

instance {p : Imports.Path} {t : Tree} : Hushed (closeModule p t) := by
  unfold closeModule
  have := @toSs_hushed
  hushed

end Amanda.Check

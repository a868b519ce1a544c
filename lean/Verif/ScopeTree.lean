import Verif.PlacedTree

/-!
# The scopes of a whole program

Used by C65 and C66.  Follows the transformation and the loading of the imports.
-/

namespace Amanda.Check

open Imports

/-- The function makes no scope and leaves the places of the analyzers as they are. -/
class Rigid {α : Type} (m : C α) : Prop where
  run : ∀ s a s', m s = .ok (a, s') → s'.ana.place = s.ana.place ∧ s'.shelf = s.shelf ∧
    s'.scopes.map ScopeTab.parent = s.scopes.map ScopeTab.parent

section
variable {α β : Type}

theorem Rigid.bind {m : C α} {f : α → C β} (h : Rigid m) (hf : ∀ a, Rigid (f a)) : Rigid (m >>= f) := by
  constructor
  intro s b s' hb
  obtain ⟨a, s1, h1, h2⟩ := C.bind_ok.mp hb
  have e1 := h.run _ _ _ h1
  have e2 := (hf a).run _ _ _ h2
  exact ⟨e2.1.trans e1.1, e2.2.1.trans e1.2.1, e2.2.2.trans e1.2.2⟩

instance {a : α} : Rigid (pure a : C α) := ⟨fun s b s' h => by obtain ⟨-, rfl⟩ := C.pure_ok.mp h; exact ⟨rfl, rfl, rfl⟩⟩
instance {n : String} : Rigid (C.raise n : C α) := ⟨fun _ _ _ h => (C.raise_ok.mp h).elim⟩
instance {n : String} : Rigid (C.error n : C α) := ⟨fun _ _ _ h => (C.error_ok.mp h).elim⟩
instance {t : Token} {n : String} : Rigid (C.errorAt t n : C α) := ⟨fun _ _ _ h => nomatch h⟩
instance : Rigid C.get := ⟨fun s b s' h => by obtain ⟨-, rfl⟩ := C.get_ok.mp h; exact ⟨rfl, rfl, rfl⟩⟩
instance {r : Except PyErr α} : Rigid (C.lift r) := ⟨fun s b s' h => by obtain ⟨-, rfl⟩ := C.lift_ok.mp h; exact ⟨rfl, rfl, rfl⟩⟩

theorem Rigid.modify {f : CState → CState} (h : ∀ s, (f s).ana.place = s.ana.place ∧ (f s).shelf = s.shelf ∧
    (f s).scopes.map ScopeTab.parent = s.scopes.map ScopeTab.parent) : Rigid (C.modify f) :=
  ⟨fun s b s' e => by obtain rfl := C.modify_ok.mp e; exact h s⟩

theorem Rigid.ite {c : Prop} [Decidable c] {m m' : C α} (h : Rigid m) (h' : Rigid m') : Rigid (if c then m else m') := by
  split
  · exact h
  · exact h'

end

/-- Steps through a function. -/
macro "rigid" : tactic => `(tactic| repeat' first
  | assumption
  | infer_instance
  | exact Rigid.modify fun _ => ⟨rfl, rfl, rfl⟩
  | dsimp only
  | refine Rigid.ite ?_ ?_
  | refine Rigid.bind ?_ (fun _ => ?_)
  | split)

theorem map_parent_modify {l : List ScopeTab} {k : Nat} {f : ScopeTab → ScopeTab} (h : ∀ t, (f t).parent = t.parent) :
    (l.modify k f).map ScopeTab.parent = l.map ScopeTab.parent := by
  apply List.ext_getElem?
  intro i
  simp only [List.getElem?_map, List.getElem?_modify]
  by_cases hi : k = i
  · simp only [hi, if_true]
    cases l[i]? with
    | none => rfl
    | some t => simp [h]
  · simp [hi]

instance {i : SymId} : Rigid (symOf i) := ⟨fun s a s' h => by obtain ⟨-, rfl⟩ := symOf_ok.mp h; exact ⟨rfl, rfl, rfl⟩⟩
instance {x : CSym} : Rigid (newSym x) := ⟨fun s a s' h => by obtain ⟨-, rfl⟩ := newSym_ok.mp h; exact ⟨rfl, rfl, rfl⟩⟩
instance {i : SymId} {f : CSym → CSym} : Rigid (updSym i f) := Rigid.modify fun _ => ⟨rfl, rfl, rfl⟩
instance {sc : ScopeId} {n : String} {i : SymId} : Rigid (define sc n i) :=
  Rigid.modify fun _ => ⟨rfl, rfl, map_parent_modify fun _ => rfl⟩
instance {sc : ScopeId} : Rigid (symbolsOf sc) := ⟨fun s a s' h => by obtain ⟨-, rfl⟩ := symbolsOf_ok.mp h; exact ⟨rfl, rfl, rfl⟩⟩
instance {sc : ScopeId} {n : String} : Rigid (getIn sc n) := by unfold getIn; rigid
instance {sc : ScopeId} {n : String} : Rigid (resolveIn sc n) := ⟨fun s a s' h => by cases h; exact ⟨rfl, rfl, rfl⟩⟩
instance {t : CTy} : Rigid (view t) := by unfold view; rigid
instance {t u : CTy} : Rigid (sameTy t u) := by unfold sameTy; rigid
instance {n : String} : Rigid (modScope n) := by unfold modScope; rigid
instance {m n : String} {t : CTy} : Rigid (newVar m n t) := by unfold newVar; rigid
instance : Rigid initOpcao := by unfold initOpcao; rigid

section
variable {mod : String} {gsc : ScopeId}

instance {i : SymId} {m : String} : Rigid (renameSym gsc i m) := by unfold renameSym; rigid
instance {t : CTy} : Rigid (isOption t) := by unfold isOption; rigid
instance {t u : CTy} {x : TExpr} {m : Token} {b : Bool} : Rigid (getAfter gsc t x u m b) := by unfold getAfter; rigid
instance {i : SymId} : Rigid (addAlvo mod i) := by unfold addAlvo; rigid
instance {l : Nat} {t u : CTy} {p : Ty} {x : TExpr} {m : Token} {as : List TExpr} {i : SymId} :
    Rigid (callAfter mod gsc l t p x u m as i) := by unfold callAfter; rigid
instance {i : SymId} : Rigid (variantRef i) := by unfold variantRef; rigid

theorem variantRefs_rigid : ∀ l, Rigid (variantRefs l)
  | [] => by unfold variantRefs; rigid
  | (_, i) :: rest => by
      unfold variantRefs
      have := variantRefs_rigid rest
      rigid

instance {l : List (String × SymId)} : Rigid (variantRefs l) := variantRefs_rigid l

mutual
theorem toDec_rigid {arms : List (Option (Nat × ScopeId × List TStmt))} : ∀ d, Rigid (toDec arms d)
  | .fail => by unfold toDec; rigid
  | .success _ _ => by unfold toDec; rigid
  | .switch x cases none => by
      unfold toDec
      have := toCases_rigid (arms := arms) cases
      rigid
  | .switch x cases (some d) => by
      unfold toDec
      have := toCases_rigid (arms := arms) cases
      have := toDec_rigid (arms := arms) d
      rigid
theorem toCases_rigid {arms : List (Option (Nat × ScopeId × List TStmt))} : ∀ cs, Rigid (toCases arms cs)
  | [] => by unfold toCases; rigid
  | (c, vs, d) :: rest => by
      unfold toCases
      have := toDec_rigid (arms := arms) d
      have := toCases_rigid (arms := arms) rest
      rigid
end

instance {arms : List (Option (Nat × ScopeId × List TStmt))} {d : ADec} : Rigid (toDec arms d) := toDec_rigid d

theorem call_rigid {ty : CTy} {prom : Ty} {c : AExpr} {as : List AExpr} {i : SymId} {on : Bool} (h1 : Rigid (toE mod gsc on c))
    (h2 : ∀ a p t m b, c = .mk a p (.get t m b) → ∀ on, Rigid (toE mod gsc on t)) (h3 : ∀ on, Rigid (toEs mod gsc on as)) :
    Rigid (toE mod gsc on (.mk ty prom (.call c as i))) := by
  rw [toE.eq_def]
  dsimp only
  split
  any_goals (rename_i h; simp only [AExpr.mk.injEq, reduceCtorEq, and_false] at h)
  · obtain ⟨-, -, h⟩ := h
    cases h
    have := h2 _ _ _ _ _ rfl
    rigid
  · obtain ⟨-, -, h⟩ := h
    cases h
    rigid

mutual
theorem toE_rigid : ∀ (e : AExpr) on, Rigid (toE mod gsc on e)
  | .mk ty prom (.const tok), on => by unfold toE; rigid
  | .mk ty prom (.fmtStr tok parts), on => by
      unfold toE
      have := toEs_rigid parts
      rigid
  | .mk ty prom (.var tok sym), on => by unfold toE; rigid
  | .mk ty prom (.converta tok e), on => by
      unfold toE
      have := toE_rigid e
      rigid
  | .mk ty prom (.alvo tok i), on => by unfold toE; rigid
  | .mk ty prom (.bin tok a b), on => by
      unfold toE
      have := toE_rigid a
      have := toE_rigid b
      rigid
  | .mk ty prom (.un tok e), on => by
      unfold toE
      have := toE_rigid e
      rigid
  | .mk ty prom (.assign tok l r), on => by
      have := toE_rigid r
      rcases l with ⟨_, _, n⟩
      cases n with
      | var t o => cases o <;> (unfold toE; rigid)
      | _ => unfold toE; rigid
  | .mk ty prom (.iguala tok target arms ir), on => by
      unfold toE
      have := toE_rigid target
      have := toArms_rigid arms
      rigid
  | .mk ty prom (.call callee args i), on => by
      have := toEs_rigid args
      have h1 := toE_rigid callee on
      have h2 := target_rigid callee
      exact call_rigid h1 h2 this
  | .mk ty prom (.list tok es), on => by
      unfold toE
      have := toEs_rigid es
      rigid
  | .mk ty prom (.named name e), on => by
      unfold toE
      have := toE_rigid e
      rigid
  | .mk ty prom (.get target member b), on => by
      unfold toE
      have := toE_rigid target
      rigid
  | .mk ty prom (.index tok a i), on => by
      unfold toE
      have := toE_rigid a
      have := toE_rigid i
      rigid
  | .mk ty prom (.indexSet tok x v), on => by
      have := toE_rigid v
      match x with
      | .mk _ _ (.index _ a i) =>
        have := toE_rigid a
        have := toE_rigid i
        unfold toE; rigid
      | .mk _ _ (.const _) | .mk _ _ (.fmtStr _ _) | .mk _ _ (.var _ _) | .mk _ _ (.converta _ _) | .mk _ _ (.alvo _ _)
      | .mk _ _ (.bin _ _ _) | .mk _ _ (.un _ _) | .mk _ _ (.assign _ _ _) | .mk _ _ (.iguala _ _ _ _) | .mk _ _ (.call _ _ _)
      | .mk _ _ (.list _ _) | .mk _ _ (.named _ _) | .mk _ _ (.get _ _ _) | .mk _ _ (.indexSet _ _ _) | .mk _ _ (.set _ _)
      | .mk _ _ (.path _ _) => unfold toE; rigid
  | .mk ty prom (.set target e), on => by
      unfold toE
      have := toE_rigid target
      have := toE_rigid e
      rigid
  | .mk ty prom (.path comps i), on => by unfold toE; rigid
theorem target_rigid : ∀ e : AExpr, ∀ c p t m b, e = .mk c p (.get t m b) → ∀ on, Rigid (toE mod gsc on t)
  | .mk _ _ (.get x _ _), _, _, _, _, _, h, on => by
      have := toE_rigid x on
      cases h
      exact this
  | .mk _ _ (.const _), _, _, _, _, _, h, _ | .mk _ _ (.fmtStr _ _), _, _, _, _, _, h, _ | .mk _ _ (.var _ _), _, _, _, _, _, h, _
  | .mk _ _ (.converta _ _), _, _, _, _, _, h, _ | .mk _ _ (.alvo _ _), _, _, _, _, _, h, _ | .mk _ _ (.bin _ _ _), _, _, _, _, _, h, _
  | .mk _ _ (.un _ _), _, _, _, _, _, h, _ | .mk _ _ (.assign _ _ _), _, _, _, _, _, h, _ | .mk _ _ (.iguala _ _ _ _), _, _, _, _, _, h, _
  | .mk _ _ (.call _ _ _), _, _, _, _, _, h, _ | .mk _ _ (.list _ _), _, _, _, _, _, h, _ | .mk _ _ (.named _ _), _, _, _, _, _, h, _
  | .mk _ _ (.index _ _ _), _, _, _, _, _, h, _ | .mk _ _ (.indexSet _ _ _), _, _, _, _, _, h, _ | .mk _ _ (.set _ _), _, _, _, _, _, h, _
  | .mk _ _ (.path _ _), _, _, _, _, _, h, _ => nomatch h
theorem toEs_rigid : ∀ (es : List AExpr) on, Rigid (toEs mod gsc on es)
  | [], _ => by unfold toEs; rigid
  | e :: es, on => by
      unfold toEs
      have := toE_rigid e
      have := toEs_rigid es
      rigid
theorem toArms_rigid : ∀ (as : List AArm) on, Rigid (toArms mod gsc on as)
  | [], _ => by unfold toArms; rigid
  | .skipped body :: rest, on => by
      unfold toArms
      have := toArms_rigid rest
      rigid
  | .seen tok t sc body :: rest, on => by
      unfold toArms
      have := toSs_rigid body
      have := toArms_rigid rest
      rigid
theorem toS_rigid : ∀ (s : AStmt) on, Rigid (toS mod gsc on s)
  | .expr e, on => by
      unfold toS
      have := toE_rigid e
      rigid
  | .varDecl tok name ty none, on => by unfold toS; rigid
  | .varDecl tok name ty (some e), on => by
      match e with
      | .mk _ _ (.assign _ l r) =>
        have := toE_rigid r
        rcases l with ⟨_, _, n⟩
        cases n with
        | var t o => cases o <;> (unfold toS; rigid)
        | _ => unfold toS; rigid
      | .mk _ _ (.const _) | .mk _ _ (.fmtStr _ _) | .mk _ _ (.var _ _) | .mk _ _ (.converta _ _) | .mk _ _ (.alvo _ _)
      | .mk _ _ (.bin _ _ _) | .mk _ _ (.un _ _) | .mk _ _ (.index _ _ _) | .mk _ _ (.iguala _ _ _ _) | .mk _ _ (.call _ _ _)
      | .mk _ _ (.list _ _) | .mk _ _ (.named _ _) | .mk _ _ (.get _ _ _) | .mk _ _ (.indexSet _ _ _) | .mk _ _ (.set _ _)
      | .mk _ _ (.path _ _) => unfold toS; rigid
  | .loopCtl tok, on => by unfold toS; rigid
  | .retorna tok none, on => by unfold toS; rigid
  | .retorna tok (some e), on => by
      unfold toS
      have := toE_rigid e
      rigid
  | .produz tok e, on => by
      unfold toS
      have := toE_rigid e
      rigid
  | .mostra tok e, on => by
      unfold toS
      have := toE_rigid e
      rigid
  | .se tok c b es none, on => by
      unfold toS
      have := toE_rigid c
      have := toB_rigid b
      have := toElses_rigid es
      rigid
  | .se tok c b es (some d), on => by
      unfold toS
      have := toE_rigid c
      have := toB_rigid b
      have := toElses_rigid es
      have := toB_rigid d
      rigid
  | .enquanto tok c b, on => by
      unfold toS
      have := toE_rigid c
      have := toB_rigid b
      rigid
  | .escolha tok c cs none, on => by
      unfold toS
      have := toE_rigid c
      have := toChoices_rigid cs
      rigid
  | .escolha tok c cs (some d), on => by
      unfold toS
      have := toE_rigid c
      have := toChoices_rigid cs
      have := toB_rigid d
      rigid
  | .para tok n a b none body, on => by
      unfold toS
      have := toE_rigid a
      have := toE_rigid b
      have := toB_rigid body
      rigid
  | .para tok n a b (some i) body, on => by
      unfold toS
      have := toE_rigid a
      have := toE_rigid b
      have := toE_rigid i
      have := toB_rigid body
      rigid
  | .func name i b, on => by
      unfold toS
      have := toB_rigid b
      rigid
  | .declared tok i sc native body, on => by unfold toS; rigid
  | .registo name i inits, on => by
      unfold toS
      have := toEs_rigid inits
      rigid
  | .uniao name i, on => by unfold toS; rigid
  | .usa tok, on => by unfold toS; rigid
theorem toChoices_rigid : ∀ (es : List AElse), Rigid (toChoices mod gsc es)
  | [] => by unfold toChoices; rigid
  | .mk t c b :: rest => by
      unfold toChoices
      have := toE_rigid c
      have := toB_rigid b
      have := toChoices_rigid rest
      rigid
theorem toElses_rigid : ∀ (es : List AElse) on, Rigid (toElses mod gsc on es)
  | [], _ => by unfold toElses; rigid
  | .mk t c b :: rest, on => by
      unfold toElses
      have := toE_rigid c
      have := toB_rigid b
      have := toElses_rigid rest
      rigid
theorem toB_rigid : ∀ (b : ABlock) on, Rigid (toB mod gsc on b)
  | .mk sc body, on => by
      unfold toB
      have := toSs_rigid body
      rigid
theorem toSs_rigid : ∀ (ss : List AStmt) on, Rigid (toSs mod gsc on ss)
  | [], _ => by unfold toSs; rigid
  | s :: ss, on => by
      unfold toSs
      have := toS_rigid s
      have := toSs_rigid ss
      rigid
end

end

instance {n : String} : Rigid (assertFreeHere n) := by unfold assertFreeHere; rigid
instance {a : Token} {p : Path} : Rigid (defineAlias a p) := by unfold defineAlias; rigid

theorem defineItems_rigid {p : Path} : ∀ l, Rigid (defineItems p l)
  | [] => by unfold defineItems; rigid
  | x :: xs => by
      unfold defineItems
      have := defineItems_rigid (p := p) xs
      rigid

/-! ## Steps of the loader -/

/-- A step of the checker as a whole: the places are as before. -/
structure Goes (r r' : CState) : Prop where
  place : r'.ana.place = r.ana.place
  waits : r'.waiting = r.waiting
  rooted : Rooted r'
  grows : r.scopes.length ≤ r'.scopes.length
  stood : r.ana.place.top → Stood r → Stood r'

theorem Goes.trans {r r1 r2 : CState} (h : Goes r r1) (h' : Goes r1 r2) : Goes r r2 :=
  ⟨h'.place.trans h.place, h'.waits.trans h.waits, h'.rooted, Nat.le_trans h.grows h'.grows,
    fun ht hs => h'.stood (by rw [h.place]; exact ht) (h.stood ht hs)⟩

theorem Rooted.goes {r : CState} (h : Rooted r) : Goes r r := ⟨rfl, rfl, h, Nat.le_refl _, fun _ h => h⟩

theorem run_ok {α : Type} {m : C α} {s s' : CState} (h : m.run s = .ok s') : ∃ a, m s = .ok (a, s') := by
  unfold C.run at h
  split at h
  · cases h; exact ⟨_, ‹_›⟩
  · cases h

theorem lifted_ok {α : Type} {f : Path} {r : Except PyErr α} {a : α} : liftE f r = .ok a ↔ r = .ok a := by
  cases r with
  | ok b => exact ⟨fun h => by cases h; rfl, fun h => by cases h; rfl⟩
  | error e => exact ⟨fun h => (nomatch h), fun h => (nomatch h)⟩

theorem place_scope {a b : Ana} (h : a.place = b.place) : a.ctxScope = b.ctxScope ∧ a.tyCtx = b.tyCtx := by
  simp only [Ana.place, Place.mk.injEq] at h
  exact ⟨h.2.1, h.2.2.2.2.2.1⟩

theorem run_rigid {α : Type} {m : C α} [h : Rigid m] {r r' : CState} (hr : Rooted r) (he : m.run r = .ok r') : Goes r r' := by
  obtain ⟨a, ha⟩ := run_ok he
  obtain ⟨h1, h2, h3⟩ := h.run _ _ _ ha
  have hl : r'.scopes.length = r.scopes.length := by simpa using congrArg List.length h3
  have hp : ∀ i : Nat, parentOf r' i = parentOf r i := fun i => by
    have := congrArg (fun l => (l[i]?).bind id) h3
    simpa [parentOf, List.getElem?_map, Option.bind_map] using this
  obtain ⟨e1, e2⟩ := place_scope h1
  exact ⟨h1, congrArg Prod.fst h2, ⟨fun i p hi => hr.down i p (hp i ▸ hi), by rw [e1, hl]; exact hr.here, by rw [e2, hl]; exact hr.tys⟩, Nat.le_of_eq hl.symm,
    fun _ hs => hs.same h2⟩

theorem visitChild_goes {cfg : CCfg} {p : Path} {st : Stmt} {r r' : CState} (hr : Rooted r) (he : (visitChild cfg p st).run r = .ok r') :
    Goes r r' := by
  obtain ⟨a, ha⟩ := run_ok he
  unfold visitChild at ha
  obtain ⟨x, s1, h1, h2⟩ := C.bind_ok.mp ha
  obtain rfl := C.modify_ok.mp h2
  obtain ⟨e1, e2, e3, -⟩ := (visitS_back (cfg := cfg) (mod := pstr p) (n := r.scopes.length) (D := fun _ _ => True) st r.ana.place [] false false
    fun m _ => .inr trivial).run r x s1 rfl (Nat.le_refl _) hr (by simp) h1
  refine ⟨e1, (congrArg Prod.fst e3.waits : s1.waiting = r.waiting), ⟨e2.down, e2.here, e2.tys⟩, e3.grows, fun ht hs => ?_⟩
  have hx : legalS false false true false x := by
    obtain ⟨-, -, -, h⟩ := (visitS_earns (cfg := cfg) (mod := pstr p) st r.ana.place [] false false fun _ => ht.2.1).run r x s1 rfl
      (Nat.zero_le _) hr (by simp) h1
    have h := h _ List.mem_cons_self
    simp only [Known.holds] at h
    rw [ht.1, ht.2.1, ht.2.2] at h
    exact h
  have hs1 := hs.same e3.waits
  refine ⟨hs1.mods, ?_⟩
  have ho := hs1.opened
  show ∀ q ∈ (match s1.open_ with
    | (b, xs) :: rest => (b, xs ++ [x]) :: rest
    | [] => []), _
  cases he : s1.open_ with
  | nil => simp
  | cons q rest =>
    rw [he] at ho
    intro q' hq'
    rcases List.mem_cons.mp hq' with rfl | hq'
    · intro y hy
      rcases List.mem_append.mp hy with hy | hy
      · exact ho q List.mem_cons_self y hy
      · obtain rfl := List.mem_singleton.mp hy
        exact hx
    · exact ho q' (List.mem_cons_of_mem _ hq')

theorem openModule_goes {cfg : CCfg} {p : Path} {as : List Annotation} {r r' : CState} (hr : Rooted r)
    (he : (openModule cfg p as).run r = .ok r') : Goes r r' := by
  have key : ∀ b, Goes r { r with open_ := (b, []) :: r.open_ } := fun b =>
    ⟨rfl, rfl, ⟨hr.down, hr.here, hr.tys⟩, Nat.le_refl _, fun _ hs => ⟨hs.mods, fun q hq => by
      rcases List.mem_cons.mp hq with rfl | hq
      · simp
      · exact hs.opened q hq⟩⟩
  obtain ⟨a, ha⟩ := run_ok he
  unfold openModule at ha
  cases hf : as.find? fun a => String.ofList a.name == "embutido" with
  | none =>
    rw [hf] at ha
    obtain rfl := C.modify_ok.mp ha
    exact key false
  | some x =>
    rw [hf] at ha
    dsimp only at ha
    by_cases hd : (Imports.splitPath p).1 = cfg.stdLib
    · rw [if_pos hd] at ha
      obtain rfl := C.modify_ok.mp ha
      exact key true
    · rw [if_neg hd] at ha
      cases ha

theorem closeModule_goes {p : Path} {t : Tree} {r r' : CState} (hr : Rooted r) (he : (closeModule p t).run r = .ok r') : Goes r r' := by
  obtain ⟨a, ha⟩ := run_ok he
  unfold closeModule at ha
  rw [C.bind_ok] at ha
  obtain ⟨s0, s1, h0, hb⟩ := ha
  obtain ⟨e1, e2⟩ := C.get_ok.mp h0
  subst e2
  subst e1
  rcases ho : s0.open_ with _ | ⟨⟨builtin, xs⟩, rest⟩
  · rw [ho] at hb
    exact (C.raise_ok.mp hb).elim
  · rw [ho] at hb
    have ha := hb
    dsimp only at ha
    obtain ⟨body, s2, h1, h2⟩ := C.bind_ok.mp ha
    obtain rfl := C.modify_ok.mp h2
    have := toSs_rigid (mod := pstr p) (gsc := s0.ana.globalScope) (withUsa t.stmts xs) true
    have hrun : (toSs (pstr p) s0.ana.globalScope true (withUsa t.stmts xs)).run s0 = .ok s2 := by unfold C.run; rw [h1]
    have g := run_rigid hr hrun
    refine ⟨g.place, g.waits, ⟨g.rooted.down, g.rooted.here, g.rooted.tys⟩, g.grows, fun ht hs => ?_⟩
    have hb : ∀ t ∈ body, standsTop t = true := (top_turns (withUsa t.stmts xs) true
      (withUsa_legal _ _ fun x hx => hs.opened (builtin, xs) (by rw [ho]; exact List.mem_cons_self) x hx)).run _ _ _ h1
    have hs2 := g.stood ht hs
    refine ⟨fun m hm => ?_, fun q hq => hs.opened q (by rw [ho]; exact List.mem_cons_of_mem _ hq)⟩
    rcases List.mem_append.mp hm with hm | hm
    · exact hs2.mods m (List.mem_filter.mp hm).1
    · obtain rfl := List.mem_singleton.mp hm
      intro t ht
      dsimp only at ht
      split at ht
      · cases ht
      · exact hb t ht

section
variable {cfg : CCfg} {c : ICfg CState} {load : Path → Token → UsaMode → LState CState → Except LErr (LState CState)}

/-- The loader goes from a state to a later one. -/
def Proceeds (load : Path → Token → UsaMode → LState CState → Except LErr (LState CState)) : Prop :=
  ∀ p tok mode s s', Rooted s.rest → load p tok mode s = .ok s' → Goes s.rest s'.rest

theorem visitChildren_goes (hc : c.hooks = hooks cfg) (hload : Proceeds load) :
    ∀ (ss : List Stmt) (s s' : LState CState), Rooted s.rest → visitChildren c load ss s = .ok s' → Goes s.rest s'.rest
  | [], s, s', hr, h => by cases h; exact hr.goes
  | st :: rest, s, s', hr, h => by
      by_cases hu : ∃ tok module mode, st = .usa tok module mode
      · obtain ⟨tok, module, mode, rfl⟩ := hu
        simp only [visitChildren, visitUsa] at h
        cases htg : target c.files module with
        | none =>
          rw [htg] at h
          simp only [pathError] at h
          split at h <;> cases h
        | some p =>
          rw [htg] at h
          obtain ⟨s1, h1, h2⟩ := except_bind_eq_ok.mp h
          have he : c.hooks.enter tok s.rest = { s.rest with ana := { s.rest.ana with line := tok.line } } := by rw [hc]; rfl
          have hr0 : Rooted (c.hooks.enter tok s.rest) := by rw [he]; exact ⟨hr.down, hr.here, hr.tys⟩
          have g1 := hload p tok mode _ s1 hr0 h1
          have g0 : Goes s.rest (c.hooks.enter tok s.rest) := by rw [he]; exact ⟨rfl, rfl, ⟨hr.down, hr.here, hr.tys⟩, Nat.le_refl _, fun _ hs => ⟨hs.mods, hs.opened⟩⟩
          exact (g0.trans g1).trans (visitChildren_goes hc hload rest s1 s' g1.rooted h2)
      · rw [visitChildren] at h
        · obtain ⟨r, h1, h2⟩ := except_bind_eq_ok.mp h
          have he : c.hooks.stmt s.ctx st s.rest = (visitChild cfg s.ctx st).run s.rest := by rw [hc]; rfl
          rw [he, lifted_ok] at h1
          have g1 := visitChild_goes hr h1
          exact g1.trans (visitChildren_goes hc hload rest _ s' g1.rooted h2)
        · intro a b d h
          exact hu ⟨a, b, d, h⟩

theorem visitTree_goes (hc : c.hooks = hooks cfg) (hload : Proceeds load) {t : Tree} {s s' : LState CState} (hr : Rooted s.rest)
    (h : visitTree c load t s = .ok s') : Goes s.rest s'.rest := by
  unfold visitTree at h
  obtain ⟨r, h1, h⟩ := except_bind_eq_ok.mp h
  obtain ⟨s1, h2, h⟩ := except_bind_eq_ok.mp h
  obtain ⟨r2, h3, h⟩ := except_bind_eq_ok.mp h
  cases h
  have e1 : c.hooks.annotations s.ctx t.annotations s.rest = (openModule cfg s.ctx t.annotations).run s.rest := by rw [hc]; rfl
  have e2 : c.hooks.finish s1.ctx t s1.rest = (closeModule s1.ctx t).run s1.rest := by rw [hc]; rfl
  rw [e1, lifted_ok] at h1
  rw [e2, lifted_ok] at h3
  have g1 := openModule_goes hr h1
  have g2 := visitChildren_goes hc hload _ _ _ g1.rooted h2
  exact (g1.trans g2).trans (closeModule_goes g2.rooted h3)

theorem visitModule_goes (hc : c.hooks = hooks cfg) (hload : Proceeds load) {s s' : LState CState} (hr : Rooted s.rest)
    (h : visitModule c load s = .ok s') : Goes s.rest s'.rest := by
  unfold visitModule at h
  obtain ⟨t, -, h⟩ := except_bind_eq_ok.mp h
  exact visitTree_goes hc hload hr h

/-- Scopes are made after the scopes around them. -/
def Falls (s : CState) : Prop := ∀ i p : Nat, parentOf s i = some p → p < i

theorem newAnalyzer_goes (hc : c.hooks = hooks cfg) (hload : Proceeds load) {p : Path} {s s' : LState CState} (hr : Falls s.rest)
    (h : newAnalyzer c load p s = .ok s') :
    Rooted s'.rest ∧ s'.rest.waiting = s.rest.ana :: s.rest.waiting ∧ s.rest.scopes.length ≤ s'.rest.scopes.length ∧
      s'.rest.ana.place.top ∧ (Stood s.rest → Stood s'.rest) := by
  unfold newAnalyzer at h
  obtain ⟨r, h1, h⟩ := except_bind_eq_ok.mp h
  obtain ⟨s1, h2, h⟩ := except_bind_eq_ok.mp h
  obtain ⟨r2, h3, h⟩ := except_bind_eq_ok.mp h
  cases h
  have e1 : c.hooks.fresh p s.rest = freshAna.run s.rest := by rw [hc]; rfl
  have e2 : c.hooks.embutidos s1.rest = initOpcao.run s1.rest := by rw [hc]; rfl
  rw [e1, lifted_ok] at h1
  rw [e2, lifted_ok] at h3
  cases h1
  have hr0 : Rooted { s.rest with
      scopes := s.rest.scopes ++ [⟨builtinTypes.map (·.1) |>.zipIdx, none⟩, ⟨[], none⟩]
      waiting := s.rest.ana :: s.rest.waiting
      ana := ⟨s.rest.scopes.length, s.rest.scopes.length, 0, false, none, none, false, s.rest.scopes.length + 1, 0⟩ } := by
    refine ⟨fun i q hi => ?_, by simp, by simp⟩
    by_cases hl : i < s.rest.scopes.length
    · apply hr
      simpa [parentOf, List.getElem?_append_left hl] using hi
    · simp only [parentOf, List.getElem?_append_right (Nat.le_of_not_lt hl)] at hi
      rcases hk : i - s.rest.scopes.length with _ | _ | k <;> simp [hk] at hi
  have g1 := hload _ _ _ _ s1 hr0 h2
  have g2 := g1.trans (run_rigid g1.rooted h3)
  have htop : r2.ana.place.top := by
    rw [g2.place]
    exact ⟨rfl, rfl, rfl⟩
  refine ⟨g2.rooted, g2.waits, Nat.le_trans ?_ g2.grows, htop, fun hs => g2.stood ⟨rfl, rfl, rfl⟩ ⟨hs.mods, hs.opened⟩⟩
  simp

theorem loadScoped_goes (hc : c.hooks = hooks cfg) (hload : Proceeds load) {p : Path} {s s' : LState CState} (hr : Rooted s.rest)
    (h : loadScoped c load p s = .ok s') : Goes s.rest s'.rest := by
  unfold loadScoped at h
  obtain ⟨a, h1, h⟩ := except_bind_eq_ok.mp h
  obtain ⟨s1, h2, h⟩ := except_bind_eq_ok.mp h
  cases h
  obtain ⟨g1, g2, g3, g5, g6⟩ := newAnalyzer_goes hc hload hr.down h1
  have g4 := visitModule_goes hc hload (s := { a with imports := s.imports, ctx := p }) g1 h2
  have h5 : s1.rest.waiting = s.rest.ana :: s.rest.waiting := g4.waits.trans g2
  have hb : c.hooks.back s1.rest = { s1.rest with ana := s.rest.ana, waiting := s.rest.waiting } := by
    rw [hc]
    simp only [hooks, h5]
  have hl := Nat.le_trans g3 g4.grows
  show Goes s.rest (c.hooks.back s1.rest)
  rw [hb]
  exact ⟨rfl, rfl, ⟨g4.rooted.down, Nat.lt_of_lt_of_le hr.here hl, Nat.lt_of_lt_of_le hr.tys hl⟩, hl, fun _ hs => by
    have := g4.stood g5 (g6 hs)
    exact ⟨this.mods, this.opened⟩⟩

theorem defineNames_goes (hc : c.hooks = hooks cfg) {p prev : Path} {mode : UsaMode} {s s' : LState CState} (hr : Rooted s.rest)
    (h : defineNames c p mode prev s = .ok s') : Goes s.rest s'.rest := by
  cases mode with
  | global => cases h; exact hr.goes
  | «scoped» a =>
    simp only [defineNames] at h
    obtain ⟨r, h1, h⟩ := except_bind_eq_ok.mp h
    cases h
    have e : c.hooks.alias prev a p s.rest = (defineAlias a p).run s.rest := by rw [hc]; rfl
    rw [e, lifted_ok] at h1
    exact run_rigid hr h1
  | item is =>
    simp only [defineNames] at h
    obtain ⟨r, h1, h⟩ := except_bind_eq_ok.mp h
    cases h
    have e : c.hooks.items prev is p s.rest = C.run (match is with
        | [] => C.raise "TypeError"
        | is => defineItems p is) s.rest := by rw [hc]; rfl
    rw [e, lifted_ok] at h1
    have : Rigid (match is with
        | [] => (C.raise "TypeError" : C Unit)
        | is => defineItems p is) := by
      have := @defineItems_rigid p
      split <;> infer_instance
    exact run_rigid hr h1

theorem loadModule_proceeds (hc : c.hooks = hooks cfg) : ∀ n, Proceeds (loadModule c n)
  | 0 => fun _ _ _ _ _ _ h => nomatch h
  | n + 1 => by
      have ih := loadModule_proceeds hc n
      intro p tok mode s s' hr h
      unfold loadModule at h
      split at h
      · exact defineNames_goes hc hr h
      · simp only [pathError] at h
        split at h <;> cases h
      · obtain ⟨s1, h1, h⟩ := except_bind_eq_ok.mp h
        obtain ⟨s2, h2, h⟩ := except_bind_eq_ok.mp h
        cases h
        have g1 : Goes s.rest s1.rest := by
          unfold analyse at h1
          split at h1
          · exact visitModule_goes hc ih (s := { s with ctx := p, imports := s.imports ++ [(p, false)] }) hr h1
          · exact loadScoped_goes hc ih (s := { s with ctx := p, imports := s.imports ++ [(p, false)] }) hr h1
        exact (g1.trans (defineNames_goes hc g1.rooted h2) : Goes s.rest s2.rest)

/-- At the end of a program. -/
theorem checkProgram_rooted {py : PyCfg} {files : Files} {n : Nat} {main : Path} {t : Tree} {P : Source.Prog}
    (h : checkProgram cfg py files n main t = .ok P) {k p : Nat} {tab : ScopeTab} (hk : P.env.scopes[k]? = some tab)
    (hp : tab.parent = some p) : p < k := by
  unfold checkProgram at h
  dsimp only at h
  obtain ⟨s, h1, h⟩ := except_bind_eq_ok.mp h
  obtain ⟨s1, h2, h⟩ := except_bind_eq_ok.mp h
  cases h
  have hl := loadModule_proceeds (c := icfg cfg py files) (cfg := cfg) rfl n
  obtain ⟨g1, -⟩ := newAnalyzer_goes (c := icfg cfg py files) (cfg := cfg) rfl hl (fun i q hi => by simp [parentOf, initState] at hi) h1
  have g2 := visitTree_goes (c := icfg cfg py files) (cfg := cfg) rfl hl g1 h2
  apply g2.rooted.down
  unfold parentOf
  simp only at hk
  rw [hk]
  exact hp

/-- At the end of a program. -/
theorem checkProgram_stood {py : PyCfg} {files : Files} {n : Nat} {main : Path} {t : Tree} {P : Source.Prog}
    (h : checkProgram cfg py files n main t = .ok P) {m : Codegen.ModuleIn} (hm : m = P.main ∨ m ∈ P.imports) {x : TStmt} (hx : x ∈ m.body) :
    standsTop x = true := by
  unfold checkProgram at h
  dsimp only at h
  obtain ⟨s, h1, h⟩ := except_bind_eq_ok.mp h
  obtain ⟨s1, h2, h⟩ := except_bind_eq_ok.mp h
  cases h
  have hl := loadModule_proceeds (c := icfg cfg py files) (cfg := cfg) rfl n
  obtain ⟨g1, -, -, g3, g4⟩ := newAnalyzer_goes (c := icfg cfg py files) (cfg := cfg) rfl hl (fun i q hi => by simp [parentOf, initState] at hi) h1
  have g2 := visitTree_goes (c := icfg cfg py files) (cfg := cfg) rfl hl g1 h2
  have hs := g2.stood g3 (g4 ⟨by simp [initState], by simp [initState]⟩)
  have key : ∀ p, ∀ x ∈ (modIn s1.rest p).body, standsTop x = true := by
    intro p x hx
    unfold modIn at hx
    split at hx
    · exact hs.mods _ (List.mem_of_find?_eq_some ‹_›) x hx
    · cases hx
  rcases hm with rfl | hm
  · exact key _ x hx
  · obtain ⟨i, -, rfl⟩ := List.mem_map.mp hm
    exact key _ x hx

end

end Amanda.Check

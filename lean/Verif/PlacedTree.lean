import Verif.Placed
import Verif.PlaceSpec
import Verif.ErrorFiles

/-!
# Where the statements of transformed trees stand

Used by C66: `transform` leaves statements where they may stand, and so does the loading of the imports.
-/

namespace Amanda.Check

open Imports

instance : Judged (TExpr × CTy) := ⟨fun lp fn x => standsE lp fn x.1 = true⟩
instance : Judged (List TExpr) := ⟨fun lp fn x => standsEs lp fn x = true⟩
instance : Judged TBlock := ⟨fun lp fn x => standsB lp fn x = true⟩
instance : Judged (List TElse) := ⟨fun lp fn x => standsElses lp fn x = true⟩
instance : Judged Decision := ⟨fun lp fn x => standsD lp fn x = true⟩
instance : Judged (List DCase) := ⟨fun lp fn x => standsCs lp fn x = true⟩
instance : Judged (List TCase) := ⟨fun lp fn l => ∀ c ∈ l, standsE lp fn c.value = true ∧ standsB lp fn c.block = true⟩
instance : Judged (List (Option (Nat × ScopeId × List TStmt))) :=
  ⟨fun lp fn l => ∀ a ∈ l, ∀ x, a = some x → standsYs lp fn x.2.2 = true⟩

/-- What the function gives is so. -/
class Turns {α : Type} (Φ : α → Prop) (m : C α) : Prop where
  run : ∀ s a s', m s = .ok (a, s') → Φ a

section
variable {α β : Type} {Φ : β → Prop}

theorem Turns.bind {Ψ : α → Prop} {m : C α} {f : α → C β} (h : Turns Ψ m) (hf : ∀ a, Ψ a → Turns Φ (f a)) : Turns Φ (m >>= f) := by
  constructor
  intro s b s' hb
  obtain ⟨a, s1, h1, h2⟩ := C.bind_ok.mp hb
  exact (hf a (h.run _ _ _ h1)).run _ _ _ h2

theorem Turns.next {m : C α} {f : α → C β} (hf : ∀ a, Turns Φ (f a)) : Turns Φ (m >>= f) :=
  Turns.bind (Ψ := fun _ => True) ⟨fun _ _ _ _ => trivial⟩ fun a _ => hf a

theorem Turns.judged [Judged α] {lp fn : Bool} {m : C α} {f : α → C β} (h : Turns (judge lp fn) m) (hf : ∀ a, judge lp fn a → Turns Φ (f a)) :
    Turns Φ (m >>= f) := Turns.bind h hf

theorem Turns.pure {a : β} (h : Φ a) : Turns Φ (Pure.pure a : C β) :=
  ⟨fun s b s' e => by obtain ⟨rfl, rfl⟩ := C.pure_ok.mp e; exact h⟩

instance {n : String} : Turns Φ (C.raise n : C β) := ⟨fun _ _ _ h => (C.raise_ok.mp h).elim⟩

theorem Turns.ite {c : Prop} [Decidable c] {m m' : C β} (h : Turns Φ m) (h' : Turns Φ m') : Turns Φ (if c then m else m') := by
  split
  · exact h
  · exact h'

end

set_option hygiene false in
/-- Steps through a function. -/
macro "turns" : tactic => `(tactic| repeat' first
  | assumption
  | infer_instance
  | exact Turns.pure (by simp_all [judge, standsE, standsEs, standsS, standsB, standsElses, standsD, standsCs])
  | dsimp only
  | refine Turns.ite ?_ ?_
  | refine Turns.judged (lp := lp) (fn := fn) (by infer_instance) (fun _ _ => ?_)
  | refine Turns.next (fun _ => ?_)
  | split)

section
variable {mod : String} {gsc : ScopeId}

section
variable {lp fn : Bool}

theorem getAfter_turns {t u : CTy} {x : TExpr} {m : Token} {b : Bool} (h : standsE lp fn x = true) :
    Turns (judge lp fn) (getAfter gsc t x u m b) := by
  unfold getAfter; turns

theorem callAfter_turns {l : Nat} {t u : CTy} {p : Ty} {x : TExpr} {m : Token} {as : List TExpr} {i : SymId}
    (h : standsE lp fn x = true) (ha : standsEs lp fn as = true) : Turns (judge lp fn) (callAfter mod gsc l t p x u m as i) := by
  unfold callAfter; turns

mutual
theorem toDec_turns {arms : List (Option (Nat × ScopeId × List TStmt))} (h : judge lp fn arms) : ∀ d, Turns (judge lp fn) (toDec arms d)
  | .fail => by unfold toDec; turns
  | .success bs k => by
      unfold toDec
      split
      · rename_i line sc body hk
        refine Turns.pure ?_
        cases ha : arms[k]? with
        | none => rw [ha] at hk; cases hk
        | some o =>
          rw [ha] at hk
          exact h o (List.mem_of_getElem? ha) _ hk
      · infer_instance
  | .switch x cases none => by
      unfold toDec
      have := toCases_turns h cases
      turns
  | .switch x cases (some d) => by
      unfold toDec
      have := toCases_turns h cases
      have := toDec_turns h d
      turns
theorem toCases_turns {arms : List (Option (Nat × ScopeId × List TStmt))} (h : judge lp fn arms) : ∀ cs, Turns (judge lp fn) (toCases arms cs)
  | [] => by unfold toCases; turns
  | (c, vs, d) :: rest => by
      unfold toCases
      have := toDec_turns h d
      have := toCases_turns h rest
      turns
end

theorem call_turns {ty : CTy} {prom : Ty} {c : AExpr} {as : List AExpr} {i : SymId} {on : Bool} (h1 : Turns (judge lp fn) (toE mod gsc on c))
    (h2 : ∀ a p t m b, c = .mk a p (.get t m b) → ∀ on, Turns (judge lp fn) (toE mod gsc on t))
    (h3 : ∀ on, Turns (judge lp fn) (toEs mod gsc on as)) :
    Turns (judge lp fn) (toE mod gsc on (.mk ty prom (.call c as i))) := by
  rw [toE.eq_def]
  dsimp only
  split
  any_goals (rename_i h; simp only [AExpr.mk.injEq, reduceCtorEq, and_false] at h)
  · obtain ⟨-, -, h⟩ := h
    cases h
    have := h2 _ _ _ _ _ rfl
    refine Turns.judged (lp := lp) (fn := fn) inferInstance fun x hx => ?_
    obtain ⟨t, tty⟩ := x
    refine Turns.ite ?_ (by turns)
    refine Turns.judged (getAfter_turns hx) fun c hc => Turns.judged (lp := lp) (fn := fn) inferInstance fun as ha => ?_
    obtain ⟨c, cty⟩ := c
    dsimp only
    split
    · exact callAfter_turns hx ha
    · exact Turns.pure (by simp_all [judge, standsE])
  · obtain ⟨-, -, h⟩ := h
    cases h
    turns

/-- `transform_escolha` leaves the blocks where they are. -/
theorem transformEscolha_stands {line : Nat} {x : TExpr} {t : Ty} {cs : List TCase} {d : Option TBlock} {top pr : Bool}
    (hx : standsE lp fn x = true) (hc : judge lp fn cs) (hd : ∀ b, d = some b → standsB lp fn b = true) :
    standsS lp fn top pr (transformEscolha ⟨line, x, t, cs, d⟩) = true := by
  have hes : ∀ (l : List TCase), judge lp fn l → standsElses lp fn (l.map fun c => .mk (TEscolha.test ⟨line, x, t, cs, d⟩ c) c.block) = true := by
    intro l
    induction l with
    | nil => simp [standsElses]
    | cons c l ih =>
      intro hl
      have := ih fun c hc => hl c (List.mem_cons_of_mem _ hc)
      have := hl c List.mem_cons_self
      simp_all [standsElses, TEscolha.test, standsE]
  unfold transformEscolha
  match cs, d with
  | [], none => simp [standsS]
  | [], some b =>
    have := hd b rfl
    simp [standsS, standsE, standsElses, this]
  | c :: cs, d =>
    have h1 := hc c List.mem_cons_self
    have h2 := hes cs fun c h => hc c (List.mem_cons_of_mem _ h)
    cases d with
    | none => simp_all [standsS, TEscolha.test, standsE]
    | some b =>
      have := hd b rfl
      simp_all [standsS, TEscolha.test, standsE]

end

mutual
theorem toE_turns : ∀ (e : AExpr) (lp fn on : Bool), legalE lp fn e → Turns (judge lp fn) (toE mod gsc on e)
  | .mk ty prom (.const tok), lp, fn, on, h => by unfold toE; turns
  | .mk ty prom (.fmtStr tok parts), lp, fn, on, h => by
      unfold toE
      have := fun on => toEs_turns parts lp fn on h
      turns
  | .mk ty prom (.var tok sym), lp, fn, on, h => by unfold toE; turns
  | .mk ty prom (.converta tok e), lp, fn, on, h => by
      unfold toE
      have := fun on => toE_turns e lp fn on h
      turns
  | .mk ty prom (.alvo tok i), lp, fn, on, h => by unfold toE; exact Turns.pure h
  | .mk ty prom (.bin tok a b), lp, fn, on, h => by
      unfold toE
      have := fun on => toE_turns a lp fn on h.1
      have := fun on => toE_turns b lp fn on h.2
      turns
  | .mk ty prom (.un tok e), lp, fn, on, h => by
      unfold toE
      have := fun on => toE_turns e lp fn on h
      turns
  | .mk ty prom (.assign tok l r), lp, fn, on, h => by
      have := fun on => toE_turns r lp fn on h.2
      rcases l with ⟨_, _, n⟩
      cases n with
      | var t o => cases o <;> (unfold toE; turns)
      | _ => unfold toE; turns
  | .mk ty prom (.iguala tok target arms ir), lp, fn, on, h => by
      unfold toE
      refine Turns.next fun _ => Turns.judged (toArms_turns arms lp fn on h.2) fun as ha => Turns.judged (toDec_turns ha ir) fun d hd => ?_
      exact Turns.pure hd
  | .mk ty prom (.call callee args i), lp, fn, on, h => by
      have h3 := fun on => toEs_turns args lp fn on h.2
      have h1 := toE_turns callee lp fn on h.1
      have h2 := fun a p t m b he => target_turns callee a p t m b he lp fn h.1
      exact call_turns h1 h2 h3
  | .mk ty prom (.list tok es), lp, fn, on, h => by
      unfold toE
      have := fun on => toEs_turns es lp fn on h
      turns
  | .mk ty prom (.named name e), lp, fn, on, h => by
      unfold toE
      have := fun on => toE_turns e lp fn on h
      turns
  | .mk ty prom (.get target member b), lp, fn, on, h => by
      unfold toE
      refine Turns.judged (toE_turns target lp fn on h) fun x hx => ?_
      obtain ⟨t, tty⟩ := x
      exact Turns.ite (getAfter_turns hx) (Turns.pure hx)
  | .mk ty prom (.index tok a i), lp, fn, on, h => by
      unfold toE
      have := fun on => toE_turns a lp fn on h.1
      have := fun on => toE_turns i lp fn on h.2
      turns
  | .mk ty prom (.indexSet tok x v), lp, fn, on, h => by
      have := fun on => toE_turns v lp fn on h.2
      have hx := h.1
      match x, hx with
      | .mk _ _ (.index _ a i), hx =>
        have := fun on => toE_turns a lp fn on hx.1
        have := fun on => toE_turns i lp fn on hx.2
        unfold toE; turns
      | .mk _ _ (.const _), _ | .mk _ _ (.fmtStr _ _), _ | .mk _ _ (.var _ _), _ | .mk _ _ (.converta _ _), _ | .mk _ _ (.alvo _ _), _
      | .mk _ _ (.bin _ _ _), _ | .mk _ _ (.un _ _), _ | .mk _ _ (.assign _ _ _), _ | .mk _ _ (.iguala _ _ _ _), _ | .mk _ _ (.call _ _ _), _
      | .mk _ _ (.list _ _), _ | .mk _ _ (.named _ _), _ | .mk _ _ (.get _ _ _), _ | .mk _ _ (.indexSet _ _ _), _ | .mk _ _ (.set _ _), _
      | .mk _ _ (.path _ _), _ => unfold toE; turns
  | .mk ty prom (.set target e), lp, fn, on, h => by
      unfold toE
      have := fun on => toE_turns target lp fn on h.1
      have := fun on => toE_turns e lp fn on h.2
      turns
  | .mk ty prom (.path comps i), lp, fn, on, h => by unfold toE; turns
theorem target_turns : ∀ e : AExpr, ∀ c p t m b, e = .mk c p (.get t m b) → ∀ lp fn, legalE lp fn e → ∀ on, Turns (judge lp fn) (toE mod gsc on t)
  | .mk _ _ (.get x _ _), _, _, _, _, _, h, lp, fn, hl, on => by
      have := toE_turns x lp fn on hl
      cases h
      exact this
  | .mk _ _ (.const _), _, _, _, _, _, h, _, _, _, _ | .mk _ _ (.fmtStr _ _), _, _, _, _, _, h, _, _, _, _ | .mk _ _ (.var _ _), _, _, _, _, _, h, _, _, _, _
  | .mk _ _ (.converta _ _), _, _, _, _, _, h, _, _, _, _ | .mk _ _ (.alvo _ _), _, _, _, _, _, h, _, _, _, _ | .mk _ _ (.bin _ _ _), _, _, _, _, _, h, _, _, _, _
  | .mk _ _ (.un _ _), _, _, _, _, _, h, _, _, _, _ | .mk _ _ (.assign _ _ _), _, _, _, _, _, h, _, _, _, _ | .mk _ _ (.iguala _ _ _ _), _, _, _, _, _, h, _, _, _, _
  | .mk _ _ (.call _ _ _), _, _, _, _, _, h, _, _, _, _ | .mk _ _ (.list _ _), _, _, _, _, _, h, _, _, _, _ | .mk _ _ (.named _ _), _, _, _, _, _, h, _, _, _, _
  | .mk _ _ (.index _ _ _), _, _, _, _, _, h, _, _, _, _ | .mk _ _ (.indexSet _ _ _), _, _, _, _, _, h, _, _, _, _ | .mk _ _ (.set _ _), _, _, _, _, _, h, _, _, _, _
  | .mk _ _ (.path _ _), _, _, _, _, _, h, _, _, _, _ => nomatch h
theorem toEs_turns : ∀ (es : List AExpr) (lp fn on : Bool), legalEs lp fn es → Turns (judge lp fn) (toEs mod gsc on es)
  | [], lp, fn, _, _ => by unfold toEs; turns
  | e :: es, lp, fn, on, h => by
      unfold toEs
      have := toE_turns e lp fn on h.1
      have := toEs_turns es lp fn on h.2
      turns
theorem toArms_turns : ∀ (as : List AArm) (lp fn on : Bool), legalArms lp fn as → Turns (judge lp fn) (toArms mod gsc on as)
  | [], lp, fn, _, _ => by unfold toArms; exact Turns.pure (by simp [judge])
  | .skipped body :: rest, lp, fn, on, h => by
      unfold toArms
      refine Turns.ite inferInstance (Turns.judged (toArms_turns rest lp fn on h.2) fun r hr => Turns.pure fun a ha x hx => ?_)
      rcases List.mem_cons.mp ha with rfl | ha
      · cases hx
      · exact hr a ha x hx
  | .seen tok t sc body :: rest, lp, fn, on, h => by
      unfold toArms
      refine Turns.bind (toYs_turns body lp fn on h.1) fun b hb => ?_
      refine Turns.judged (toArms_turns rest lp fn on h.2) fun r hr => Turns.pure fun a ha x hx => ?_
      rcases List.mem_cons.mp ha with rfl | ha
      · cases hx; exact hb.1
      · exact hr a ha x hx
theorem toS_turns : ∀ (s : AStmt) (lp fn top pr on : Bool), legalS lp fn top pr s → Turns (fun t => standsS lp fn top pr t = true) (toS mod gsc on s)
  | .expr e, lp, fn, top, pr, on, h => by
      unfold toS
      have := toE_turns e lp fn on h
      turns
  | .varDecl tok name ty none, lp, fn, top, pr, on, h => by unfold toS; turns
  | .varDecl tok name ty (some e), lp, fn, top, pr, on, h => by
      match e, h with
      | .mk _ _ (.assign _ l r), h =>
        have := toE_turns r lp fn on h.2
        rcases l with ⟨_, _, n⟩
        cases n with
        | var t o => cases o <;> (unfold toS; turns)
        | _ => unfold toS; turns
      | .mk _ _ (.const _), _ | .mk _ _ (.fmtStr _ _), _ | .mk _ _ (.var _ _), _ | .mk _ _ (.converta _ _), _ | .mk _ _ (.alvo _ _), _
      | .mk _ _ (.bin _ _ _), _ | .mk _ _ (.un _ _), _ | .mk _ _ (.index _ _ _), _ | .mk _ _ (.iguala _ _ _ _), _ | .mk _ _ (.call _ _ _), _
      | .mk _ _ (.list _ _), _ | .mk _ _ (.named _ _), _ | .mk _ _ (.get _ _ _), _ | .mk _ _ (.indexSet _ _ _), _ | .mk _ _ (.set _ _), _
      | .mk _ _ (.path _ _), _ => unfold toS; turns
  | .loopCtl tok, lp, fn, top, pr, on, h => by unfold toS; exact Turns.pure h
  | .retorna tok none, lp, fn, top, pr, on, h => by unfold toS; exact Turns.pure h
  | .retorna tok (some e), lp, fn, top, pr, on, h => by
      unfold toS
      refine Turns.judged (toE_turns e lp fn on h.2) fun x hx => Turns.pure ?_
      have := h.1
      simp_all [standsS, judge]
  | .produz tok e, lp, fn, top, pr, on, h => by
      unfold toS
      refine Turns.judged (toE_turns e lp fn on h.2) fun x hx => Turns.pure ?_
      have := h.1
      simp_all [standsS, judge]
  | .mostra tok e, lp, fn, top, pr, on, h => by
      unfold toS
      have := toE_turns e lp fn on h
      turns
  | .se tok c b es none, lp, fn, top, pr, on, h => by
      unfold toS
      have := toE_turns c lp fn on h.1
      have := toB_turns b lp fn on h.2.1
      have := toElses_turns es lp fn on h.2.2
      turns
  | .se tok c b es (some d), lp, fn, top, pr, on, h => by
      unfold toS
      have := toE_turns c lp fn on h.1
      have := toB_turns b lp fn on h.2.1
      have := toElses_turns es lp fn on h.2.2.1
      have := toB_turns d lp fn on h.2.2.2
      turns
  | .enquanto tok c b, lp, fn, top, pr, on, h => by
      unfold toS
      refine Turns.judged (toE_turns c lp fn on h.1) fun x hx => Turns.judged (toB_turns b true fn on h.2) fun y hy => Turns.pure ?_
      simp_all [standsS, judge]
  | .escolha tok sel cases none, lp, fn, top, pr, on, h => by
      unfold toS
      refine Turns.ite ?_ inferInstance
      refine Turns.judged (toE_turns sel lp fn false h.1) fun x hx => Turns.judged (toChoices_turns cases lp fn h.2) fun cs hc => ?_
      exact Turns.next fun _ => Turns.pure (transformEscolha_stands hx hc (by simp))
  | .escolha tok sel cases (some d), lp, fn, top, pr, on, h => by
      unfold toS
      refine Turns.ite ?_ inferInstance
      refine Turns.judged (toE_turns sel lp fn false h.1) fun x hx => Turns.judged (toChoices_turns cases lp fn h.2.1) fun cs hc => ?_
      refine Turns.judged (toB_turns d lp fn false h.2.2) fun b hb => Turns.next fun _ => Turns.pure (transformEscolha_stands hx hc ?_)
      rintro b' ⟨⟩
      exact hb
  | .para tok name a b none body, lp, fn, top, pr, on, h => by
      unfold toS
      have := toE_turns a lp fn on h.1
      have := toE_turns b lp fn on h.2.1
      have := toB_turns body lp fn on h.2.2
      turns
  | .para tok name a b (some i) body, lp, fn, top, pr, on, h => by
      unfold toS
      have := toE_turns a lp fn on h.1
      have := toE_turns b lp fn on h.2.1
      have := toE_turns i lp fn on h.2.2.1
      have := toB_turns body lp fn on h.2.2.2
      turns
  | .func name i b, lp, fn, top, pr, on, h => by
      unfold toS
      refine Turns.judged (toB_turns b false true on h.2) fun x hx => Turns.pure ?_
      have := h.1
      simp_all [standsS, judge]
  | .declared tok i sc native body, lp, fn, top, pr, on, h => by
      unfold toS
      have h' : top = true := h
      subst h'
      have h0 : standsSs false true [] = true := by rw [standsSs]
      turns
  | .registo name i inits, lp, fn, top, pr, on, h => by unfold toS; turns
  | .uniao name i, lp, fn, top, pr, on, h => by unfold toS; turns
  | .usa tok, lp, fn, top, pr, on, h => by unfold toS; turns
theorem toChoices_turns : ∀ (es : List AElse) (lp fn : Bool), legalElses lp fn es → Turns (judge lp fn) (toChoices mod gsc es)
  | [], lp, fn, _ => by unfold toChoices; exact Turns.pure (by simp [judge])
  | .mk tok c b :: rest, lp, fn, h => by
      unfold toChoices
      refine Turns.judged (toE_turns c lp fn false h.1) fun x hx => Turns.judged (toB_turns b lp fn false h.2.1) fun y hy => ?_
      refine Turns.judged (toChoices_turns rest lp fn h.2.2) fun r hr => Turns.next fun _ => Turns.pure fun a ha => ?_
      rcases List.mem_cons.mp ha with rfl | ha
      · exact ⟨hx, hy⟩
      · exact hr a ha
theorem toElses_turns : ∀ (es : List AElse) (lp fn on : Bool), legalElses lp fn es → Turns (judge lp fn) (toElses mod gsc on es)
  | [], lp, fn, on, _ => by unfold toElses; turns
  | .mk tok c b :: rest, lp, fn, on, h => by
      unfold toElses
      have := toE_turns c lp fn on h.1
      have := toB_turns b lp fn on h.2.1
      have := toElses_turns rest lp fn on h.2.2
      turns
theorem toB_turns : ∀ (b : ABlock) (lp fn on : Bool), legalB lp fn b → Turns (judge lp fn) (toB mod gsc on b)
  | .mk sc body, lp, fn, on, h => by
      unfold toB
      exact Turns.bind (toSs_turns body lp fn on h) fun x hx => Turns.pure hx
theorem toSs_turns : ∀ (ss : List AStmt) (lp fn on : Bool), legalSs lp fn ss → Turns (fun l => standsSs lp fn l = true) (toSs mod gsc on ss)
  | [], lp, fn, on, _ => by unfold toSs; exact Turns.pure rfl
  | s :: ss, lp, fn, on, h => by
      unfold toSs
      refine Turns.bind (toS_turns s lp fn false false on h.1) fun x hx => Turns.bind (toSs_turns ss lp fn on h.2) fun xs hxs => Turns.pure ?_
      simp_all [standsSs]
theorem toYs_turns : ∀ (ss : List AStmt) (lp fn on : Bool), legalYs lp fn ss →
    Turns (fun l => standsYs lp fn l = true ∧ l.isEmpty = ss.isEmpty) (toSs mod gsc on ss)
  | [], lp, fn, on, _ => by unfold toSs; exact Turns.pure ⟨rfl, rfl⟩
  | s :: ss, lp, fn, on, h => by
      unfold toSs
      refine Turns.bind (toS_turns s lp fn false ss.isEmpty on h.1) fun x hx => Turns.bind (toYs_turns ss lp fn on h.2) fun xs hxs => Turns.pure ?_
      simp_all [standsYs]
end

theorem top_turns : ∀ (ss : List AStmt) (on : Bool), (∀ s ∈ ss, legalS false false true false s) →
    Turns (fun l => ∀ t ∈ l, standsTop t = true) (toSs mod gsc on ss)
  | [], on, _ => by unfold toSs; exact Turns.pure (by simp)
  | s :: ss, on, h => by
      unfold toSs
      refine Turns.bind (toS_turns s false false true false on (h s List.mem_cons_self)) fun x hx => ?_
      refine Turns.bind (top_turns ss on fun s hs => h s (List.mem_cons_of_mem _ hs)) fun xs hxs => Turns.pure fun t ht => ?_
      rcases List.mem_cons.mp ht with rfl | ht
      · exact hx
      · exact hxs t ht

end

/-- The place of an analyzer between the statements of a module. -/
def Place.top (P : Place) : Prop := P.depth = 0 ∧ P.loop = false ∧ P.func = none

/-- The statements of modules stand where they may. -/
structure Stood (s : CState) : Prop where
  mods : ∀ m ∈ s.mods, ∀ t ∈ m.body, standsTop t = true
  opened : ∀ q ∈ s.open_, ∀ x ∈ q.2, legalS false false true false x

theorem Stood.same {s s' : CState} (h : Stood s) (e : s'.shelf = s.shelf) : Stood s' := by
  have e1 : s'.open_ = s.open_ := congrArg (fun x => x.2.1) e
  have e2 : s'.mods = s.mods := congrArg (fun x => x.2.2) e
  exact ⟨e2 ▸ h.mods, e1 ▸ h.opened⟩

theorem withUsa_legal : ∀ (ss : List Stmt) (xs : List AStmt), (∀ x ∈ xs, legalS false false true false x) →
    ∀ x ∈ withUsa ss xs, legalS false false true false x
  | [], xs, _ => by simp [withUsa]
  | st :: ss, xs, h => by
      by_cases hu : ∃ tok m mode, st = .usa tok m mode
      · obtain ⟨tok, m, mode, rfl⟩ := hu
        intro x hx
        simp only [withUsa] at hx
        rcases List.mem_cons.mp hx with rfl | hx
        · trivial
        · exact withUsa_legal ss xs h x hx
      · cases xs with
        | nil => rw [withUsa]; simp; all_goals simp_all
        | cons y ys =>
          rw [withUsa]
          · intro x hx
            rcases List.mem_cons.mp hx with rfl | hx
            · exact h _ List.mem_cons_self
            · exact withUsa_legal ss ys (fun x hx => h x (List.mem_cons_of_mem _ hx)) x hx
          · intro a b c e
            exact hu ⟨a, b, c, e⟩

end Amanda.Check

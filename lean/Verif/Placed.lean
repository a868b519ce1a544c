import Verif.CheckContext

/-!
# Where the statements of checked trees stand

Used by C66: what the checker makes of statements, by `Within` with the place of the analyzer.
-/

namespace Amanda.Check

/-! ## Checked trees -/

mutual
/-- Expressions; see `standsE`. -/
def legalE (lp fn : Bool) : AExpr → Prop
  | .mk _ _ n => legalN lp fn n
/-- Nodes. -/
def legalN (lp fn : Bool) : ANode → Prop
  | .const _ | .var _ _ | .path _ _ => True
  | .alvo _ _ => fn = true
  | .fmtStr _ es | .list _ es => legalEs lp fn es
  | .converta _ e | .un _ e | .named _ e | .get e _ _ => legalE lp fn e
  | .bin _ a b | .assign _ a b | .index _ a b | .indexSet _ a b | .set a b => legalE lp fn a ∧ legalE lp fn b
  | .iguala _ e arms _ => legalE lp fn e ∧ legalArms lp fn arms
  | .call f es _ => legalE lp fn f ∧ legalEs lp fn es
/-- Lists. -/
def legalEs (lp fn : Bool) : List AExpr → Prop
  | [] => True
  | e :: es => legalE lp fn e ∧ legalEs lp fn es
/-- An arm. -/
def legalArm (lp fn : Bool) : AArm → Prop
  | .skipped _ => True
  | .seen _ _ _ body => legalYs lp fn body
/-- Arms. -/
def legalArms (lp fn : Bool) : List AArm → Prop
  | [] => True
  | a :: as => legalArm lp fn a ∧ legalArms lp fn as
/-- Statements. -/
def legalS (lp fn top pr : Bool) : AStmt → Prop
  | .expr e | .mostra _ e | .varDecl _ _ _ (some e) => legalE lp fn e
  | .varDecl _ _ _ none | .registo .. | .uniao .. | .usa _ => True
  | .loopCtl _ => lp = true
  | .retorna _ none => fn = true
  | .retorna _ (some e) => fn = true ∧ legalE lp fn e
  | .produz _ e => pr = true ∧ legalE lp fn e
  | .se _ c b es none => legalE lp fn c ∧ legalB lp fn b ∧ legalElses lp fn es
  | .se _ c b es (some d) => legalE lp fn c ∧ legalB lp fn b ∧ legalElses lp fn es ∧ legalB lp fn d
  | .enquanto _ c b => legalE lp fn c ∧ legalB true fn b
  | .escolha _ c cs none => legalE lp fn c ∧ legalElses lp fn cs
  | .escolha _ c cs (some d) => legalE lp fn c ∧ legalElses lp fn cs ∧ legalB lp fn d
  | .para _ _ x y none b => legalE lp fn x ∧ legalE lp fn y ∧ legalB lp fn b
  | .para _ _ x y (some z) b => legalE lp fn x ∧ legalE lp fn y ∧ legalE lp fn z ∧ legalB lp fn b
  | .func _ _ b => top = true ∧ legalB false true b
  | .declared .. => top = true
/-- Branches. -/
def legalElses (lp fn : Bool) : List AElse → Prop
  | [] => True
  | .mk _ c b :: es => legalE lp fn c ∧ legalB lp fn b ∧ legalElses lp fn es
/-- Blocks. -/
def legalB (lp fn : Bool) : ABlock → Prop
  | .mk _ body => legalSs lp fn body
/-- The statements of a block. -/
def legalSs (lp fn : Bool) : List AStmt → Prop
  | [] => True
  | s :: ss => legalS lp fn false false s ∧ legalSs lp fn ss
/-- The statements of the block of an arm. -/
def legalYs (lp fn : Bool) : List AStmt → Prop
  | [] => True
  | s :: ss => legalS lp fn false ss.isEmpty s ∧ legalYs lp fn ss
end

/-- What the checker makes has its statements in places where they may stand. -/
class Judged (α : Type) where
  judge : Bool → Bool → α → Prop

export Judged (judge)

instance : Judged AExpr := ⟨legalE⟩
instance : Judged (List AExpr) := ⟨legalEs⟩
instance : Judged (AExpr × SymId) := ⟨fun lp fn x => legalE lp fn x.1⟩
instance : Judged (CTy × List AExpr) := ⟨fun lp fn x => legalEs lp fn x.2⟩
instance : Judged AArm := ⟨legalArm⟩
instance : Judged ABlock := ⟨legalB⟩
instance : Judged (List AElse) := ⟨legalElses⟩
instance : Judged (List AStmt) := ⟨legalSs⟩
instance : Judged (CTy × List (Nat × AArm)) := ⟨fun lp fn x => ∀ a ∈ x.2, legalArm lp fn a.2⟩

/-- Any name may be defined anywhere. -/
abbrev Anything : ScopeId → String → Prop := fun _ _ => True

/-- The function comes back to its place with a result of which `Φ` holds. -/
abbrev Earns {α : Type} (P : Place) (W : List Known) (Φ : α → Prop) (m : C α) : Prop :=
  Within P P 0 Anything W (fun a => [.fact (Φ a)]) m

section
variable {α β : Type} {P P1 P' : Place} {n : Nat} {D : ScopeId → String → Prop} {W : List Known} {R : β → List Known}

theorem Within.gain {Φ : α → Prop} {R1 : α → List Known} {m : C α} {f : α → C β} (h : Within P P1 n D W (fun a => .fact (Φ a) :: R1 a) m)
    (hf : ∀ a, Φ a → Within P1 P' n D (R1 a ++ W) R (f a)) : Within P P' n D W R (m >>= f) := by
  refine Within.bind h fun a => ⟨fun s b s' hp hn hr hw hm => ?_⟩
  exact (hf a (hw (.fact (Φ a)) (by simp))).run s b s' hp hn hr (fun w hw' => hw w (by simp at hw' ⊢; exact .inr hw')) hm

theorem Within.earn {Φ : β → Prop} {a : β} (h : Φ a) : Within P P n D W (fun a => [.fact (Φ a)]) (Pure.pure a : C β) := by
  constructor
  intro s b s' hp hn hr hw hb
  obtain ⟨rfl, rfl⟩ := C.pure_ok.mp hb
  exact ⟨hp, hr, Onward.refl, by simpa [Known.holds] using h⟩

/-- A step whose result is judged. -/
theorem Within.judged [Judged α] {m : C α} {f : α → C β} (h : Earns P W (judge P.loop P.func.isSome) m)
    (hf : ∀ a, judge P.loop P.func.isSome a → Within P P' 0 Anything W R (f a)) : Within P P' 0 Anything W R (m >>= f) :=
  Within.gain (R1 := fun _ => []) h hf

theorem Within.weaken {Φ Ψ : β → Prop} {m : C β} (h : Within P P' n D W (fun a => [.fact (Φ a)]) m) (hi : ∀ a, Φ a → Ψ a) :
    Within P P' n D W (fun a => [.fact (Ψ a)]) m :=
  ⟨fun s a s' hP hn hr hk hm => by
    obtain ⟨h1, h2, h3, h4⟩ := h.run s a s' hP hn hr hk hm
    exact ⟨h1, h2, h3, by simpa [Known.holds] using hi a (h4 (.fact (Φ a)) (by simp))⟩⟩

/-- What is known can be used. -/
theorem Within.given {Φ : Prop} {m : C β} (hk : Known.fact Φ ∈ W) (h : Φ → Within P P' n D W R m) : Within P P' n D W R m :=
  ⟨fun s a s' hP hn hr hw hm => (h (hw _ hk)).run s a s' hP hn hr hw hm⟩

end

theorem legalE_setProm {lp fn : Bool} {x : AExpr} {p : Ty} : legalE lp fn (x.setProm p) = legalE lp fn x := by
  cases x; simp [AExpr.setProm, legalE]

/-- Steps through a function of the checker, with what it makes. -/
macro "earns" : tactic => `(tactic| repeat' first
  | assumption
  | infer_instance
  | exact Within.earn (by simp_all [judge, legalE, legalN, legalEs, legalArms, legalS, legalElses, legalB, legalSs, legalYs, legalE_setProm])
  | dsimp only
  | refine Within.ite ?_ ?_
  | refine Within.judged (by infer_instance) (fun _ _ => ?_)
  | refine Within.next (by infer_instance) (fun _ => ?_)
  | split)

section
variable {P : Place} {W : List Known} {lp fn : Bool}

theorem assignTy_earns {m n : String} {t : Token} {a b : AExpr} (ha : legalE lp fn a) (hb : legalE lp fn b) :
    Earns P W (judge lp fn) (assignTy m t n a b) := by
  unfold assignTy; earns

theorem binTy_earns {t : Token} {a b : AExpr} (ha : legalE lp fn a) (hb : legalE lp fn b) : Earns P W (judge lp fn) (binTy t a b) := by
  unfold binTy; earns

theorem unTy_earns {t : Token} {a : AExpr} (ha : legalE lp fn a) : Earns P W (judge lp fn) (unTy t a) := by
  unfold unTy; earns

theorem indexTy_earns {t : Token} {a b : AExpr} (ha : legalE lp fn a) (hb : legalE lp fn b) : Earns P W (judge lp fn) (indexTy t a b) := by
  unfold indexTy; earns

theorem convTy_earns {t : Token} {a : AExpr} {u : CTy} (ha : legalE lp fn a) : Earns P W (judge lp fn) (convTy t a u) := by
  unfold convTy; earns

theorem vecOp_earns {n : String} {as : List AExpr} (ha : legalEs lp fn as) : Earns P W (judge lp fn) (vecOp n as) := by
  unfold vecOp; earns

theorem tamOp_earns {as : List AExpr} (ha : legalEs lp fn as) : Earns P W (judge lp fn) (tamOp as) := by
  unfold tamOp; earns


theorem promArgs_earns : ∀ as ts, legalEs lp fn as → Earns P W (judge lp fn) (promArgs as ts)
  | [], _, h => by unfold promArgs; earns
  | _ :: _, [], h => by unfold promArgs; earns
  | a :: as, t :: ts, h => by
      unfold promArgs
      have ih := promArgs_earns as ts h.2
      refine Within.next inferInstance fun p => Within.next inferInstance fun b => Within.ite ?_ (by within)
      exact Within.gain (R1 := fun _ => []) ih fun r hr => Within.earn ⟨by rw [legalE_setProm]; exact h.1, hr⟩

theorem promVariant_earns : ∀ as ts i, legalEs lp fn as → Earns P W (judge lp fn) (promVariant as ts i)
  | [], _, _, h => by unfold promVariant; earns
  | _ :: _, [], _, h => by unfold promVariant; earns
  | a :: as, t :: ts, i, h => by
      unfold promVariant
      have ih := promVariant_earns as ts (i + 1) h.2
      refine Within.next inferInstance fun p => Within.next inferInstance fun b => Within.ite ?_ (by within)
      exact Within.gain (R1 := fun _ => []) ih fun r hr => Within.earn ⟨by rw [legalE_setProm]; exact h.1, hr⟩

theorem alvoTy_earns {m : String} {t : Token} : Earns P W (judge P.loop P.func.isSome) (alvoTy m t) := by
  unfold alvoTy
  refine Within.get fun s0 h0 => ?_
  rw [show s0.ana.ctxFunc = P.func from congrArg Place.func h0]
  cases hf : P.func with
  | none =>
    dsimp only
    refine Within.gain (Φ := fun x => x = none) (R1 := fun _ => []) (Within.earn rfl) fun x hx => ?_
    subst hx
    infer_instance
  | some i =>
    dsimp only
    refine Within.next (by within) fun x => Within.next inferInstance fun y => ?_
    split
    · refine Within.next inferInstance fun i => Within.earn ?_
      simp [judge, legalE, legalN]
    · infer_instance

/-- `retorna` stands in a function. -/
theorem retornaTy_earns {t : Token} {b : Bool} : Earns P W (fun _ => P.func.isSome = true) (retornaTy t b) := by
  unfold retornaTy
  refine Within.get fun s0 h0 => ?_
  rw [show s0.ana.ctxFunc = P.func from congrArg Place.func h0]
  cases hf : P.func with
  | none => within
  | some i =>
    dsimp only
    refine Within.next inferInstance fun x => ?_
    split
    · infer_instance
    · refine Within.next inferInstance fun v => Within.ite inferInstance (Within.ite inferInstance ?_)
      have : Still (C.modify fun s => { s with ana := { s.ana with yield := s.ana.yield.map fun y => { y with hasReturn := true } } }) := by still
      exact Within.next inferInstance fun _ => Within.earn rfl

theorem inBlock_earns {sc : ScopeId} {c : C (List AStmt)} (hk : Known.inside sc P.scope ∈ W)
    (hc : Earns { P with «scope» := sc, depth := P.depth + 1 } W (legalSs lp fn) c) : Earns P W (legalB lp fn) (inBlock sc c) := by
  unfold inBlock
  refine Within.next inferInstance fun _ => Within.bind (Within.enter hk) fun _ => ?_
  refine Within.gain (R1 := fun _ => []) hc fun body hb => ?_
  refine Within.bind (Within.leave (p := P.scope) hk) fun _ => ?_
  exact Within.earn (by simpa [legalB] using hb)

theorem newBlock_earns {c : C (List AStmt)}
    (hc : ∀ sc, Earns { P with «scope» := sc, depth := P.depth + 1 } (.inside sc P.scope :: W) (legalSs lp fn) c) :
    Earns P W (legalB lp fn) (newBlock c) := by
  unfold newBlock
  exact Within.innerScope fun sc => inBlock_earns List.mem_cons_self (hc sc)

theorem inFunction_earns {i : SymId} {b : C ABlock} (h : Earns { P with func := some i } W (legalB lp fn) b) :
    Earns P W (legalB lp fn) (inFunction i b) := by
  unfold inFunction
  refine Within.get fun s0 h0 => ?_
  have hf : s0.ana.ctxFunc = P.func := congrArg Place.func h0
  dsimp only
  refine Within.bind (P1 := { P with func := some i }) (R1 := fun _ => []) (Within.set (fun _ => ⟨rfl, rfl, rfl⟩) ?_ rfl rfl) fun _ => ?_
  · rintro s rfl; rfl
  · refine Within.gain (R1 := fun _ => []) h fun r hr => ?_
    refine Within.bind (P1 := P) (R1 := fun _ => []) (Within.set (fun _ => ⟨rfl, rfl, rfl⟩) ?_ rfl rfl) fun _ => Within.earn hr
    intro s hs
    simp only [Ana.place] at hs ⊢
    injection hs with h1 h2 h3 h4 h5 h6 h7
    rw [hf]
    simp [*]

theorem yieldBlock_earns {tok : Token} {sc : ScopeId} {c : C (List AStmt)} (hk : Known.inside sc P.scope ∈ W)
    (hc : Earns { P with «scope» := sc, depth := P.depth + 1, yields := true } W (legalYs lp fn) c) :
    Earns P W (judge lp fn) (yieldBlock tok sc c) := by
  unfold yieldBlock
  refine Within.next inferInstance fun _ => Within.bind (Within.enter hk) fun _ => Within.get fun s0 h0 => ?_
  have hy : s0.ana.yield.isSome = P.yields := congrArg Place.yields h0
  refine Within.bind (P1 := { P with «scope» := sc, depth := P.depth + 1, yields := true }) (R1 := fun _ => [])
    (Within.set (fun _ => ⟨rfl, rfl, rfl⟩) ?_ rfl rfl) fun _ => ?_
  · intro s hs
    simp only [Ana.place] at hs ⊢
    injection hs with h1 h2 h3 h4 h5 h6 h7
    simp [*]
  · refine Within.gain (R1 := fun _ => []) hc fun body hb => Within.next inferInstance fun s1 => ?_
    dsimp only
    refine Within.next inferInstance fun b => Within.ite inferInstance ?_
    refine Within.bind (P1 := { P with «scope» := sc, depth := P.depth + 1 }) (R1 := fun _ => [])
      (Within.set (fun _ => ⟨rfl, rfl, rfl⟩) ?_ rfl rfl) fun _ => ?_
    · intro s hs
      simp only [Ana.place] at hs ⊢
      injection hs with h1 h2 h3 h4 h5 h6 h7
      simp [*]
    · refine Within.bind (Within.leave (p := P.scope) hk) fun _ => ?_
      exact Within.earn (by simpa [judge, legalArm] using hb)

theorem runArms_earns {acts : List (C AArm)} (h : ∀ a ∈ acts, Earns P W (judge lp fn) a) :
    ∀ ks f d, (∀ a ∈ d, legalArm lp fn a.2) → Earns P W (judge lp fn) (runArms acts ks f d)
  | [], some _, _, hd => by unfold runArms; exact Within.earn hd
  | [], none, _, _ => by unfold runArms; infer_instance
  | k :: ks, f, d, hd => by
      unfold runArms
      have ih := runArms_earns h ks
      split
      · infer_instance
      · refine Within.gain (R1 := fun _ => []) (h _ (List.mem_of_getElem? ‹_›)) fun a ha => ?_
        have hd' : ∀ t : CTy, ∀ x ∈ (k, a) :: d, legalArm lp fn x.2 := fun _ x hx => by
          rcases List.mem_cons.mp hx with rfl | hx
          · exact ha
          · exact hd x hx
        dsimp only
        split
        · exact ih _ _ (hd' (.prim .unknown))
        · exact Within.next inferInstance fun b => Within.ite (ih _ _ (hd' (.prim .unknown))) (by within)

theorem armResults_legal {done : List (Nat × AArm)} (h : ∀ a ∈ done, legalArm lp fn a.2) : ∀ (as : List Arm) k,
    legalArms lp fn (armResults done as k)
  | [], _ => by simp [armResults, legalArms]
  | .mk _ _ _ _ :: rest, k => by
      unfold armResults legalArms
      refine ⟨?_, armResults_legal h rest (k + 1)⟩
      split
      · exact h _ (List.mem_of_find?_eq_some ‹_›)
      · simp [legalArm]

end

/-! ## Visits -/

section
variable {cfg : CCfg} {mod : String}

mutual
theorem visitE_earns : ∀ e : Expr, ∀ P W par, Earns P W (judge P.loop P.func.isSome) (visitE cfg mod par e)
  | .const tok, P, W, par => by
      unfold visitE
      earns
  | .fmtStr tok parts, P, W, par => by
      unfold visitE
      have := visitParts_earns parts
      earns
  | .var tok, P, W, par => by
      unfold visitE
      earns
  | .converta tok e ty, P, W, par => by
      unfold visitE
      have := visitE_earns e
      refine Within.next inferInstance fun _ => Within.judged inferInstance fun x hx => Within.next inferInstance fun t => ?_
      exact convTy_earns hx
  | .alvo tok, P, W, par => by
      unfold visitE
      exact Within.next inferInstance fun _ => alvoTy_earns
  | .bin tok a b, P, W, par => by
      unfold visitE
      refine Within.next inferInstance fun _ => Within.judged (visitE_earns a _ _ _) fun x hx => Within.judged (visitE_earns b _ _ _) fun y hy => ?_
      exact binTy_earns hx hy
  | .un tok e, P, W, par => by
      unfold visitE
      exact Within.next inferInstance fun _ => Within.judged (visitE_earns e _ _ _) fun x hx => unTy_earns hx
  | .assign tok l r, P, W, par => by
      unfold visitE
      refine Within.next inferInstance fun _ => Within.judged (visitE_earns r _ _ _) fun y hy => Within.judged (visitE_earns l _ _ _) fun x hx => ?_
      exact assignTy_earns hx hy
  | .list tok ty es, P, W, par => by
      unfold visitE
      have := visitElems_earns es
      earns
  | .named name e, P, W, par => by
      unfold visitE
      have := visitE_earns e
      earns
  | .get e member, P, W, par => by
      unfold visitE
      have := visitE_earns e
      earns
  | .index tok a b, P, W, par => by
      unfold visitE
      refine Within.next inferInstance fun _ => Within.judged (visitE_earns a _ _ _) fun x hx => Within.judged (visitE_earns b _ _ _) fun y hy => ?_
      exact indexTy_earns hx hy
  | .indexSet tok a b, P, W, par => by
      unfold visitE
      have := visitE_earns a
      have := visitE_earns b
      earns
  | .set a b, P, W, par => by
      unfold visitE
      have := visitE_earns a
      have := visitE_earns b
      earns
  | .path comps, P, W, par => by
      unfold visitE
      earns
  | .call callee args, P, W, par => by
      unfold visitE
      refine Within.next inferInstance fun _ => Within.judged (visitCallee_earns callee _ _) fun q hq => ?_
      obtain ⟨f, i⟩ := q
      refine Within.next inferInstance fun k => ?_
      have := visitVec_earns args
      have := visitInits_earns args
      split
      · refine Within.ite (by earns) (Within.ite ?_ (Within.ite inferInstance ?_))
        · refine Within.next inferInstance fun _ => Within.judged (visitEs_earns args _ _ _) fun as ha => ?_
          exact Within.judged (tamOp_earns ha) fun r hr => Within.earn ⟨hq, hr⟩
        · refine Within.next inferInstance fun _ => Within.judged (visitEs_earns args _ _ _) fun as ha => ?_
          exact Within.judged (vecOp_earns ha) fun r hr => Within.earn ⟨hq, hr⟩
      · earns
      · refine Within.ite inferInstance (Within.judged (visitEs_earns args _ _ _) fun as ha => ?_)
        exact Within.judged (promVariant_earns _ _ _ ha) fun r hr => Within.earn ⟨hq, hr⟩
      · refine Within.next inferInstance fun x => Within.ite inferInstance ?_
        refine Within.judged (visitArgs_earns args _ _) fun as ha => Within.next inferInstance fun _ => Within.next inferInstance fun _ => ?_
        refine Within.next inferInstance fun ts => Within.judged (promArgs_earns _ _ ha) fun r hr => ?_
        split
        · exact Within.earn ⟨hq, hr⟩
        · infer_instance
  | .iguala tok target arms, P, W, par => by
      unfold visitE
      refine Within.next inferInstance fun _ => Within.innerScope fun sc => Within.new List.mem_cons_self fun hsc => ?_
      refine Within.bind (Within.enter (p := P.scope) (by simp)) fun _ => ?_
      refine Within.judged (visitE_earns target _ _ _) fun x hx => ?_
      refine Within.next inferInstance fun b => Within.ite inferInstance ?_
      refine Within.bind (checkArms_within _ _) fun pats => ?_
      refine Within.next (Within.arms (fun y hy => List.mem_append_left _ (List.mem_map.mpr ⟨y, hy, rfl⟩)) fun ha =>
        compileArms_back (fun _ => .inl hsc) fun a ham _ => .inl (ha a ham)) fun r => ?_
      obtain ⟨ir, reached⟩ := r
      refine Within.judged (runArms_earns (armActs_earns arms _ _ _ fun sc' hs => ?_) _ _ _ (by simp)) fun d hd => ?_
      · obtain ⟨y, hy, rfl⟩ := List.mem_map.mp hs
        exact List.mem_append_left _ (List.mem_map.mpr ⟨y, hy, rfl⟩)
      · obtain ⟨t, done⟩ := d
        refine Within.bind (Within.leave (p := P.scope) (by simp)) fun _ => ?_
        exact Within.earn ⟨hx, armResults_legal hd arms 0⟩
theorem armActs_earns : ∀ as : List Arm, ∀ P W scs, (∀ sc ∈ scs, Known.inside sc P.scope ∈ W) →
    ∀ a ∈ armActs cfg mod as scs, Earns P W (judge P.loop P.func.isSome) a
  | [], _, _, _, _ => by unfold armActs; simp
  | .mk _ _ bt b :: rest, _, _, [], _ => by unfold armActs; simp
  | .mk _ _ bt b :: rest, P, W, sc :: scs, h => by
      unfold armActs
      intro a ha
      rcases List.mem_cons.mp ha with rfl | ha
      · have hk := h sc List.mem_cons_self
        exact yieldBlock_earns hk ((visitYs_earns b { P with «scope» := sc, depth := P.depth + 1, yields := true } W (Nat.succ_pos _)).weaken fun a h => h.1)
      · exact armActs_earns rest P W scs (fun s hs => h s (List.mem_cons_of_mem _ hs)) a ha
theorem visitCallee_earns : ∀ e : Expr, ∀ P W, Earns P W (judge P.loop P.func.isSome) (visitCallee cfg mod e)
  | .var tok, P, W => by unfold visitCallee; earns
  | .get e member, P, W => by
      unfold visitCallee
      have := visitE_earns e
      earns
  | .path comps, P, W => by unfold visitCallee; earns
  | .call _ _, _, _ | .const _, _, _ | .fmtStr _ _, _, _ | .converta _ _ _, _, _ | .alvo _, _, _ | .bin _ _ _, _, _ | .un _ _, _, _
  | .assign _ _ _, _, _ | .list _ _ _, _, _ | .named _ _, _, _ | .index _ _ _, _, _ | .indexSet _ _ _, _, _ | .set _ _, _, _
  | .iguala _ _ _, _, _ => by unfold visitCallee; earns
theorem visitEs_earns : ∀ es : List Expr, ∀ P W par, Earns P W (judge P.loop P.func.isSome) (visitEs cfg mod par es)
  | [], P, W, par => by unfold visitEs; earns
  | e :: es, P, W, par => by
      unfold visitEs
      have := visitE_earns e
      have := visitEs_earns es
      earns
theorem visitParts_earns : ∀ es : List Expr, ∀ P W tok t, Earns P W (judge P.loop P.func.isSome) (visitParts cfg mod tok t es)
  | [], P, W, _, _ => by unfold visitParts; earns
  | e :: es, P, W, tok, t => by
      unfold visitParts
      have := visitE_earns e
      have := visitParts_earns es
      earns
theorem visitElems_earns : ∀ es : List Expr, ∀ P W t i, Earns P W (judge P.loop P.func.isSome) (visitElems cfg mod t es i)
  | [], P, W, _, _ => by unfold visitElems; earns
  | e :: es, P, W, t, i => by
      unfold visitElems
      have := visitE_earns e
      have := visitElems_earns es
      earns
theorem visitArgs_earns : ∀ es : List Expr, ∀ P W, Earns P W (judge P.loop P.func.isSome) (visitArgs cfg mod es)
  | [], P, W => by unfold visitArgs; earns
  | e :: es, P, W => by
      unfold visitArgs
      have := visitE_earns e
      have := visitArgs_earns es
      earns
theorem visitVec_earns : ∀ es : List Expr, ∀ P W, Earns P W (judge P.loop P.func.isSome) (visitVec cfg mod es)
  | [], P, W => by unfold visitVec; earns
  | [_], P, W => by unfold visitVec; earns
  | first :: size :: sizes, P, W => by
      unfold visitVec
      have := visitE_earns size
      have := visitSizes_earns sizes
      earns
theorem visitSizes_earns : ∀ es : List Expr, ∀ P W, Earns P W (judge P.loop P.func.isSome) (visitSizes cfg mod es)
  | [], P, W => by unfold visitSizes; earns
  | e :: es, P, W => by
      unfold visitSizes
      have := visitE_earns e
      have := visitSizes_earns es
      earns
theorem visitInits_earns : ∀ es : List Expr, ∀ P W f m seen, Earns P W (judge P.loop P.func.isSome) (visitInits cfg mod f m es seen)
  | [], P, W, _, _, _ => by unfold visitInits; earns
  | e :: es, P, W, f, m, seen => by
      cases e with
      | named arg e =>
        unfold visitInits
        have := visitE_earns e
        have := visitInits_earns es
        earns
      | _ => unfold visitInits; earns
theorem visitS_earns : ∀ s : Stmt, ∀ P W y l, (P.depth = 0 → P.loop = false) →
    Earns P W (legalS P.loop P.func.isSome (P.depth == 0) (y && l)) (visitS cfg mod y l s)
  | .expr e, P, W, y, l, h => by
      unfold visitS
      have := visitE_earns e
      earns
  | .varDecl tok name ty none, P, W, y, l, h => by
      unfold visitS
      have := declareVar_back (n := 0) (D := Anything) (P := P) (W := W) (cfg := cfg) (m := mod) (tok := tok) (name := name) (ty := ty) (e := none) (.inl (Nat.zero_le _))
      earns
  | .varDecl tok name ty (some e), P, W, y, l, h => by
      unfold visitS
      have := declareVar_back (n := 0) (D := Anything) (P := P) (W := W) (cfg := cfg) (m := mod) (tok := tok) (name := name) (ty := ty) (e := some e) (.inl (Nat.zero_le _))
      have := visitE_earns e
      earns
  | .loopCtl tok, P, W, y, l, h => by
      unfold visitS
      refine Within.next inferInstance fun _ => Within.get fun s0 h0 => ?_
      rw [show s0.ana.inLoop = P.loop from congrArg Place.loop h0]
      by_cases hl : P.loop = true
      · rw [if_pos hl]; exact Within.earn hl
      · rw [if_neg hl]; infer_instance
  | .retorna tok none, P, W, y, l, h => by
      unfold visitS
      exact Within.next inferInstance fun _ => Within.gain (R1 := fun _ => []) retornaTy_earns fun _ hf => Within.earn hf
  | .retorna tok (some e), P, W, y, l, h => by
      unfold visitS
      refine Within.next inferInstance fun _ => Within.gain (R1 := fun _ => []) retornaTy_earns fun t hf => ?_
      refine Within.judged (visitE_earns e _ _ _) fun x hx => Within.next inferInstance fun p => Within.next inferInstance fun b => ?_
      exact Within.ite (Within.earn ⟨hf, by rw [legalE_setProm]; exact hx⟩) inferInstance
  | .produz tok e, P, W, y, l, h => by
      unfold visitS
      refine Within.next inferInstance fun _ => Within.next inferInstance fun s0 => ?_
      split
      · infer_instance
      · by_cases hy : (y && l) = true
        · rw [if_neg (by simp [hy])]
          refine Within.judged (visitE_earns e _ _ _) fun x hx => ?_
          have : Still (C.modify fun s => { s with ana := { s.ana with yield := s.ana.yield.map fun y => { y with ty := x.ty } } }) := by still
          exact Within.next inferInstance fun _ => Within.earn ⟨hy, hx⟩
        · rw [if_pos (by cases y <;> cases l <;> simp_all)]; infer_instance
  | .mostra tok e, P, W, y, l, h => by
      unfold visitS
      have := visitE_earns e
      earns
  | .se tok c b es none, P, W, y, l, h => by
      unfold visitS
      refine Within.next inferInstance fun _ => Within.judged (visitE_earns c _ _ _) fun x hx => Within.next inferInstance fun _ => ?_
      refine Within.judged (newBlock_earns fun sc => visitSs_earns b { P with «scope» := sc, depth := P.depth + 1 } _ (Nat.succ_pos _)) fun bl hb => ?_
      exact Within.judged (visitElses_earns es _ _) fun r hr => Within.earn ⟨hx, hb, hr⟩
  | .se tok c b es (some d), P, W, y, l, h => by
      unfold visitS
      refine Within.next inferInstance fun _ => Within.judged (visitE_earns c _ _ _) fun x hx => Within.next inferInstance fun _ => ?_
      refine Within.judged (newBlock_earns fun sc => visitSs_earns b { P with «scope» := sc, depth := P.depth + 1 } _ (Nat.succ_pos _)) fun bl hb => ?_
      refine Within.judged (visitElses_earns es _ _) fun r hr => ?_
      exact Within.judged (newBlock_earns fun sc => visitSs_earns d { P with «scope» := sc, depth := P.depth + 1 } _ (Nat.succ_pos _)) fun bl hd => Within.earn ⟨hx, hb, hr, hd⟩
  | .enquanto tok c b, P, W, y, l, h => by
      unfold visitS
      refine Within.next inferInstance fun _ => Within.judged (visitE_earns c _ _ _) fun x hx => Within.next inferInstance fun _ => ?_
      refine Within.get fun s0 h0 => ?_
      have hl : s0.ana.inLoop = P.loop := congrArg Place.loop h0
      dsimp only
      refine Within.bind (P1 := { P with loop := true }) (R1 := fun _ => []) (Within.set (fun _ => ⟨rfl, rfl, rfl⟩) ?_ rfl rfl) fun _ => ?_
      · rintro s rfl; rfl
      · refine Within.gain (R1 := fun _ => []) (newBlock_earns (P := { P with loop := true }) (lp := true) (fn := P.func.isSome) fun sc =>
          visitSs_earns b { P with loop := true, «scope» := sc, depth := P.depth + 1 } _ (Nat.succ_pos _)) fun bl hb => ?_
        refine Within.bind (P1 := P) (R1 := fun _ => []) (Within.set (fun _ => ⟨rfl, rfl, rfl⟩) ?_ rfl rfl) fun _ => Within.earn ⟨hx, hb⟩
        intro s hs
        simp only [Ana.place] at hs ⊢
        injection hs with h1 h2 h3 h4 h5 h6 h7
        rw [hl]
        simp [*]
  | .escolha tok c cs none, P, W, y, l, h => by
      unfold visitS
      refine Within.next inferInstance fun _ => Within.judged (visitE_earns c _ _ _) fun x hx => Within.next inferInstance fun _ => ?_
      exact Within.judged (visitCases_earns cs _ _ _) fun r hr => Within.earn ⟨hx, hr⟩
  | .escolha tok c cs (some d), P, W, y, l, h => by
      unfold visitS
      refine Within.next inferInstance fun _ => Within.judged (visitE_earns c _ _ _) fun x hx => Within.next inferInstance fun _ => ?_
      refine Within.judged (visitCases_earns cs _ _ _) fun r hr => ?_
      exact Within.judged (newBlock_earns fun sc => visitSs_earns d { P with «scope» := sc, depth := P.depth + 1 } _ (Nat.succ_pos _)) fun bl hd => Within.earn ⟨hx, hr, hd⟩
  | .para tok x a z none b, P, W, y, l, h => by
      unfold visitS
      refine Within.next inferInstance fun _ => Within.judged (visitE_earns a _ _ _) fun _ ha => Within.judged (visitE_earns z _ _ _) fun _ hz => ?_
      refine Within.next inferInstance fun _ => Within.bind paraScope_within fun sc => ?_
      refine Within.judged (inBlock_earns (by simp) (visitSs_earns b { P with «scope» := sc, depth := P.depth + 1 } _ (Nat.succ_pos _))) fun _ hb => ?_
      exact Within.earn ⟨ha, hz, hb⟩
  | .para tok x a z (some i) b, P, W, y, l, h => by
      unfold visitS
      refine Within.next inferInstance fun _ => Within.judged (visitE_earns a _ _ _) fun _ ha => Within.judged (visitE_earns z _ _ _) fun _ hz => ?_
      refine Within.judged (visitE_earns i _ _ _) fun _ hi => ?_
      refine Within.next inferInstance fun _ => Within.bind paraScope_within fun sc => ?_
      refine Within.judged (inBlock_earns (by simp) (visitSs_earns b { P with «scope» := sc, depth := P.depth + 1 } _ (Nat.succ_pos _))) fun _ hb => ?_
      exact Within.earn ⟨ha, hz, hi, hb⟩
  | .func x ps r none v as, P, W, y, l, h => by
      unfold visitS
      refine Within.next inferInstance fun _ => Within.bind (declareFunc_within (.inl (Nat.zero_le _))) fun q => ?_
      refine Within.given (Φ := P.depth = 0) (by simp) fun hd => ?_
      obtain ⟨i, sc⟩ := q
      exact Within.earn (by simp [legalS, hd])
  | .func x ps r (some b) v as, P, W, y, l, h => by
      unfold visitS
      refine Within.next inferInstance fun _ => Within.bind (declareFunc_within (.inl (Nat.zero_le _))) fun q => ?_
      refine Within.given (Φ := P.depth = 0) (by simp) fun hd => ?_
      obtain ⟨i, sc⟩ := q
      refine Within.ite (Within.earn (by simp [legalS, hd])) ?_
      refine Within.gain (R1 := fun _ => []) (inFunction_earns (inBlock_earns (by simp)
        (visitSs_earns b { P with func := some i, «scope» := sc, depth := P.depth + 1 } _ (Nat.succ_pos _)))) fun _ hb => Within.earn ?_
      exact ⟨by simp [hd], by simpa [h hd] using hb⟩
  | .method gs t x ps r b as, P, W, y, l, h => by
      unfold visitS
      refine Within.next inferInstance fun _ => Within.declareMethod (.inl (Nat.zero_le _)) fun ts q => ?_
      refine Within.given (Φ := P.depth = 0) (by simp) fun hd => ?_
      obtain ⟨i, sc, t⟩ := q
      refine Within.ite ?_ ?_
      · refine Within.next inferInstance fun _ => Within.bind (Within.leaveTy (p := P.tys) (by simp)) fun _ => ?_
        exact Within.earn (by simp [legalS, hd])
      · refine Within.gain (R1 := fun _ => []) (inFunction_earns (inBlock_earns (by simp)
          (visitSs_earns b { P with tys := ts, func := some i, «scope» := sc, depth := P.depth + 1 } _ (Nat.succ_pos _)))) fun _ hb => ?_
        refine Within.next inferInstance fun _ => Within.bind (Within.leaveTy (p := P.tys) (by simp)) fun _ => Within.earn ?_
        exact ⟨by simp [hd], by simpa [h hd] using hb⟩
  | .registo x gs fs as, P, W, y, l, h => by
      unfold visitS
      refine Within.next inferInstance fun _ => Within.openRegisto (.inl (Nat.zero_le _)) fun ts r reg hr => ?_
      refine Within.next (visitFields_back fs _ _ fun _ => .inl hr) fun inits => ?_
      refine Within.bind (closeRegisto_within (name := x.str) (.inl (Nat.zero_le _)) (by simp) (by simp) (by simp)) fun _ => Within.earn ?_
      simp [legalS]
  | .uniao x gs vs as, P, W, y, l, h => by
      unfold visitS
      have := (declareUniao_within (n := 0) (D := Anything) (P := P) (W := W) (cfg := cfg) (m := mod) (name := x) (g := gs) (vs := vs) (.inl (Nat.zero_le _))).forget
      earns
  | .usa _ _ _, P, W, _, _, _ => by unfold visitS; earns
theorem visitCases_earns : ∀ es : List ElseIf, ∀ P W t, Earns P W (judge P.loop P.func.isSome) (visitCases cfg mod t es)
  | [], P, W, _ => by unfold visitCases; earns
  | .mk tok c b :: rest, P, W, t => by
      unfold visitCases
      refine Within.judged (visitE_earns c _ _ _) fun x hx => Within.next inferInstance fun p => Within.ite ?_ (by within)
      refine Within.judged (newBlock_earns fun sc => visitSs_earns b { P with «scope» := sc, depth := P.depth + 1 } _ (Nat.succ_pos _)) fun bl hb => ?_
      exact Within.judged (visitCases_earns rest _ _ _) fun r hr => Within.earn ⟨hx, hb, hr⟩
theorem visitElses_earns : ∀ es : List ElseIf, ∀ P W, Earns P W (judge P.loop P.func.isSome) (visitElses cfg mod es)
  | [], P, W => by unfold visitElses; earns
  | .mk tok c b :: rest, P, W => by
      unfold visitElses
      refine Within.next inferInstance fun _ => Within.judged (visitE_earns c _ _ _) fun x hx => Within.next inferInstance fun p => Within.ite ?_ (by within)
      refine Within.judged (newBlock_earns fun sc => visitSs_earns b { P with «scope» := sc, depth := P.depth + 1 } _ (Nat.succ_pos _)) fun bl hb => ?_
      exact Within.judged (visitElses_earns rest _ _) fun r hr => Within.earn ⟨hx, hb, hr⟩
theorem visitSs_earns : ∀ ss : List Stmt, ∀ P W, 0 < P.depth → Earns P W (legalSs P.loop P.func.isSome) (visitSs cfg mod ss)
  | [], P, W, _ => by unfold visitSs; exact Within.earn trivial
  | s :: ss, P, W, h => by
      unfold visitSs
      have h0 : (P.depth == 0) = false := by simp; omega
      refine Within.gain (R1 := fun _ => []) (visitS_earns s P W false false fun h' => by omega) fun x hx => ?_
      exact Within.gain (R1 := fun _ => []) (visitSs_earns ss P W h) fun xs hxs => Within.earn ⟨by rw [h0] at hx; exact hx, hxs⟩
theorem visitYs_earns : ∀ ss : List Stmt, ∀ P W, 0 < P.depth →
    Earns P W (fun xs => legalYs P.loop P.func.isSome xs ∧ xs.isEmpty = ss.isEmpty) (visitYs cfg mod ss)
  | [], P, W, _ => by unfold visitYs; exact Within.earn ⟨trivial, rfl⟩
  | s :: ss, P, W, h => by
      unfold visitYs
      have h0 : (P.depth == 0) = false := by simp; omega
      refine Within.gain (R1 := fun _ => []) (visitS_earns s P W true ss.isEmpty fun h' => by omega) fun x hx => ?_
      refine Within.gain (R1 := fun _ => []) (visitYs_earns ss P W h) fun xs hxs => Within.earn ⟨⟨?_, hxs.1⟩, rfl⟩
      rw [hxs.2]
      simpa [h0] using hx
end

end

end Amanda.Check

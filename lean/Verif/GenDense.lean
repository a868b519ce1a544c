import Verif.GenFrame

/-!
# Tables of slots

Every table of slots the generator makes is numbered one by one, as long as no `iguala` takes the
parts out of a variant: only there `declare_local` is called for a name that may have a slot already
(codegen.py:784-797, 560-563).
-/

namespace Amanda

namespace Codegen

/-- The `out_id`s of the parameters are different. -/
def paramsApart (env : SymEnv) (sy : SymId) : Bool :=
  match env.syms[sy]? with
  | none => true
  | some f => decide ((f.params.map fun p => env.syms[p]?.map (·.outId)).Nodup)

mutual
/-- No case of an `iguala` has parts to take out, and no function has two parameters with one `out_id`. -/
def slimE (env : SymEnv) : TExpr → Bool
  | .const _ _ _ => true
  | .fmtStr _ parts => slimEs env parts
  | .var _ _ _ _ => true
  | .converta _ t _ _ => slimE env t
  | .alvo _ _ => true
  | .bin _ _ l r _ _ _ => slimE env l && slimE env r
  | .un _ _ e _ => slimE env e
  | .assign _ _ r => slimE env r
  | .iguala _ d => slimD env d
  | .call _ c args _ _ => slimE env c && slimEs env args
  | .list _ es => slimEs env es
  | .named _ _ e => slimE env e
  | .get _ t _ _ => slimE env t
  | .index _ t i => slimE env t && slimE env i
  | .indexSet _ t i v => slimE env t && slimE env i && slimE env v
  | .set _ t e => slimE env t && slimE env e
  | .unwrap _ o d => slimE env o && slimOpt env d
  | .path _ _ => true
def slimOpt (env : SymEnv) : Option TExpr → Bool
  | none => true
  | some e => slimE env e
def slimEs (env : SymEnv) : List TExpr → Bool
  | [] => true
  | e :: es => slimE env e && slimEs env es
def slimD (env : SymEnv) : Decision → Bool
  | .fail => true
  | .success _ _ _ body => slimSs env body
  | .switch _ cs _ => slimCases env cs
def slimCases (env : SymEnv) : List DCase → Bool
  | [] => true
  | .mk _ args body :: cs => args.isEmpty && slimD env body && slimCases env cs
def slimS (env : SymEnv) : TStmt → Bool
  | .expr e => slimE env e
  | .varDecl _ _ _ (some (.mk _ r)) => slimE env r
  | .varDecl _ _ _ none => true
  | .loopCtl _ _ => true
  | .retorna _ e => slimOpt env e
  | .produz _ e => slimE env e
  | .mostra _ e => slimE env e
  | .se _ c t es b => slimE env c && slimB env t && slimElses env es && slimOptB env b
  | .enquanto _ c b => slimE env c && slimB env b
  | .para _ _ a b i body => slimE env a && slimE env b && slimOpt env i && slimB env body
  | .func _ sy b => paramsApart env sy && slimB env b
  | .registo _ _ _ => true
  | .uniao _ _ _ => true
  | .noop _ => true
def slimSs (env : SymEnv) : List TStmt → Bool
  | [] => true
  | s :: ss => slimS env s && slimSs env ss
def slimB (env : SymEnv) : TBlock → Bool
  | .mk _ body => slimSs env body
def slimOptB (env : SymEnv) : Option TBlock → Bool
  | none => true
  | some b => slimB env b
def slimElses (env : SymEnv) : List TElse → Bool
  | [] => true
  | .mk c b :: es => slimE env c && slimB env b && slimElses env es
end

/-- All tables so far are numbered one by one. -/
def Even (s : Gen) : Prop := Dense s.funcLocals ∧ ∀ t ∈ s.finished, Dense t

/-- Code generation that keeps it so. -/
def Dn (m : G α) : Prop := ∀ s a s', m s = .ok (a, s') → Even s → Even s'

theorem dn_bind {m : G α} {f : α → G β} (h : Dn m) (k : ∀ a, Dn (f a)) : Dn (m >>= f) := by
  intro s b s'' hr hs
  obtain ⟨a, s', h1, h2⟩ := G.bind_ok.1 hr
  exact k a s' b s'' h2 (h s a s' h1 hs)

theorem dn_of {m : G α} (h : ∀ s a s', m s = .ok (a, s') → s'.funcLocals = s.funcLocals ∧ s'.finished = s.finished) : Dn m := by
  intro s a s' hr hs
  obtain ⟨h1, h2⟩ := h s a s' hr
  exact ⟨h1 ▸ hs.1, h2 ▸ hs.2⟩

theorem dn_pure (a : α) : Dn (G.pure a) :=
  dn_of fun s b s' h => by obtain ⟨-, rfl⟩ := Prod.mk.inj (Except.ok.inj h); simp

theorem dn_raise (e : PyErr) : Dn (G.raise e : G α) := fun s b s' h => absurd h (by simp [G.raise])

theorem dn_get : Dn G.get :=
  dn_of fun s b s' h => by obtain ⟨-, rfl⟩ := Prod.mk.inj (Except.ok.inj h); simp

theorem dn_need (o : Option α) (e : String) : Dn (G.need o e) := by
  cases o
  · exact dn_raise _
  · exact dn_pure _

theorem dn_emit (op : Op) (args : List Nat) : Dn (emit op args) :=
  dn_of fun s b s' h => by obtain ⟨-, rfl⟩ := Prod.mk.inj (Except.ok.inj h); simp

theorem dn_newLabel : Dn newLabel :=
  dn_of fun s b s' h => by obtain ⟨-, rfl⟩ := Prod.mk.inj (Except.ok.inj h); simp

theorem dn_patch (l : Nat) : Dn (patchLabel l) :=
  dn_of fun s b s' h => by
    unfold patchLabel at h
    split at h
    · exact absurd h (by simp)
    · obtain ⟨-, rfl⟩ := Prod.mk.inj (Except.ok.inj h); simp

theorem dn_checkIndex (i : Nat) : Dn (checkIndex i) := by
  unfold checkIndex
  split
  · exact dn_pure _
  · exact dn_raise _

theorem dn_constIndex (c : ConstKey) : Dn (constIndex c) :=
  dn_bind (dn_of fun s b s' h => by obtain ⟨-, rfl⟩ := Prod.mk.inj (Except.ok.inj h); simp) fun i => dn_checkIndex i

theorem dn_nameIndex (c : String) : Dn (nameIndex c) :=
  dn_bind (dn_of fun s b s' h => by obtain ⟨-, rfl⟩ := Prod.mk.inj (Except.ok.inj h); simp) fun i => dn_checkIndex i

theorem dn_ite {c : Prop} [Decidable c] {a b : G α} (ha : Dn a) (hb : Dn b) : Dn (if c then a else b) := by
  split
  · exact ha
  · exact hb

theorem dn_setLine (line : Nat) : Dn (setLine line) :=
  dn_of fun s b s' h => by obtain ⟨-, rfl⟩ := Prod.mk.inj (Except.ok.inj h); simp

theorem dn_variantIndex (v : VariantRef) : Dn (variantIndex v) :=
  dn_of fun s b s' h => by obtain ⟨-, rfl⟩ := Prod.mk.inj (Except.ok.inj h); simp

theorem dn_setLoop (a b : Option Nat) : Dn (setLoop a b) :=
  dn_of fun s b s' h => by obtain ⟨-, rfl⟩ := Prod.mk.inj (Except.ok.inj h); simp

theorem dn_enterBlock (x : ScopeId) : Dn (enterBlock x) :=
  dn_of fun s b s' h => by obtain ⟨-, rfl⟩ := Prod.mk.inj (Except.ok.inj h); simp

theorem dn_exitBlock (ctx : GenCtx) : Dn (exitBlock ctx) :=
  dn_of fun s b s' h => by obtain ⟨-, rfl⟩ := Prod.mk.inj (Except.ok.inj h); simp

/-- A name without a slot gets the next one. -/
theorem store_dense {d : List (String × Nat)} {k : String} (hd : Dense d) (h : lookup d k = none) : Dense (store d k d.length) := by
  have hs : store d k d.length = d ++ [(k, d.length)] := by
    unfold store
    rw [h]
    rfl
  rw [hs]
  unfold Dense at *
  simp [hd, List.range_succ]

theorem dn_localSlot (sym : SymRef) : Dn (localSlot sym) := by
  intro s b s' h hs
  unfold localSlot at h
  obtain ⟨g, s1, h1, h2⟩ := G.bind_ok.1 h
  obtain ⟨h3, h4⟩ := Prod.mk.inj (Except.ok.inj h1)
  subst h3 h4
  cases hl : lookup s.funcLocals sym.outId with
  | some l => rw [hl] at h2; exact dn_pure _ _ _ _ h2 hs
  | none =>
      rw [hl] at h2
      obtain ⟨-, rfl⟩ := Prod.mk.inj (Except.ok.inj h2)
      exact ⟨store_dense hs.1 hl, hs.2⟩

/-- One step of a `Dn` proof. -/
macro "dn1" : tactic => `(tactic| first
  | with_reducible assumption
  | with_reducible exact dn_pure _
  | with_reducible exact dn_raise _
  | with_reducible exact dn_get
  | with_reducible exact dn_need _ _
  | with_reducible exact dn_emit _ _
  | with_reducible exact dn_constIndex _
  | with_reducible exact dn_nameIndex _
  | with_reducible exact dn_localSlot _
  | with_reducible exact dn_patch _
  | with_reducible exact dn_newLabel
  | with_reducible exact dn_setLine _
  | with_reducible exact dn_setLoop _ _
  | with_reducible exact dn_enterBlock _
  | with_reducible exact dn_exitBlock _
  | with_reducible exact dn_variantIndex _
  | (with_reducible refine dn_bind ?_ fun _ => ?_)
  | (with_reducible refine dn_ite ?_ ?_))

theorem dn_loadConst (c : ConstKey) : Dn (loadConst c) := by unfold loadConst; repeat dn1
theorem dn_loadName (c : String) : Dn (loadName c) := by unfold loadName; repeat dn1
theorem dn_symOf (ctx : GenCtx) (id : Option SymId) : Dn (symOf ctx id) := by unfold symOf; repeat dn1
theorem dn_loadVariable (ctx : GenCtx) (sym : SymRef) : Dn (loadVariable ctx sym) := by unfold loadVariable; repeat dn1
theorem dn_setVariable (sym : SymRef) : Dn (setVariable sym) := by unfold setVariable; repeat dn1

theorem dn_autoCast (ctx : GenCtx) (t : Ty) : Dn (autoCast ctx t) := by
  unfold autoCast
  repeat first | dn1 | exact dn_loadVariable _ _

theorem dn_variantTag (v : VariantRef) : Dn (variantTag v) := by unfold variantTag; repeat dn1

theorem dn_genPath (v : Option VariantRef) : Dn (genPath v) := by
  unfold genPath
  repeat first | dn1 | exact dn_variantTag _ | exact dn_loadConst _

theorem dn_genTest (ctx : GenCtx) (v : SymId) (c : ConsRef) : Dn (genTest ctx v c) := by
  unfold genTest
  cases c <;>
  repeat first | dn1 | exact dn_symOf _ _ | exact dn_loadVariable _ _ | exact dn_loadConst _ | exact dn_variantTag _

theorem dn_genCaseBindings (ctx : GenCtx) (v : SymId) (c : ConsRef) : Dn (genCaseBindings ctx v c []) := by
  unfold genCaseBindings
  have hm : Dn (genMatchArgs ctx []) := by unfold genMatchArgs; exact dn_pure _
  cases c <;>
  repeat first | dn1 | exact dn_symOf _ _ | exact dn_loadVariable _ _ | exact dn_emit _ _

theorem dn_genArmBindings (ctx : GenCtx) (x : ScopeId) (bs : List (String × SymId)) : Dn (genArmBindings ctx x bs) := by
  induction bs with
  | nil => exact dn_pure _
  | cons b rest ih =>
      unfold genArmBindings
      repeat first | dn1 | exact dn_symOf _ _ | exact dn_loadVariable _ _ | exact dn_setVariable _

theorem dn_genCallOp (ctx : GenCtx) (sym : Sym) (k : Nat) (t : Ty) : Dn (genCallOp ctx sym k t) := by
  unfold genCallOp
  cases sym.kind <;> repeat first | dn1 | exact dn_autoCast _ _

theorem dn_genLoopCtl (b : Bool) : Dn (genLoopCtl b) := by unfold genLoopCtl; repeat dn1

theorem dn_genRegisto (ctx : GenCtx) (name : String) (fields : List String) : Dn (genRegisto ctx name fields) := by
  unfold genRegisto
  have h : ∀ f : Gen → List RegistoOut, Dn (G.modify fun s => { s with registos := f s }) := fun f =>
    dn_of fun s b s' h => by obtain ⟨-, rfl⟩ := Prod.mk.inj (Except.ok.inj h); simp
  repeat first | dn1 | exact h _ | exact dn_symOf _ _ | exact dn_setVariable _

theorem dn_genVariants (vs : List VariantRef) : Dn (genVariants vs) := by
  induction vs with
  | nil => exact dn_pure _
  | cons v rest ih => unfold genVariants; repeat dn1

/-- `dn1` with the lemmas about the functions of codegen.py. -/
macro "dn" : tactic => `(tactic| first
  | dn1
  | with_reducible exact dn_loadConst _
  | with_reducible exact dn_loadName _
  | with_reducible exact dn_autoCast _ _
  | with_reducible exact dn_symOf _ _
  | with_reducible exact dn_loadVariable _ _
  | with_reducible exact dn_setVariable _
  | with_reducible exact dn_genPath _
  | with_reducible exact dn_genTest _ _ _
  | with_reducible exact dn_genCaseBindings _ _ _
  | with_reducible exact dn_genArmBindings _ _ _
  | with_reducible exact dn_genCallOp _ _ _ _
  | with_reducible exact dn_genLoopCtl _
  | with_reducible exact dn_genRegisto _ _ _
  | with_reducible exact dn_genVariants _)

theorem dn_genScoped (ctx : GenCtx) (x : ScopeId) {a : G Unit} (ha : Dn a) : Dn (genScoped ctx x a) := by
  unfold genScoped; repeat dn

theorem dn_genSuccess (ctx : GenCtx) (bs : List (String × SymId)) (l : Nat) (x : ScopeId) {a : G Unit} (ha : Dn a) :
    Dn (genSuccess ctx bs l x a) := by
  have := dn_genScoped ctx x ha
  unfold genSuccess; repeat dn

theorem dn_genChain (ctx : GenCtx) (c : Option SymId) : Dn (genChain ctx c) := by
  unfold genChain
  cases c <;> repeat dn

theorem dn_genAssign (ctx : GenCtx) {a : G Unit} (c : Option SymId) (sy : SymId) (ha : Dn a) : Dn (genAssign ctx a c sy) := by
  unfold genAssign
  repeat first | dn | exact dn_genChain _ _

theorem dn_genVariable (ctx : GenCtx) (nm : String) (sy : Option SymId) (p : Ty) : Dn (genVariable ctx nm sy p) := by
  unfold genVariable
  repeat dn

theorem dn_genBinop (ctx : GenCtx) (op : TT) {a b : G Unit} (lt rt p : Ty) (ha : Dn a) (hb : Dn b) :
    Dn (genBinop ctx op a b lt rt p) := by
  unfold genBinop genNullTest genOperator
  split <;> repeat dn

theorem dn_genUnwrap {a : G Unit} {d : Option (G Unit)} (ha : Dn a) (hd : ∀ m ∈ d, Dn m) : Dn (genUnwrap a d) := by
  cases d with
  | none => unfold genUnwrap; repeat dn
  | some m => have := hd m rfl; unfold genUnwrap; repeat dn

theorem dn_atLine (l : Nat) {a : G Unit} (ha : Dn a) : Dn (atLine l a) := by
  unfold atLine
  repeat dn

theorem dn_genCaseCode (ctx : GenCtx) (v : SymId) (c : ConsRef) {a : G Unit} (i l : Nat) (ha : Dn a) :
    Dn (genCaseCode ctx v c [] a i l) := by
  unfold genCaseCode; repeat dn

theorem dn_genSwitch {f : Nat → Nat → G Unit} {g : Nat → G Unit} (hf : ∀ a b, Dn (f a b)) (hg : ∀ a, Dn (g a)) :
    Dn (genSwitch f g) := by
  unfold genSwitch
  repeat first | dn | exact hf _ _ | exact hg _

theorem dn_genBranch {a b : G Unit} (i l : Nat) (ha : Dn a) (hb : Dn b) : Dn (genBranch a b i l) := by
  unfold genBranch; repeat dn

theorem dn_genSe {a b c : G Unit} {f : Nat → G Unit} (ha : Dn a) (hb : Dn b) (hf : ∀ l, Dn (f l)) (hc : Dn c) :
    Dn (genSe a b f c) := by
  unfold genSe
  repeat first | dn | exact hf _ | exact dn_genBranch _ _ ha hb

theorem dn_genEnquanto (ctx : GenCtx) (x : ScopeId) {a b : G Unit} (ha : Dn a) (hb : Dn b) : Dn (genEnquanto ctx x a b) := by
  unfold genEnquanto genLoopBody; repeat dn

theorem dn_genPara (ctx : GenCtx) (nm : String) (x : ScopeId) {a b c d : G Unit} (ha : Dn a) (hb : Dn b) (hc : Dn c)
    (hd : Dn d) : Dn (genPara ctx nm x a b c d) := by
  unfold genPara genParaTest genParaStep; repeat dn

/-- The parameters of a function get the first slots. -/
theorem paramLocals_dense (ctx : GenCtx) : ∀ (ps : List SymId) (acc l : List (String × Nat)), paramLocals ctx ps acc = .ok l →
    (ps.map fun p => ctx.env.syms[p]?.map (·.outId)).Nodup →
    (∀ p ∈ ps, ∀ s, ctx.env.syms[p]? = some s → lookup acc s.outId = none) → Dense acc → Dense l
  | [], acc, l, h, _, _, hd => by cases h; exact hd
  | p :: ps, acc, l, h, hn, ha, hd => by
    simp only [paramLocals] at h
    split at h
    · cases h
    · rename_i sym hs
      have hl := ha p (List.mem_cons_self ..) sym hs
      simp only [List.map_cons, List.nodup_cons] at hn
      refine paramLocals_dense ctx ps _ l h hn.2 (fun q hq s hs' => ?_) (store_dense hd hl)
      have hne : s.outId ≠ sym.outId := by
        intro e
        refine hn.1 (List.mem_map.2 ⟨q, hq, ?_⟩)
        rw [hs', hs]; simp [e]
      have h1 := ha q (List.mem_cons_of_mem _ hq) s hs'
      unfold lookup at h1 ⊢
      simp only [Option.map_eq_none_iff, List.find?_eq_none] at h1 ⊢
      intro x hx
      unfold store at hx
      split at hx
      · obtain ⟨y, hy, rfl⟩ := List.mem_map.1 hx
        split
        · simpa using Ne.symm hne
        · exact h1 y hy
      · rcases List.mem_append.1 hx with hx | hx
        · exact h1 x hx
        · cases List.mem_singleton.1 hx
          simpa using Ne.symm hne

theorem dn_genFunc (ctx : GenCtx) (sy : SymId) (x : ScopeId) {a : G Unit} (hp : paramsApart ctx.env sy = true) (ha : Dn a) :
    Dn (genFunc ctx sy x a) := by
  intro s u s' hr hs
  unfold genFunc at hr
  obtain ⟨f, s0, h0, hr⟩ := G.bind_ok.1 hr
  have f0 := dn_symOf ctx _ s f s0 h0 hs
  have hf : ctx.env.syms[sy]? = some f := (symOf_ok h0).1
  obtain ⟨_, s1, h1, hr⟩ := G.bind_ok.1 hr
  have f1 := dn_nameIndex _ _ _ _ h1 f0
  obtain ⟨fe, s2, h2, hr⟩ := G.bind_ok.1 hr
  have f2 := dn_newLabel _ _ _ h2 f1
  obtain ⟨_, s3, h3, hr⟩ := G.bind_ok.1 hr
  have f3 := dn_emit _ _ _ _ _ h3 f2
  obtain ⟨fs, s4, h4, hr⟩ := G.bind_ok.1 hr
  have f4 := dn_newLabel _ _ _ h4 f3
  obtain ⟨g, s5, h5, hr⟩ := G.bind_ok.1 hr
  have eg : g = s4 ∧ s5 = s4 := by
    obtain ⟨h, h'⟩ := Prod.mk.inj (Except.ok.inj h5); exact ⟨h.symm, h'.symm⟩
  rw [eg.1, eg.2] at hr
  obtain ⟨_, s6, h6, hr⟩ := G.bind_ok.1 hr
  have f6 : Even s6 := by
    unfold startLocals at h6
    cases hl : paramLocals ctx f.params [] with
    | error e => simp [hl, Except.map] at h6
    | ok l =>
        simp only [hl, Except.map, Except.ok.injEq, Prod.mk.injEq] at h6
        rw [← h6.2]
        simp only [paramsApart, hf, decide_eq_true_eq] at hp
        exact ⟨paramLocals_dense ctx _ _ _ hl hp (fun _ _ _ _ => rfl) rfl, f4.2⟩
  obtain ⟨_, s7, h7, hr⟩ := G.bind_ok.1 hr
  have f7 : Even s7 := by
    refine (?_ : Dn (genFuncBody ctx f.builtin x a)) _ _ _ h7 f6
    unfold genFuncBody
    split
    · exact dn_pure _
    · exact dn_genScoped _ _ ha
  unfold endFunc at hr
  obtain ⟨_, s8, h8, hr⟩ := G.bind_ok.1 hr
  have f8 := dn_loadConst _ _ _ _ h8 f7
  obtain ⟨_, s9, h9, hr⟩ := G.bind_ok.1 hr
  have f9 := dn_emit _ _ _ _ _ h9 f8
  obtain ⟨g', s10, h10, hr⟩ := G.bind_ok.1 hr
  have eg' : g' = s9 ∧ s10 = s9 := by
    obtain ⟨h, h'⟩ := Prod.mk.inj (Except.ok.inj h10); exact ⟨h.symm, h'.symm⟩
  rw [eg'.1, eg'.2] at hr
  obtain ⟨_, s11, h11, hr⟩ := G.bind_ok.1 hr
  have f11 : Even s11 := by
    rw [← (Prod.mk.inj (Except.ok.inj h11)).2]
    refine ⟨f4.1, fun t ht => ?_⟩
    rcases List.mem_append.1 ht with ht | ht
    · exact f9.2 t ht
    · cases List.mem_singleton.1 ht; exact f9.1
  obtain ⟨_, s12, h12, hr⟩ := G.bind_ok.1 hr
  have f12 := dn_patch _ _ _ _ h12 f11
  obtain ⟨_, s13, h13, hr⟩ := G.bind_ok.1 hr
  have f13 := dn_get _ _ _ h13 f12
  obtain ⟨_, s14, h14, hr⟩ := G.bind_ok.1 hr
  have f14 := dn_need _ _ _ _ _ h14 f13
  rw [← (Prod.mk.inj (Except.ok.inj hr)).2]
  exact f14

mutual
theorem dn_genExpr (ctx : GenCtx) : ∀ e : TExpr, slimE ctx.env e = true → Dn (genExpr ctx e)
  | .const _ _ _, _ => by unfold genExpr genConstant; exact dn_atLine _ (by repeat dn)
  | .fmtStr _ parts, h => by
      have := dn_genExprs ctx parts (by simpa [slimE] using h)
      unfold genExpr genFmtStr; exact dn_atLine _ (by repeat dn)
  | .var _ _ _ _, _ => by unfold genExpr; exact dn_atLine _ (dn_genVariable _ _ _ _)
  | .converta _ t _ _, h => by
      have := dn_genExpr ctx t (by simpa [slimE] using h)
      unfold genExpr genConverta; exact dn_atLine _ (by repeat dn)
  | .alvo _ _, _ => by unfold genExpr genAlvo; exact dn_atLine _ (by repeat dn)
  | .bin _ _ l r _ _ _, h => by
      simp only [slimE, Bool.and_eq_true] at h
      unfold genExpr
      exact dn_atLine _ (dn_genBinop _ _ _ _ _ (dn_genExpr ctx l h.1) (dn_genExpr ctx r h.2))
  | .un _ _ e _, h => by
      have := dn_genExpr ctx e (by simpa [slimE] using h)
      unfold genExpr genUnaryop; exact dn_atLine _ (by repeat dn)
  | .assign _ _ r, h => by
      unfold genExpr
      exact dn_atLine _ (dn_genAssign _ _ _ (dn_genExpr ctx r (by simpa [slimE] using h)))
  | .iguala _ d, h => by
      unfold genExpr; exact dn_atLine _ (dn_genDecision ctx d (by simpa [slimE] using h))
  | .call _ c args _ _, h => by
      simp only [slimE, Bool.and_eq_true] at h
      have h1 := dn_genExpr ctx c h.1
      have h2 := dn_genExprs ctx args h.2
      unfold genExpr genCall; exact dn_atLine _ (by repeat dn)
  | .list _ es, h => by
      have := dn_genExprs ctx es (by simpa [slimE] using h)
      unfold genExpr genList; exact dn_atLine _ (by repeat dn)
  | .named _ _ e, h => by
      have := dn_genExpr ctx e (by simpa [slimE] using h)
      unfold genExpr genNamed; exact dn_atLine _ (by repeat dn)
  | .get _ t _ _, h => by
      have := dn_genExpr ctx t (by simpa [slimE] using h)
      unfold genExpr genGet; exact dn_atLine _ (by repeat dn)
  | .index _ t i, h => by
      simp only [slimE, Bool.and_eq_true] at h
      have h1 := dn_genExpr ctx t h.1
      have h2 := dn_genExpr ctx i h.2
      unfold genExpr genIndexGet; exact dn_atLine _ (by repeat dn)
  | .indexSet _ t i v, h => by
      simp only [slimE, Bool.and_eq_true] at h
      have h1 := dn_genExpr ctx t h.1.1
      have h2 := dn_genExpr ctx i h.1.2
      have h3 := dn_genExpr ctx v h.2
      unfold genExpr genIndexSet; exact dn_atLine _ (by repeat dn)
  | .set _ t v, h => by
      simp only [slimE, Bool.and_eq_true] at h
      have h1 := dn_genExpr ctx t h.1
      have h3 := dn_genExpr ctx v h.2
      unfold genExpr genSet; exact dn_atLine _ (by repeat dn)
  | .unwrap _ o d, h => by
      simp only [slimE, Bool.and_eq_true] at h
      have h1 := dn_genExpr ctx o h.1
      have h2 := dn_genOpt ctx d h.2
      unfold genExpr; exact dn_atLine _ (dn_genUnwrap h1 h2)
  | .path _ _, _ => by unfold genExpr; exact dn_atLine _ (dn_genPath _)
theorem dn_genOpt (ctx : GenCtx) : ∀ e : Option TExpr, slimOpt ctx.env e = true → ∀ m ∈ genOpt ctx e, Dn m
  | none, _ => by simp [genOpt]
  | some e, h => by
      have := dn_genExpr ctx e (by simpa [slimOpt] using h)
      simpa [genOpt] using this
theorem dn_genExprs (ctx : GenCtx) : ∀ es : List TExpr, slimEs ctx.env es = true → Dn (genExprs ctx es)
  | [], _ => by unfold genExprs; exact dn_pure _
  | e :: es, h => by
      simp only [slimEs, Bool.and_eq_true] at h
      have h1 := dn_genExpr ctx e h.1
      have h2 := dn_genExprs ctx es h.2
      unfold genExprs; repeat dn
theorem dn_genDecision (ctx : GenCtx) : ∀ d : Decision, slimD ctx.env d = true → Dn (genDecision ctx d)
  | .success _ _ x body, h => by
      unfold genDecision
      exact dn_genSuccess _ _ _ _ (dn_genStmts ctx body (by simpa [slimD] using h))
  | .switch v (.mk k as body :: cs) _, h => by
      simp only [slimD, slimCases, Bool.and_eq_true, List.isEmpty_iff] at h
      unfold genDecision
      refine dn_genSwitch (fun a b => ?_) (fun a => dn_genCases ctx v a cs h.2)
      unfold genCase
      rw [h.1.1]
      exact dn_genCaseCode _ _ _ _ _ (dn_genDecision ctx body h.1.2)
  | .switch _ [] _, _ => by unfold genDecision; exact dn_raise _
  | .fail, _ => by unfold genDecision; exact dn_raise _
theorem dn_genCases (ctx : GenCtx) (v : SymId) (a : Nat) : ∀ cs : List DCase, slimCases ctx.env cs = true → Dn (genCases ctx v a cs)
  | [], _ => by unfold genCases; exact dn_pure _
  | .mk k as body :: cs, h => by
      simp only [slimCases, Bool.and_eq_true, List.isEmpty_iff] at h
      have h2 := dn_genCases ctx v a cs h.2
      unfold genCases
      refine dn_bind dn_newLabel fun l => dn_bind ?_ fun _ => h2
      unfold genCase
      rw [h.1.1]
      exact dn_genCaseCode _ _ _ _ _ (dn_genDecision ctx body h.1.2)
theorem dn_genStmt (ctx : GenCtx) : ∀ st : TStmt, slimS ctx.env st = true → Dn (genStmt ctx st)
  | .expr e, h => by
      unfold genStmt
      exact dn_genExpr ctx e (by simpa [slimS] using h)
  | .varDecl _ _ _ (some (.mk _ r)), h => by
      unfold genStmt
      exact dn_atLine _ (dn_genAssign _ _ _ (dn_genExpr ctx r (by simpa [slimS] using h)))
  | .varDecl _ _ _ none, _ => by unfold genStmt genDeclare; exact dn_atLine _ (by repeat dn)
  | .loopCtl _ _, _ => by unfold genStmt; exact dn_atLine _ (dn_genLoopCtl _)
  | .retorna _ none, _ => by
      unfold genStmt; simp only [genOpt]; unfold genRetorna; exact dn_atLine _ (by repeat dn)
  | .retorna _ (some e), h => by
      have := dn_genExpr ctx e (by simpa [slimS, slimOpt] using h)
      unfold genStmt; simp only [genOpt]; unfold genRetorna; exact dn_atLine _ (by repeat dn)
  | .produz _ e, h => by
      unfold genStmt
      exact dn_atLine _ (dn_genExpr ctx e (by simpa [slimS] using h))
  | .mostra _ e, h => by
      have := dn_genExpr ctx e (by simpa [slimS] using h)
      unfold genStmt genMostra; exact dn_atLine _ (by repeat dn)
  | .se _ c t es b, h => by
      simp only [slimS, Bool.and_eq_true] at h
      unfold genStmt
      exact dn_atLine _ (dn_genSe (dn_genExpr ctx c h.1.1.1) (dn_genBlock ctx t h.1.1.2)
        (fun l => dn_genElses ctx l es h.1.2) (dn_genOptBlock ctx b h.2))
  | .enquanto _ c (.mk x body), h => by
      simp only [slimS, slimB, Bool.and_eq_true] at h
      unfold genStmt
      exact dn_atLine _ (dn_genEnquanto _ _ (dn_genExpr ctx c h.1) (dn_genStmts ctx body h.2))
  | .para _ _ a b none (.mk x body), h => by
      simp only [slimS, slimB, Bool.and_eq_true] at h
      unfold genStmt
      exact dn_atLine _ (dn_genPara _ _ _ (dn_genExpr ctx a h.1.1.1) (dn_genExpr ctx b h.1.1.2)
        (by simp only [genOpt, genInc]; exact dn_loadConst _) (dn_genStmts ctx body h.2))
  | .para _ _ a b (some i) (.mk x body), h => by
      simp only [slimS, slimOpt, slimB, Bool.and_eq_true] at h
      unfold genStmt
      exact dn_atLine _ (dn_genPara _ _ _ (dn_genExpr ctx a h.1.1.1) (dn_genExpr ctx b h.1.1.2)
        (by simp only [genOpt, genInc]; exact dn_genExpr ctx i h.1.2) (dn_genStmts ctx body h.2))
  | .func _ sy (.mk x body), h => by
      simp only [slimS, slimB, Bool.and_eq_true] at h
      unfold genStmt
      exact dn_atLine _ (dn_genFunc _ _ _ h.1 (dn_genStmts ctx body h.2))
  | .registo _ _ _, _ => by unfold genStmt; exact dn_atLine _ (dn_genRegisto _ _ _)
  | .uniao _ _ _, _ => by unfold genStmt genUniao; exact dn_atLine _ (by repeat dn)
  | .noop _, _ => by unfold genStmt; exact dn_setLine _
theorem dn_genStmts (ctx : GenCtx) : ∀ ss : List TStmt, slimSs ctx.env ss = true → Dn (genStmts ctx ss)
  | [], _ => by unfold genStmts; exact dn_pure _
  | s :: ss, h => by
      simp only [slimSs, Bool.and_eq_true] at h
      have h1 := dn_genStmt ctx s h.1
      have h2 := dn_genStmts ctx ss h.2
      unfold genStmts; exact dn_bind h1 fun _ => h2
theorem dn_genBlock (ctx : GenCtx) : ∀ b : TBlock, slimB ctx.env b = true → Dn (genBlock ctx b)
  | .mk x body, h => by
      unfold genBlock
      exact dn_genScoped _ _ (dn_genStmts ctx body (by simpa [slimB] using h))
theorem dn_genOptBlock (ctx : GenCtx) : ∀ b : Option TBlock, slimOptB ctx.env b = true → Dn (genOptBlock ctx b)
  | none, _ => by unfold genOptBlock; exact dn_pure _
  | some b, h => by
      unfold genOptBlock
      exact dn_genBlock ctx b (by simpa [slimOptB] using h)
theorem dn_genElses (ctx : GenCtx) (a : Nat) : ∀ es : List TElse, slimElses ctx.env es = true → Dn (genElses ctx a es)
  | [], _ => by unfold genElses; exact dn_pure _
  | .mk c b :: es, h => by
      simp only [slimElses, Bool.and_eq_true] at h
      have h1 := dn_genExpr ctx c h.1.1
      have h2 := dn_genBlock ctx b h.1.2
      have h3 := dn_genElses ctx a es h.2
      unfold genElses genElsif
      exact dn_bind dn_newLabel fun l => dn_bind (dn_genBranch _ _ h1 h2) fun _ => h3
end

end Codegen

end Amanda

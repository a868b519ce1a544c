import Verif.LinkGen
import Verif.Props.Codegen

/-!
# Generated modules

What code generation for a whole module leaves in its tables (`ModGen`).
-/

namespace Amanda

namespace Codegen

open Source

theorem genGlobals_ok {ctx : GenCtx} {l : List (String × SymId)} {s s' : Gen} {u : Unit}
    (h : genGlobals ctx l s = .ok (u, s')) : s' = { s with names := s'.names } := by
  induction l generalizing s with
  | nil =>
      unfold genGlobals at h
      obtain ⟨-, rfl⟩ := pure_ok h
      rfl
  | cons p l ih =>
      unfold genGlobals at h
      gbind h with sy t h1
      obtain ⟨-, e1⟩ := symOf_ok h1
      rw [e1] at h
      by_cases hn : namedAtStart sy = true
      · rw [if_pos hn] at h
        gbind h with i t2 h2
        obtain ⟨-, e2, -⟩ := nameIndex_ok h2
        have := ih h
        rw [this, e2]
      · rw [if_neg hn] at h
        exact ih h

/-- The finished tables `fin` of module `m`; its statements were generated from `s0` to `s1`. -/
structure ModGen (ctx : GenCtx) (m : ModuleIn) (W : Wf) (fin s0 s1 : Gen) : Prop where
  gen : genStmts ctx m.body s0 = .ok ((), s1)
  scope : s0.scope = some m.scope
  start : s0.ip = 0
  fits : Fits fin fin.funcLocals s0 s1
  halt : ∃ t t', emit .halt [] t = .ok ((), t') ∧ t.ip = s1.ip ∧ Fits fin fin.funcLocals t t'
  formed : ∀ i ∈ fin.ops, WellFormed i
  fit : ∀ i ∈ fin.ops, Operands16Fit i
  consts : ∀ c ∈ fin.consts, Loads c
  variants : fin.variants = distinct (unionVariants m.body)
  funcs : AllListed ctx fin W (funcDecls m.body) fin.funcs

theorem genModule_gen {ctx : GenCtx} {m : ModuleIn} {W : Wf} {fin : Gen} (he : ctx.env = W.L.env)
    (hW : W.scope = some m.scope) (hok : okSs W m.body = true) (T : Tables fin)
    (h : genModule ctx m {} = .ok ((), fin)) : ∃ s0 s1, ModGen ctx m W fin s0 s1 := by
  unfold genModule at h
  gbind h with i1 g1 h1
  obtain ⟨-, e1, -⟩ := constIndex_ok h1
  gbind h with i2 g2 h2
  obtain ⟨-, e2, -⟩ := constIndex_ok h2
  gbind h with tab g3 h3
  obtain ⟨-, e3⟩ := need_ok h3
  rw [e3] at h
  gbind h with u4 g4 h4
  have e4 := genGlobals_ok h4
  gbind h with u5 s0 h5
  have e5 := modify_ok h5
  gbind h with u6 s1 h6
  gbind h with u7 g7 h7
  have e7 := modify_ok h7
  gbind h with g8 g9 h8
  obtain ⟨hg8, hg9⟩ := get_ok h8
  rw [hg8, hg9] at h
  have hd : g7.depth = -1 := by
    refine Decidable.byContradiction fun hd => ?_
    rw [if_neg hd] at h
    cases h
  rw [if_pos hd] at h
  gbind h with u10 g10 h10
  have e10 := modify_ok h10
  have e11 := emit_ok h
  have hsc : s0.scope = some m.scope := by rw [e5]
  have X : Ext s0.labels.length s0 s1 := keeps_genStmts ctx _ _ _ _ _ (Nat.le_refl _) h6
  have tm : Tame W.top s0 s1 := tm_genStmts ctx W he m.body hok _ _ _ h6 (hsc.trans hW.symm)
  have ops0 : s0.ops = [] := by rw [e5, e4, e2, e1]
  have lab0 : s0.labels = [] := by rw [e5, e4, e2, e1]
  have ip0 : s0.ip = 0 := by rw [e5, e4, e2, e1]
  have fun0 : s0.funcs = [] := by rw [e5, e4, e2, e1]
  have var0 : s0.variants = [] := by rw [e5, e4, e2, e1]
  have ops1 : fin.ops = s1.ops ++ [⟨.halt, []⟩] := by rw [e11, e10, e7]
  have con1 : fin.consts = s1.consts := by rw [e11, e10, e7]
  have nam1 : fin.names = s1.names := by rw [e11, e10, e7]
  have var1 : fin.variants = s1.variants := by rw [e11, e10, e7]
  have reg1 : fin.registos = s1.registos := by rw [e11, e10, e7]
  have lab1 : fin.labels = s1.labels := by rw [e11, e10, e7]
  have loc1 : fin.funcLocals = s1.funcLocals := by rw [e11, e10, e7]
  have fin1 : fin.finished = s1.finished := by rw [e11, e10, e7]
  have fun1 : fin.funcs = s1.funcs := by rw [e11, e10, e7]
  have T1 : Tables s1 := ⟨fin1 ▸ T.finished, loc1 ▸ T.locals, reg1 ▸ T.registos⟩
  have ip1 : s1.ip = codeSize s1.ops := by
    have := X.ip; rw [ops0, ip0, codeSize_nil] at this; omega
  have F : Fits fin fin.funcLocals s0 s1 := by
    refine ⟨ops1 ▸ List.prefix_append _ _, by rw [ops0, ip0]; rfl, con1 ▸ List.prefix_rfl, nam1 ▸ List.prefix_rfl,
      var1 ▸ List.prefix_rfl, reg1 ▸ List.prefix_rfl, fun l _ _ => by rw [lab1], T.locals.1, loc1 ▸ List.prefix_rfl⟩
  obtain ⟨lv, fos, lf, ll⟩ := genStmts_listed he m.body hok F (hsc.trans hW.symm) h6 (fin1 ▸ T.finished)
  refine ⟨s0, s1, h6, hsc, ip0, F, ⟨g10, fin, h, by rw [e10, e7], ?_⟩, ?_, ?_, ?_, ?_, ?_⟩
  · have h1 : g10.labels = s1.labels := by rw [e10, e7]
    refine ⟨List.prefix_rfl, ?_, List.prefix_rfl, List.prefix_rfl, List.prefix_rfl, List.prefix_rfl,
      fun l _ _ => rfl, T.locals.1, List.prefix_rfl⟩
    rw [e10, e7]
    exact ip1
  · intro i hi
    rw [ops1] at hi
    rcases List.mem_append.1 hi with hi | hi
    · exact X.formed (by rw [ops0]; simp) i hi
    · rw [List.mem_singleton.1 hi]; rfl
  · intro i hi
    rw [ops1] at hi
    rcases List.mem_append.1 hi with hi | hi
    · exact tm.fit T1 (by rw [ops0]; simp) i hi
    · rw [List.mem_singleton.1 hi]; intro _ a ha; cases ha
  · rw [con1]
    refine tm.consts ?_
    have : s0.consts = g2.consts := by rw [e5, e4]
    rw [this]
    have l1 := (tm_constIndex (sc := none) (d := true) (.str "verdadeiro")
      (show textOk "verdadeiro" = true by decide) _ _ _ h1 rfl).consts (by intro c hc; cases hc)
    exact (tm_constIndex (sc := g1.scope) (d := true) (.str "falso") (show textOk "falso" = true by decide) _ _ _
      h2 rfl).consts l1
  · rw [var1, lv, var0, addVariants_nil]
  · rw [fun1, lf, fun0]
    exact ll

end Codegen

end Amanda

import Verif.GenTame
import Verif.GenFits
import Verif.SourceProg

/-!
# The functions and unions of a generated module

What code generation for the statements of a module puts into the tables of functions and variants, and
where the code of each function stands in the finished code.
-/

namespace Amanda

namespace Codegen

open Source

/-- The code of function `f` went from `s0` to `s1` and stands in the finished module `fin`. -/
structure Placed (ctx : GenCtx) (fin : Gen) (x : ScopeId) (body : List TStmt) (f : Sym)
    (fo : FuncOut) (s0 s1 : Gen) : Prop where
  start : fo.startIp = s0.ip
  locals : fo.locals = s1.funcLocals.length
  gen : genStmts ctx body s0 = .ok ((), s1)
  scope : s0.scope = some x
  fits : Fits fin s1.funcLocals s0 s1
  small : Small s1.funcLocals
  params : paramLocals ctx f.params [] = .ok s0.funcLocals
  last : ∃ t0 t1 t2, t0.ip = s1.ip ∧ loadConst (.str "falso") t0 = .ok ((), t1) ∧
    emit .ret [] t1 = .ok ((), t2) ∧ Fits fin s1.funcLocals t0 t1 ∧ Fits fin s1.funcLocals t1 t2

/-- The entry `fo` of the table of functions belongs to the declaration `d`. -/
structure Listed (ctx : GenCtx) (fin : Gen) (W : Wf) (d : SymId × ScopeId × List TStmt) (fo : FuncOut) : Prop where
  sym : ∃ f, ctx.env.syms[d.1]? = some f ∧ fo.name = f.name ∧
    fo.module = (match indexIn f.modPath ctx.modules with | some i => (i : Int) | none => -1) ∧
    (f.builtin = false → ∃ s0 s1, Placed ctx fin d.2.1 d.2.2 f fo s0 s1)
  ok : W.header d.1 d.2.1 d.2.2 = true ∧
    ((W.L.env.syms[d.1]?).any (·.builtin) = true ∨ okSs (W.funcIn d.2.1) d.2.2 = true)

/-- The same for all declarations in order. -/
def AllListed (ctx : GenCtx) (fin : Gen) (W : Wf) : List (SymId × ScopeId × List TStmt) → List FuncOut → Prop
  | [], [] => True
  | d :: ds, fo :: fos => Listed ctx fin W d fo ∧ AllListed ctx fin W ds fos
  | _, _ => False

theorem startLocals_ok {ctx : GenCtx} {ps : List SymId} {s s' : Gen} {u : Unit}
    (h : startLocals ctx ps s = .ok (u, s')) :
    ∃ l, paramLocals ctx ps [] = .ok l ∧ s' = { s with funcLocals := l } := by
  unfold startLocals at h
  cases hp : paramLocals ctx ps [] with
  | error e => simp [hp, Except.map] at h
  | ok l =>
      simp only [hp, Except.map, Except.ok.injEq, Prod.mk.injEq] at h
      exact ⟨l, rfl, h.2.symm⟩

theorem genFunc_listed {ctx : GenCtx} {W : Wf} {sy : SymId} {x : ScopeId} {body : List TStmt} {line : Nat}
    {fin s s' : Gen} {L : List (String × Nat)} {u : Unit} (he : ctx.env = W.L.env)
    (hok : okS W (.func line sy (.mk x body)) = true) (X : Fits fin L s s') (hs : s.scope = W.scope)
    (hr : genFunc ctx sy x (genStmts ctx body) s = .ok (u, s')) (hsm : ∀ t ∈ s'.finished, Small t) :
    ∃ fo, s'.funcs = s.funcs ++ [fo] ∧ s'.variants = s.variants ∧ Listed ctx fin W (sy, x, body) fo := by
  have hok' := hok
  simp only [okS, Bool.or_eq_true, Bool.and_eq_true] at hok'
  have hok2 : (W.L.env.syms[sy]?).any (·.builtin) = true ∨ okSs (W.funcIn x) body = true := by
    rcases hok'.2 with h | h
    · exact Or.inl h
    · exact Or.inr h.2
  unfold genFunc at hr
  gbind hr with f s0 h0
  obtain ⟨hf, e0⟩ := symOf_ok h0
  change ctx.env.syms[sy]? = some f at hf
  rw [e0] at hr
  gbind hr with i s1 h1
  obtain ⟨-, e1, -⟩ := nameIndex_ok h1
  have x1 : Ext 0 s s1 := keeps_nameIndex _ _ _ _ (Nat.zero_le _) h1
  gbind hr with fe s2 h2
  obtain ⟨hfe, e2⟩ := newLabel_ok h2
  gbind hr with u3 s3 h3
  have e3 := emit_ok h3
  gbind hr with fs s4 h4
  obtain ⟨hfs, e4⟩ := newLabel_ok h4
  gbind hr with g s5 h5
  obtain ⟨hg, hs5⟩ := get_ok h5
  rw [hg, hs5] at hr
  gbind hr with u6 s6 h6
  obtain ⟨l6, hl6, e6⟩ := startLocals_ok h6
  gbind hr with u7 s7 h7
  have t7 : Tame false s6 s7 := by
    have hb : Tm W.scope false (genFuncBody ctx f.builtin x (genStmts ctx body)) := by
      unfold genFuncBody
      split
      · exact tm_pure _
      · rename_i hb
        rcases hok'.2 with h | h
        · rw [← he, hf] at h
          exact absurd h hb
        · exact tm_genScoped _ _ (inside_parent he h.1) (tm_genStmts ctx (W.funcIn x) he body h.2)
    exact hb s6 u7 s7 h7 (by rw [e6, e4, e3, e2, e1]; exact hs)
  have x7 : Ext s6.labels.length s6 s7 :=
    keeps_genFuncBody ctx f.builtin x (keeps_genStmts ctx _ body) _ _ _ (Nat.le_refl _) h7
  unfold endFunc at hr
  gbind hr with u8 s8 h8
  have x8 : Ext s7.labels.length s7 s8 := keeps_loadConst _ _ _ _ (Nat.le_refl _) h8
  have t8 : Tame false s7 s8 :=
    tm_loadConst (sc := s7.scope) (.str "falso") (show textOk "falso" = true by decide) _ _ _ h8 rfl
  have l8 : s8.funcLocals = s7.funcLocals ∧ s8.labels = s7.labels := by
    unfold loadConst at h8
    gbind h8 with i8 r8 q8
    obtain ⟨-, q8, -⟩ := constIndex_ok q8
    have := emit_ok h8
    rw [this, q8]
    exact ⟨rfl, rfl⟩
  gbind hr with u9 s9 h9
  have e9 := emit_ok h9
  gbind hr with g' s10 h10
  obtain ⟨hg', hs10⟩ := get_ok h10
  rw [hg', hs10] at hr
  gbind hr with u11 s11 h11
  have e11 := modify_ok h11
  gbind hr with u12 s12 h12
  have e12 := patchLabel_ok h12
  gbind hr with g13 s13 h13
  obtain ⟨hg13, hs13⟩ := get_ok h13
  rw [hg13, hs13] at hr
  gbind hr with st s14 h14
  obtain ⟨hst, e14⟩ := need_ok h14
  have e15 := modify_ok hr
  rw [e14] at e15
  have lab6 : s6.labels = s1.labels ++ [s1.ip] ++ [s3.ip] := by
    have h1 : s6.labels = s3.labels ++ [s3.ip] := by rw [e6, e4]
    have h2 : s3.labels = s1.labels ++ [s1.ip] := by rw [e3, e2]
    rw [h1, h2]
  have hfe' : fe = s1.labels.length := hfe
  have hfs' : fs = s1.labels.length + 1 := by rw [hfs, e3, e2]; simp
  have ip6 : s6.ip = s3.ip := by rw [e6, e4]
  have lab7 : ∀ l, l < s6.labels.length → s7.labels[l]? = s6.labels[l]? := by
    intro l hl
    have h1 : (s6.labels.take s6.labels.length)[l]? = (s7.labels.take s6.labels.length)[l]? := by rw [x7.labels]
    rw [List.getElem?_take_of_lt hl, List.getElem?_take_of_lt hl] at h1
    exact h1.symm
  have lab9 : s9.labels = s7.labels := by rw [e9]; exact l8.2
  have lab12 : s12.labels = s7.labels.set fe s11.ip := by rw [e12, ← lab9]; rw [e11]
  have hst' : st = s6.ip := by
    rw [lab12, List.getElem?_set_ne (by omega), lab7 fs (by rw [lab6]; simp; omega), lab6,
      List.getElem?_append_right (by simp; omega)] at hst
    rw [ip6]
    simp [hfs'] at hst
    exact hst.symm
  have hfun : s'.funcs = s.funcs ++ [⟨f.name, st, s9.funcLocals.length,
      match indexIn f.modPath ctx.modules with | some i => (i : Int) | none => -1⟩] := by
    have h1 : s12.funcs = s8.funcs := by rw [e12, e11, e9]
    have h2 : s6.funcs = s.funcs := by rw [e6, e4, e3, e2, e1]
    rw [e15]
    show s12.funcs ++ _ = _
    rw [h1, (t8.decls rfl).1, (t7.decls rfl).1, h2]
    cases indexIn f.modPath ctx.modules <;> rfl
  have hvar : s'.variants = s.variants := by
    rw [e15, e12, e11, e9]
    show s8.variants = _
    rw [(t8.decls rfl).2, (t7.decls rfl).2, e6, e4, e3, e2, e1]
  refine ⟨_, hfun, hvar, ⟨f, hf, rfl, rfl, fun hb => ?_⟩, hok'.1, hok2⟩
  unfold genFuncBody at h7
  rw [if_neg (by simp [hb])] at h7
  unfold genScoped at h7
  gbind h7 with v1 b0 g1
  gbind h7 with v2 b1 g2
  have d1 := modify_ok g1
  have d2 := modify_ok h7
  have xb : Ext b0.labels.length b0 b1 := keeps_genStmts ctx _ body _ _ _ (Nat.le_refl _) g2
  have loc1 : s7.funcLocals = b1.funcLocals := by rw [d2]
  have ops7 : s7.ops = b1.ops := by rw [d2]
  have sm : Small b1.funcLocals := by
    refine hsm _ ?_
    rw [e15, e12, e11]
    show b1.funcLocals ∈ s9.finished ++ [s9.funcLocals]
    rw [e9]
    show b1.funcLocals ∈ s8.finished ++ [s8.funcLocals]
    rw [l8.1, loc1]
    simp
  have o' : s8.ops ++ [⟨.ret, []⟩] = s'.ops := by rw [e15, e12, e11, e9]
  have c' : s'.consts = s8.consts := by rw [e15, e12, e11, e9]
  have n' : s'.names = s8.names := by rw [e15, e12, e11, e9]
  have v' : s'.variants = s8.variants := by rw [e15, e12, e11, e9]
  have r' : s'.registos = s8.registos := by rw [e15, e12, e11, e9]
  have lab' : s'.labels = s7.labels.set fe s11.ip := by rw [e15]; exact lab12
  have len' : s'.labels.length = s7.labels.length := by rw [lab']; simp
  have hcount : s.labels.length ≤ s6.labels.length := by
    rw [lab6]; have := x1.count; simp; omega
  have hlab : ∀ l, s6.labels.length ≤ l → l < s7.labels.length → fin.labels[l]? = s7.labels[l]? := by
    intro l h1 h2
    rw [X.labels l (by omega) (by omega), lab', List.getElem?_set_ne (by
      have : s6.labels.length = s1.labels.length + 2 := by rw [lab6]; simp
      omega)]
  have lb0 : b0.labels = s6.labels := by rw [d1]
  have lb1 : b1.labels = s7.labels := by rw [d2]
  have ip0 : s6.ip = codeSize s6.ops := by
    have h1 : s6.ops = s1.ops ++ [⟨.jump, [fe]⟩] := by rw [e6, e4, e3, e2]
    have h2 : s6.ip = s1.ip + Op.jump.size := by rw [ip6, e3, e2]
    have h3 := x1.ip
    have h4 := X.ip
    rw [h1, h2, codeSize_append, codeSize_cons, codeSize_nil]
    show s1.ip + Op.jump.size = codeSize s1.ops + (Op.jump.size + 0)
    omega
  have ip7 : s7.ip = codeSize s7.ops := by have := x7.ip; omega
  have ip8 : s8.ip = codeSize s8.ops := by have := x8.ip; omega
  have p8 : s8.ops <+: fin.ops := (List.prefix_append _ _).trans (o' ▸ X.ops)
  have q8 : s8.consts <+: fin.consts := c' ▸ X.consts
  have n8 : s8.names <+: fin.names := n' ▸ X.names
  have v8 : s8.variants <+: fin.variants := v' ▸ X.variants
  have r8 : s8.registos <+: fin.registos := r' ▸ X.registos
  refine ⟨b0, b1, ?_, ?_, g2, by rw [d1], ?_, sm, by rw [d1, e6]; exact hl6, ?_⟩
  · rw [hst', d1]
  · show s9.funcLocals.length = _
    rw [e9]
    show s8.funcLocals.length = _
    rw [l8.1, loc1]
  · refine ⟨ops7 ▸ (x8.ops.trans p8), by rw [d1]; exact ip0, ?_, ?_, ?_, ?_, ?_, sm.1, List.prefix_rfl⟩
    · have : b1.consts = s7.consts := by rw [d2]
      exact this ▸ x8.consts.trans q8
    · have : b1.names = s7.names := by rw [d2]
      exact this ▸ x8.names.trans n8
    · have : b1.variants = s7.variants := by rw [d2]
      exact this ▸ x8.variants.trans v8
    · have : b1.registos = s7.registos := by rw [d2]
      exact this ▸ x8.registos.trans r8
    · rw [lb0, lb1]; exact hlab
  · refine ⟨s7, s8, s9, by rw [d2], h8, h9, ?_, ?_⟩
    · refine ⟨p8, ip7, q8, n8, v8, r8, ?_, sm.1, by rw [l8.1, loc1]; exact List.prefix_rfl⟩
      rw [l8.2]; intro l h1 h2; omega
    · refine ⟨?_, ip8, ?_, ?_, ?_, ?_, ?_, sm.1, ?_⟩
      · have : s9.ops = s'.ops := by rw [← o', e9]
        exact this ▸ X.ops
      · rw [e9]; exact q8
      · rw [e9]; exact n8
      · rw [e9]; exact v8
      · rw [e9]; exact r8
      · rw [lab9, l8.2]; intro l h1 h2; omega
      · rw [e9]; show s8.funcLocals <+: _; rw [l8.1, loc1]; exact List.prefix_rfl

/-! ## Unions -/

/-- The table of variants after more variants were added. -/
def addVariants : List String → List String → List String
  | [], tab => tab
  | v :: vs, tab => addVariants vs (tableIndex v tab).2

theorem addVariants_append (a b tab : List String) :
    addVariants (a ++ b) tab = addVariants b (addVariants a tab) := by
  induction a generalizing tab with
  | nil => rfl
  | cons x xs ih => exact ih _

theorem indexIn_eq_none {α : Type} [DecidableEq α] {x : α} {l : List α} : indexIn x l = none ↔ x ∉ l := by
  induction l with
  | nil => simp [indexIn]
  | cons y ys ih =>
      unfold indexIn
      by_cases h : y = x
      · simp [h]
      · rw [if_neg h, Option.map_eq_none_iff, ih]
        simp only [List.mem_cons, not_or]
        exact ⟨fun k => ⟨fun q => h q.symm, k⟩, fun k => k.2⟩

theorem tableIndex_snd (x : String) (tab : List String) :
    (tableIndex x tab).2 = if x ∈ tab then tab else tab ++ [x] := by
  unfold tableIndex
  cases h : indexIn x tab with
  | none => rw [if_neg (indexIn_eq_none.1 h)]
  | some i =>
      have : x ∈ tab := by
        by_cases hx : x ∈ tab
        · exact hx
        · rw [indexIn_eq_none.2 hx] at h; cases h
      rw [if_pos this]

theorem addVariants_eq (vs tab : List String) :
    addVariants vs tab = tab ++ (distinct vs).filter fun y => decide (y ∉ tab) := by
  induction vs generalizing tab with
  | nil => simp [addVariants, distinct]
  | cons x xs ih =>
      unfold addVariants distinct
      rw [ih, tableIndex_snd]
      by_cases hx : x ∈ tab
      · rw [if_pos hx]
        congr 1
        rw [List.filter_cons_of_neg (by simp [hx]), List.filter_filter]
        apply List.filter_congr
        intro y _
        by_cases hy : y = x
        · subst hy; simp [hx]
        · simp [hy]
      · rw [if_neg hx, List.filter_cons_of_pos (by simp [hx]), List.filter_filter, List.append_assoc]
        congr 1
        simp only [List.singleton_append, List.cons.injEq, true_and]
        apply List.filter_congr
        intro y _
        simp

/-- The variants of a module, numbered. -/
theorem addVariants_nil (vs : List String) : addVariants vs [] = distinct vs := by
  rw [addVariants_eq]
  simp

theorem indexIn_idxOf (x : String) (l : List String) : indexIn x l = l.idxOf? x := by
  induction l with
  | nil => rfl
  | cons y ys ih =>
      unfold indexIn
      rw [List.idxOf?_cons, ih]
      by_cases h : y = x
      · simp [h]
      · simp [h]

theorem genVariants_ok {vs : List VariantRef} {s s' : Gen} {u : Unit} (h : genVariants vs s = .ok (u, s')) :
    s' = { s with variants := addVariants (vs.map VariantRef.id) s.variants } := by
  induction vs generalizing s with
  | nil => obtain ⟨-, rfl⟩ := pure_ok h; rfl
  | cons v vs ih =>
      unfold genVariants at h
      gbind h with u1 t h1
      have e := modify_ok h1
      rw [ih h, e]
      rfl

/-! ## All statements -/

theorem funcDecls_other {c : TStmt} {cs : List TStmt} (h : isDecl c = false) :
    funcDecls (c :: cs) = funcDecls cs ∧ unionVariants (c :: cs) = unionVariants cs := by
  cases c <;> first | (cases h; done) | exact ⟨rfl, rfl⟩

theorem genStmts_listed {ctx : GenCtx} {W : Wf} {fin : Gen} {L : List (String × Nat)} (he : ctx.env = W.L.env) :
    ∀ (cs : List TStmt) {s s' : Gen}, okSs W cs = true → Fits fin L s s' → s.scope = W.scope →
      genStmts ctx cs s = .ok ((), s') → (∀ t ∈ s'.finished, Small t) →
      s'.variants = addVariants (unionVariants cs) s.variants ∧
      ∃ fos, s'.funcs = s.funcs ++ fos ∧ AllListed ctx fin W (funcDecls cs) fos := by
  intro cs
  induction cs with
  | nil =>
      intro s s' _ _ _ h _
      unfold genStmts at h
      obtain ⟨-, rfl⟩ := pure_ok h
      exact ⟨rfl, [], by simp, trivial⟩
  | cons c cs ih =>
      intro s s' hok X hs h hsm
      simp only [okSs, Bool.and_eq_true] at hok
      have fr1 := fr_genStmt ctx { W with yields := W.yields && cs.isEmpty } he c hok.1
      have fr2 := fr_genStmts ctx W he cs hok.2
      unfold genStmts at h
      obtain ⟨a, t, h1, h2, X1, X2, -, ht, -⟩ := X.split (b := 0) (Nat.zero_le _) hs
        (good_of (fun _ => keeps_genStmt ctx _ c) fr1) (fun _ => good_of (fun _ => keeps_genStmts ctx _ cs) fr2) h
      have f2 := fr2 t () s' h2 ht
      have hsm1 : ∀ q ∈ t.finished, Small q := fun q hq => hsm q (f2.finished.subset hq)
      obtain ⟨iv, fos, if1, if2⟩ := ih hok.2 X2 ht h2 hsm
      cases hd : isDecl c with
      | false =>
          obtain ⟨q1, q2⟩ := funcDecls_other (cs := cs) hd
          have tm := tm_genStmt ctx { W with yields := W.yields && cs.isEmpty } he c hok.1
          rw [hd] at tm
          obtain ⟨r1, r2⟩ := (tm s a t h1 hs).decls rfl
          rw [q1, q2, iv, r2]
          exact ⟨rfl, fos, by rw [if1, r1], if2⟩
      | true =>
          cases c with
          | func line sy b =>
              obtain ⟨x, body⟩ := b
              unfold genStmt at h1
              unfold atLine at h1
              gbind h1 with u0 t0 g0
              have e0 := modify_ok g0
              have s0 : Step 0 s t0 := by rw [e0]; exact Step.same rfl rfl rfl rfl rfl rfl rfl rfl
              obtain ⟨fo, k1, k2, k3⟩ := genFunc_listed (W := { W with yields := W.yields && cs.isEmpty }) he hok.1
                (X1.right s0) (by rw [e0]; exact hs) h1 hsm1
              refine ⟨?_, fo :: fos, ?_, ?_, if2⟩
              · show s'.variants = addVariants (unionVariants cs) s.variants
                rw [iv, k2, e0]
              · rw [if1, k1, e0]; simp
              · exact ⟨k3.sym, k3.ok⟩
          | uniao line nm vs =>
              unfold genStmt at h1
              unfold atLine at h1
              gbind h1 with u0 t0 g0
              have e0 := modify_ok g0
              unfold genUniao at h1
              gbind h1 with i1 t1 g1
              obtain ⟨-, e1, -⟩ := nameIndex_ok g1
              have e2 := genVariants_ok h1
              refine ⟨?_, fos, ?_, if2⟩
              · show s'.variants = addVariants (vs.map VariantRef.id ++ unionVariants cs) s.variants
                rw [addVariants_append, iv, e2, e1, e0]
              · rw [if1, e2, e1, e0]
          | _ => cases hd

/-! ## Locals of a function -/

theorem lookup_snoc (d : List (String × Nat)) (x k : String) (v : Nat) :
    lookup (d ++ [(x, v)]) k = (lookup d k).orElse fun _ => if x = k then some v else none := by
  unfold lookup
  rw [List.find?_append]
  cases h : d.find? (·.1 == k) with
  | some p => rfl
  | none =>
      by_cases hx : x = k
      · simp [hx]
      · simp [hx, List.find?]
        have : (x == k) = false := by simpa using hx
        rw [this]

theorem store_new {d : List (String × Nat)} {k : String} {v : Nat} (h : lookup d k = none) :
    store d k v = d ++ [(k, v)] := by
  unfold store
  rw [h]
  rfl

/-- Parameters have the first slots. -/
theorem paramLocals_slots {ctx : GenCtx} {ps : List SymId} {acc l : List (String × Nat)}
    (h : paramLocals ctx ps acc = .ok l) (hn : ps.Nodup)
    (hi : ∀ p ∈ ps, ∀ q ∈ ps, ∀ sp sq, ctx.env.syms[p]? = some sp → ctx.env.syms[q]? = some sq →
      sp.outId = sq.outId → p = q)
    (ha : ∀ p ∈ ps, ∀ sp, ctx.env.syms[p]? = some sp → lookup acc sp.outId = none) :
    acc <+: l ∧ l.length = acc.length + ps.length ∧
    ∀ k id, ps[k]? = some id → ∃ sp, ctx.env.syms[id]? = some sp ∧ lookup l sp.outId = some (acc.length + k) := by
  induction ps generalizing acc with
  | nil =>
      cases Except.ok.inj h
      exact ⟨List.prefix_rfl, by simp, by simp⟩
  | cons p ps ih =>
      unfold paramLocals at h
      cases hp : ctx.env.syms[p]? with
      | none => rw [hp] at h; cases h
      | some sp =>
          rw [hp] at h
          have hnew : lookup acc sp.outId = none := ha p (by simp) sp hp
          change paramLocals ctx ps (store acc sp.outId acc.length) = _ at h
          rw [store_new hnew] at h
          obtain ⟨i1, i2, i3⟩ := ih h (List.nodup_cons.1 hn).2
            (fun a ha b hb => hi a (List.mem_cons_of_mem _ ha) b (List.mem_cons_of_mem _ hb)) (by
              intro q hq sq hsq
              rw [lookup_snoc, ha q (List.mem_cons_of_mem _ hq) sq hsq]
              show (if sp.outId = sq.outId then _ else _) = none
              rw [if_neg]
              intro e
              have := hi p (by simp) q (List.mem_cons_of_mem _ hq) sp sq hp hsq e
              subst this
              exact (List.nodup_cons.1 hn).1 hq)
          refine ⟨(List.prefix_append _ _).trans i1, by rw [i2]; simp; omega, ?_⟩
          intro k id hk
          cases k with
          | zero =>
              cases hk
              refine ⟨sp, hp, lookup_prefix i1 ?_⟩
              rw [lookup_snoc, hnew]
              simp
          | succ k =>
              obtain ⟨sq, h1, h2⟩ := i3 k id hk
              refine ⟨sq, h1, ?_⟩
              rw [h2]
              simp
              omega

theorem setVariable_local {sym : SymRef} {s s' : Gen} {u : Unit} (h : setVariable sym s = .ok (u, s'))
    (hg : sym.isGlobal = false) : s'.funcLocals ≠ [] := by
  unfold setVariable at h
  rw [if_neg (by simp [hg])] at h
  gbind h with l t e
  have h1 := emit_ok h
  have : t.funcLocals ≠ [] := by
    unfold localSlot at e
    gbind e with g t1 e1
    obtain ⟨hg1, ht1⟩ := get_ok e1
    rw [hg1, ht1] at e
    cases hl : lookup s.funcLocals sym.outId with
    | some i =>
        rw [hl] at e
        obtain ⟨-, rfl⟩ := pure_ok e
        intro q
        rw [q] at hl
        cases hl
    | none =>
        rw [hl] at e
        obtain ⟨-, rfl⟩ := Prod.mk.inj (Except.ok.inj e)
        show store s.funcLocals sym.outId s.funcLocals.length ≠ []
        rw [store_new hl]
        simp
  rw [h1]
  exact this

/-- A declaration of a local gives it a slot. -/
theorem declares_slot {ctx : GenCtx} {W : Wf} (he : ctx.env = W.L.env) {c : TStmt} {s s' : Gen}
    (hs : s.scope = W.scope) (h : genStmt ctx c s = .ok ((), s')) (hd : W.declares c = true) :
    s'.funcLocals ≠ [] := by
  cases c with
  | varDecl l nm ty a =>
      cases a with
      | some a =>
          obtain ⟨sym, r⟩ := a
          unfold genStmt atLine at h
          gbind h with u0 t0 g0
          unfold genAssign at h
          gbind h with u1 t1 g1
          gbind h with u2 t2 g2
          gbind h with v t3 g3
          obtain ⟨hv, -⟩ := symOf_ok g3
          change ctx.env.syms[sym]? = some v at hv
          refine setVariable_local h ?_
          simp only [Wf.declares] at hd
          rw [← he, hv] at hd
          simpa using hd
      | none =>
          unfold genStmt atLine at h
          gbind h with u0 t0 g0
          have e0 := modify_ok g0
          unfold genDeclare at h
          gbind h with g1 t1 g2
          obtain ⟨hg1, ht1⟩ := get_ok g2
          gbind h with u2 t2 g3
          gbind h with v t3 g4
          obtain ⟨hv, -⟩ := symOf_ok g4
          refine setVariable_local h ?_
          simp only [Wf.declares] at hd
          rw [hg1, e0] at hv
          change (ctx.env.resolve s.scope nm).bind _ = _ at hv
          rw [hs] at hv
          rw [← he, hv] at hd
          simpa using hd
  | _ => cases hd

theorem stmts_slot {ctx : GenCtx} {W : Wf} (he : ctx.env = W.L.env) :
    ∀ (cs : List TStmt) {s s' : Gen}, okSs W cs = true → s.scope = W.scope →
      genStmts ctx cs s = .ok ((), s') → Dense s'.funcLocals → cs.any W.declares = true → s'.funcLocals ≠ [] := by
  intro cs
  induction cs with
  | nil => intro s s' _ _ _ _ h; cases h
  | cons c cs ih =>
      intro s s' hok hs h hd ha
      simp only [okSs, Bool.and_eq_true] at hok
      unfold genStmts at h
      gbind h with u1 t h1
      have ht := (fr_genStmt ctx { W with yields := W.yields && cs.isEmpty } he c hok.1 _ _ _ h1 hs).scope.trans hs
      simp only [List.any_cons, Bool.or_eq_true] at ha
      rcases ha with ha | ha
      · have h3 := declares_slot he hs h1 ha
        have h4 := (fr_genStmts ctx W he cs hok.2 _ _ _ h ht).locals hd
        intro q
        rw [q] at h4
        exact h3 (List.prefix_nil.1 h4)
      · exact ih hok.2 ht h hd ha

end Codegen

end Amanda

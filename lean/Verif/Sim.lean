import Verif.SimStmt

/-!
# The simulation

Generated code does what the source program says, for every amount of fuel.
-/

namespace Amanda

namespace Compiled

open Source Codegen

variable {F : Type} [FloatOps F]

section
variable {K : Link F} {a : Act F} {W : Wf} {lp : Loop} {s s' : Gen} {m : Mode} {vm vm' : VM F}
  {st : St F} {k : List (Val F)} {ip : Nat} {n : Nat}

omit [FloatOps F] in
/-- `gen_call`, once the symbol of the call is known. -/
theorem genCall_ok {callee args : G Unit} {c : Nat} {sym : SymId} {prom : Ty}
    (h : genCall a.cm.ctx callee args c sym prom s = .ok ((), s')) :
    ∃ f, a.cm.ctx.env.syms[sym]? = some f ∧
      (do args; callee; genCallOp a.cm.ctx f c prom) s = .ok ((), s') := by
  unfold genCall at h
  gbind h with u1 t1 e1
  gbind h with u2 t2 e2
  gbind h with f t3 e3
  obtain ⟨hf, rfl⟩ := symOf_ok e3
  exact ⟨f, hf, G.bind_ok.2 ⟨_, _, e1, G.bind_ok.2 ⟨_, _, e2, h⟩⟩⟩

theorem sim_call (ih : IH K n) {line : Nat} {callee : TExpr} {args : List TExpr} {sym : SymId} {prom : Ty}
    {u : Use} (C : Code K a W lp s s') (hok : okE W u (.call line callee args sym prom) = true)
    (hm : m ≠ .any → cleanEs args = true)
    (h : genCall a.cm.ctx (genExpr a.cm.ctx callee) (genExprs a.cm.ctx args) args.length sym prom s = .ok ((), s'))
    (H : Here K a st vm s.ip k) :
    Sim K a m lp vm k (Pushed K a s'.ip)
      (evalE K.cfg K.L (n + 1) (pos a W) (.call line callee args sym prom) st) := by
  obtain ⟨f, hf, h'⟩ := genCall_ok h
  rw [C.act.mod.env] at hf
  simp only [okE, Bool.and_eq_true] at hok
  obtain ⟨hc, hok⟩ := hok
  rw [C.wf.lang] at hok
  unfold evalE
  dsimp only
  cases hs : callShape K.L sym callee with
  | unknown => trivial
  | variant w =>
      rw [hs] at hok
      unfold callShape at hs
      rw [hf] at hs
      cases hk : f.kind <;> cases callee <;> simp [hk] at hs
      rename_i l p
      cases p with
      | none => simp at hs
      | some p =>
          simp at hs
          subst hs
          simp only [Wf.callee, decide_eq_true_eq] at hc
          exact sim_makeVariant ih C hc hk hok hm h' H
  | record name i =>
      rw [hs] at hok
      unfold callShape at hs
      rw [hf] at hs
      cases hk : f.kind <;> cases callee <;> simp [hk] at hs
      all_goals first | (obtain ⟨rfl, rfl⟩ := hs) | (rename_i p; cases p <;> simp at hs)
      · exact sim_makeRecord ih C hc (by simp [hk]) hok h' H
      · exact sim_makeRecord ih C hc (by simp [hk]) hok h' H
  | function name i =>
      rw [hs] at hok
      simp only [Bool.and_eq_true] at hok
      unfold callShape at hs
      rw [hf] at hs
      cases hk : f.kind <;> cases callee <;> simp [hk] at hs
      all_goals first | (obtain ⟨rfl, rfl⟩ := hs) | (rename_i p; cases p <;> simp at hs)
      · exact sim_function ih C hc (by simp [hk]) hok.1 hok.2 hm h' H
      · exact sim_function ih C hc (by simp [hk]) hok.1 hok.2 hm h' H

theorem sim_expr (hK : LinkOk K) (ih : IH K n) {u : Use} {e : TExpr} (C : Code K a W lp s s') (hok : okE W u e = true)
    (hm : m ≠ .any → cleanE e = true) (h : genExpr a.cm.ctx e s = .ok ((), s')) (H : Here K a st vm s.ip k) :
    Sim K a m lp vm k (ePost K a e s'.ip) (evalE K.cfg K.L (n + 1) (pos a W) e st) := by
  match e, hok, hm, h with
  | .const _ _ _, hok, hm, h =>
      unfold genExpr at h; unfold evalE
      obtain ⟨t, h1, c1, hip, -⟩ := C.atLine h
      exact sim_const c1 h1 (H.move hip.symm)
  | .fmtStr _ _, hok, hm, h =>
      unfold genExpr at h; unfold evalE
      obtain ⟨t, h1, c1, hip, -⟩ := C.atLine h
      exact sim_fmtStr ih c1 (by simpa [okE] using hok) (fun q => by simpa [cleanE] using hm q) h1 (H.move hip.symm)
  | .var _ _ _ _, hok, hm, h =>
      unfold genExpr at h; unfold evalE
      obtain ⟨t, h1, c1, hip, -⟩ := C.atLine h
      exact sim_var c1 (by simpa [okE] using hok) h1 (H.move hip.symm)
  | .converta _ _ _ _, hok, hm, h =>
      unfold genExpr at h; unfold evalE
      obtain ⟨t, h1, c1, hip, -⟩ := C.atLine h
      exact sim_converta ih c1 (by simpa [okE] using hok) (fun q => by simpa [cleanE] using hm q) h1 (H.move hip.symm)
  | .alvo _ _, hok, hm, h =>
      unfold genExpr at h; unfold evalE
      obtain ⟨t, h1, c1, hip, -⟩ := C.atLine h
      exact sim_alvo c1 (by simpa [okE] using hok) h1 (H.move hip.symm)
  | .bin _ op l r lty rty prom, hok, hm, h =>
      unfold genExpr at h; unfold evalE
      obtain ⟨t, h1, c1, hip, -⟩ := C.atLine h
      simp only [okE, Bool.and_eq_true, decide_eq_true_eq] at hok
      obtain ⟨⟨⟨o1, o2⟩, o3⟩, o4⟩ := hok
      have hm' : m ≠ .any → cleanE l = true := fun q => by have := hm q; simp [cleanE] at this; exact this.1
      unfold genBinop at h1
      rw [o1] at h1
      dsimp only
      cases hn : nuloTest op l r lty rty with
      | none =>
          rw [hn] at h1
          exact sim_operator ih c1 o2 o3 o4 hm' h1 (H.move hip.symm)
      | some p =>
          obtain ⟨b, neg⟩ := p
          rw [hn] at h1
          cases b with
          | true => exact sim_nullTest ih c1 o2 hm' h1 (H.move hip.symm)
          | false => exact sim_nullTest ih c1 o3 (fun _ => o4) h1 (H.move hip.symm)
  | .un _ _ _ _, hok, hm, h =>
      unfold genExpr at h; unfold evalE
      obtain ⟨t, h1, c1, hip, -⟩ := C.atLine h
      exact sim_un ih c1 (by simpa [okE] using hok) (fun q => by simpa [cleanE] using hm q) h1 (H.move hip.symm)
  | .assign _ _ _, hok, hm, h =>
      unfold genExpr at h; unfold evalE
      obtain ⟨t, h1, c1, hip, -⟩ := C.atLine h
      simp only [okE, Bool.and_eq_true] at hok
      exact sim_assign hK ih c1 hok.2 hok.1.2 (fun q => by simpa [cleanE] using hm q) h1 (H.move hip.symm)
  | .iguala _ _, hok, hm, h =>
      unfold genExpr at h; unfold evalE
      obtain ⟨t, h1, c1, hip, -⟩ := C.atLine h
      exact sim_iguala ih c1 (by simpa [okE] using hok) (fun q => by simpa [cleanE] using hm q) h1 (H.move hip.symm)
  | .call _ _ _ _ _, hok, hm, h =>
      unfold genExpr at h
      obtain ⟨t, h1, c1, hip, -⟩ := C.atLine h
      exact sim_call ih c1 hok (fun q => by simpa [cleanE] using hm q) h1 (H.move hip.symm)
  | .list _ _, hok, hm, h =>
      unfold genExpr at h; unfold evalE
      obtain ⟨t, h1, c1, hip, -⟩ := C.atLine h
      exact sim_list ih c1 (by simpa [okE] using hok) (fun q => by simpa [cleanE] using hm q) h1 (H.move hip.symm)
  | .named _ _ _, hok, hm, h => unfold evalE; trivial
  | .get _ _ _ inSet, hok, hm, h =>
      unfold genExpr at h; unfold evalE
      obtain ⟨t, h1, c1, hip, -⟩ := C.atLine h
      simp only [okE, Bool.and_eq_true, Bool.not_eq_true'] at hok
      obtain ⟨rfl, hok⟩ := hok
      exact sim_get ih c1 hok (fun q => by simpa [cleanE] using hm q) h1 (H.move hip.symm)
  | .index _ _ _, hok, hm, h =>
      unfold genExpr at h; unfold evalE
      obtain ⟨t, h1, c1, hip, -⟩ := C.atLine h
      simp only [okE, Bool.and_eq_true] at hok
      exact sim_index ih c1 hok.1.1 hok.1.2 hok.2 (fun q => by have := hm q; simp [cleanE] at this; exact this.1) h1
        (H.move hip.symm)
  | .indexSet _ _ _ _, hok, hm, h =>
      unfold genExpr at h; unfold evalE
      obtain ⟨t, h1, c1, hip, -⟩ := C.atLine h
      simp only [okE, Bool.and_eq_true] at hok
      obtain ⟨⟨⟨⟨⟨o0, o1⟩, o2⟩, o3⟩, o4⟩, o5⟩ := hok
      exact sim_idxSet ih c1 o1 o2 o3 o4 o5 (fun q => by have := hm q; simp [cleanE] at this; exact this.1.1) h1
        (H.move hip.symm)
  | .set _ (.get _ _ _ inSet) _, hok, hm, h =>
      unfold genExpr at h; unfold evalE
      obtain ⟨t, h1, c1, hip, -⟩ := C.atLine h
      simp only [okE, Bool.and_eq_true] at hok
      obtain ⟨⟨⟨⟨o0, rfl⟩, o2⟩, o3⟩, o4⟩ := hok
      exact sim_set ih c1 o2 o3 o4 (fun q => by have := hm q; simp [cleanE] at this; exact this.1) h1
        (H.move hip.symm)
  | .set _ e _, hok, hm, h =>
      cases e with
      | get _ _ _ inSet =>
          unfold genExpr at h; unfold evalE
          obtain ⟨t, h1, c1, hip, -⟩ := C.atLine h
          simp only [okE, Bool.and_eq_true] at hok
          obtain ⟨⟨⟨⟨o0, rfl⟩, o2⟩, o3⟩, o4⟩ := hok
          exact sim_set ih c1 o2 o3 o4 (fun q => by have := hm q; simp [cleanE] at this; exact this.1) h1
            (H.move hip.symm)
      | _ => simp [okE] at hok
  | .unwrap _ _ none, hok, hm, h =>
      unfold genExpr genOpt at h; unfold evalE
      obtain ⟨t, h1, c1, hip, -⟩ := C.atLine h
      exact sim_unwrap ih c1 (by simpa [okE] using hok) (fun q => by simpa [cleanE] using hm q) h1 (H.move hip.symm)
  | .unwrap _ _ (some _), hok, hm, h =>
      unfold genExpr genOpt at h; unfold evalE
      obtain ⟨t, h1, c1, hip, -⟩ := C.atLine h
      simp only [okE, Bool.and_eq_true] at hok
      exact sim_unwrapOr ih c1 hok.1.1 hok.1.2 hok.2 (fun q => by have := hm q; simp [cleanE] at this; exact this.1) h1
        (H.move hip.symm)
  | .path _ none, hok, hm, h => unfold evalE; trivial
  | .path _ (some v), hok, hm, h =>
      unfold genExpr at h; unfold evalE
      obtain ⟨t, h1, c1, hip, -⟩ := C.atLine h
      dsimp only
      split
      · rename_i hv
        exact sim_genPath c1 h1 (H.move hip.symm) hv
      · trivial

theorem sim_zero : IH K 0 where
  e := by intros; unfold evalE; trivial
  es := by intros; unfold evalEs; trivial
  fields := by intros; unfold evalFields; trivial
  d := by intros; unfold evalD; trivial
  cases := by intros; unfold evalCases; trivial
  s := by intros; unfold evalS; trivial
  ss := by intros; unfold evalSs; trivial
  b := by intros; unfold evalB; trivial
  elses := by intros; unfold evalElses; trivial
  while' := by intros; unfold evalWhile; trivial
  para := by intros; unfold evalPara; trivial
  paraStep := by intros; unfold evalParaStep; trivial
  inc := by intros; unfold evalInc; trivial

theorem sim_succ (hK : LinkOk K) (ih : IH K n) : IH K (n + 1) where
  e C hok hm h H := sim_expr hK ih C hok hm h H
  es {a W lp s s' m st vm k es} C hok hm h H := by
    cases es with
    | nil =>
        unfold genExprs at h
        obtain ⟨-, rfl⟩ := pure_ok h
        unfold evalEs
        exact Sim.done (.refl _) ⟨by simpa using H, rfl⟩
    | cons e es => unfold evalEs; exact sim_exprs ih C hok hm h H
  fields {a W lp s s' st vm k es} C hok h H := by
    match es, hok, h with
    | [], hok, h =>
        unfold genExprs at h
        obtain ⟨-, rfl⟩ := pure_ok h
        unfold evalFields
        exact Sim.done (.refl _) ⟨by simpa [fieldStack] using H, rfl⟩
    | .named l nm e :: es, hok, h => unfold evalFields; exact sim_fields ih C hok h H
    | e :: es, hok, h =>
        cases e with
        | named l nm e => unfold evalFields; exact sim_fields ih C hok h H
        | _ => simp [okFields] at hok
  d C hok hm h H := sim_decision hK ih C hok hm h H
  cases C hc hcs hm h hend H := sim_cases hK ih C hc hcs hm h hend H
  s C hok hm h H := sim_stmt hK ih C hok hm h H
  ss C hok hm h H := sim_stmts ih C hok hm h H
  b C hok hm h H := sim_block ih C hok hm h H
  elses C h1 h2 h3 h4 h hend H := sim_elses ih C h1 h2 h3 h4 h hend H
  while' w h1 h2 H := sim_while ih w h1 h2 H
  para w h1 h2 H := sim_para ih w h1 h2 H
  paraStep w h1 h2 H := sim_paraStep hK ih w h1 h2 H
  inc C h1 h2 h H := sim_inc ih C h1 h2 h H

/-- Generated code does what the source program says. -/
theorem simulates (hK : LinkOk K) : ∀ n, IH K n
  | 0 => sim_zero
  | n + 1 => sim_succ hK (simulates hK n)

end

end Compiled

end Amanda

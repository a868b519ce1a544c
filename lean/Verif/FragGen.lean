import Verif.FragOk
import Verif.GenCalm

/-!
# Accepted programs of `Verif.Frag` compile, unless they are too big
-/

namespace Amanda.Check

open Source Imports Codegen

section
variable {F : Type} [FloatOps F] {X : World} {L : Lang}

omit [FloatOps F] in
theorem sites_of {ctx : GenCtx} (hf : Inv X X.sf) (hL : X.Lang L) (he : L.env = ctx.env) (hm : X.mod = ctx.modPath)
    (hp : ctx.modules = [ctx.builtinPath]) (hh : X.home = ctx.builtinPath) : Sites ctx L X.table := by
  refine ⟨he, fun i t ht => ?_, fun i f hfn => ?_, fun i m hm' => ?_, fun _ => by rw [hp]; simp [indexIn]⟩
  · obtain ⟨hb, x, u, hx, -⟩ := vty_some ht
    refine ⟨x.toSym, by rw [← he, lang_syms hL, hx]; rfl, ?_⟩
    rw [← hm]
    exact (hf.syms i x hb hx).1
  · obtain ⟨hb, x, u, ps, hx, hxb⟩ := fn_some hfn
    obtain ⟨hmod, -, ⟨_, h, _⟩ | ⟨_, _, _, _, _, hg, _⟩⟩ := hf.syms i x hb hx
    · rw [hxb] at h; cases h
    · exact ⟨x.toSym, by rw [← he, lang_syms hL, hx]; rfl, by rw [← hm]; exact hmod, hg⟩
  · obtain ⟨x, hx, hg, hp', _⟩ := lib_some hf hm'
    refine ⟨x.toSym, by rw [← he, lang_syms hL, hx]; rfl, hg, fun _ => ?_⟩
    show (indexIn x.modPath _).isSome = true
    rw [hp', hh, hp]
    simp [indexIn]

/-- The code of a function. -/
theorem calm_decl {ctx : GenCtx} (hS : Sites ctx L X.table) (hf : Inv X X.sf) (hL : X.Lang L) (hs : X.K.strict = true)
    {line : Nat} {d : SymId × ScopeId × List TStmt} (hg : FnGood F X L d) {lp : Bool} {n : Nat} {Γ : List SymId} :
    Calm ctx.env (some X.g) lp n Γ (genStmt ctx (.func line d.1 (.mk d.2.1 d.2.2))) Γ := by
  obtain ⟨hb, x, t, ps, hx, hxb, -, ⟨tidy, Γ', htyped, -⟩, -, -, hwithin⟩ := hg
  obtain ⟨hmod, hbn, ⟨_, h, _⟩ | ⟨t', ps', h, _, _, hglob, hps⟩⟩ := hf.syms d.1 x hb hx
  · rw [hxb] at h; cases h
  rw [hxb] at h
  cases h
  have hsym : ∀ (i : Nat) y, X.sf.syms[i]? = some y → ctx.env.syms[i]? = some y.toSym := by
    intro i y hy
    rw [← hS.env, lang_syms hL, hy]
    rfl
  have hparams : x.toSym.params = ps.map (·.2) := by simp [CSym.toSym, CSym.params, hxb]
  simp only [genStmt]
  refine calm_atLine (calm_func hS (Δ := ps.map (·.2) ++ X.needs d.1) (hsym _ _ hx) hbn ?_ ?_ hwithin fun n =>
    calm_stmts hS (m := ⟨false, tidy, X.K.strict, false⟩) hs (fun _ _ _ _ h => by cases h) htyped)
  · intro p hp
    rw [hparams] at hp
    obtain ⟨q, hq, rfl⟩ := List.mem_map.mp hp
    obtain ⟨-, y, -, hy, -⟩ := hps q hq
    exact ⟨y.toSym, hsym _ _ hy⟩
  · intro i hi
    rcases List.mem_append.mp hi with hi | hi
    · exact .inl (by rw [hparams]; exact hi)
    · refine .inr fun y hy => ?_
      unfold World.needs at hi
      simp only [List.mem_filter, Bool.and_eq_true, decide_eq_true_eq] at hi
      obtain ⟨-, hib, hgv⟩ := hi
      unfold isGlobalVar at hgv
      cases hz : X.sf.syms[i]? with
      | none => rw [hz] at hgv; cases hgv
      | some z =>
          rw [hz] at hgv
          simp only [Bool.and_eq_true] at hgv
          rw [hsym _ _ hz] at hy
          cases hy
          exact hgv.1

/-- A program the checker accepts compiles, unless it is too big for the format of the images. -/
theorem compile_of_facts {K : Frag} {imports : List (Path × Bool)} {file : Path} {P : Prog} (h : Facts F K imports file X P)
    (hs : K.strict = true) (hi : imports.map (fun i => pstr i.1) = [P.builtinPath]) {e : PyErr}
    (he : compileProgram P.env P.builtinPath P.main P.imports = .error e) : TooBig e := by
  obtain ⟨ts, Γ', hmain, hty, hgood, -, -⟩ := h.statements
  have hf := h.inv
  have hL := h.lang
  have hKs : X.K.strict = true := by rw [h.frag]; exact hs
  have hS : Sites { env := P.env, modPath := P.main.path, builtinPath := P.builtinPath, modules := P.imports.map ModuleIn.path } P.lang X.table :=
    sites_of hf hL rfl (by rw [h.mod, hmain]) (by show P.imports.map ModuleIn.path = _; rw [h.order, hi])
      (by have := h.home; rw [hi] at this; exact List.mem_singleton.mp this)
  have hlt : X.g < X.sf.scopes.length := Nat.lt_of_lt_of_le hf.gsb hf.sbase
  have htab : P.env.scopes[P.main.scope]? = some X.sf.scopes[X.g] := by
    rw [hmain]
    have : P.lang.env.scopes = X.sf.scopes := by rw [hL]
    show P.lang.env.scopes[X.g]? = _
    rw [this]
    exact List.getElem?_eq_getElem hlt
  refine compile_error (fun m hm => (h.imports m hm).1) (by rw [hmain]) (calm_module (Γ' := Γ') htab ?_ ?_) he
  · intro p hp
    have hb := hf.bound X.g X.sf.scopes[X.g] p.2 (List.getElem?_eq_getElem hlt) (List.mem_map_of_mem hp)
    refine ⟨X.sf.syms[p.2].toSym, ?_⟩
    show P.lang.env.syms[p.2]? = _
    rw [lang_syms hL, List.getElem?_eq_getElem hb]
    rfl
  · rw [hmain] at hS ⊢
    refine calm_stmts hS (m := X.K.top) hKs ?_ hty
    intro line sym b hb _ n Γ
    obtain ⟨scope, body⟩ := b
    exact calm_decl (d := (sym, scope, body)) hS hf hL hKs (hgood _ (mem_funcDecls hb))

end

end Amanda.Check

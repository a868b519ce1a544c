import Verif.FragProg
import Verif.Props.Correctness
import Mathlib.Data.List.Nodup
import Std.Data.String.ToNat

/-!
# Accepted programs of `Verif.Frag` meet the conditions of C47

`Prog.Ok` says for which programs the generated code is claimed to be right.  Here it is derived from the
typing that `Verif.FragProg` finds, for programs of the strict part of `Verif.Frag`.
-/

namespace Amanda.Source

open Codegen

section
variable {F : Type} [FloatOps F] {L : Lang} {T : Table}

/-! ## Clean expressions and statements -/

mutual
theorem te_clean {u : Use} {Γ : List SymId} {sc : Option ScopeId} {e : TExpr} {t : Ty} : TE F L T u Γ sc e t → cleanE e = true
  | .const .. => by simp [cleanE]
  | .fmtStr h => by simp only [cleanE, tes_clean h]
  | .var .. => by simp [cleanE]
  | .converta h _ => by simp only [cleanE, te_clean h]
  | .bin h h' _ _ _ _ _ _ _ => by simp only [cleanE, te_clean h, te_clean h', Bool.and_true]
  | .un h _ _ _ _ => by simp only [cleanE, te_clean h]
  | .assign _ _ _ h => by simp only [cleanE, te_clean h]
  | .call _ _ _ _ _ _ h _ _ => by simp only [cleanE, tes_clean h]
  | .lib _ _ _ _ _ _ h _ _ => by simp only [cleanE, tes_clean h]
  | .list _ h _ => by simp only [cleanE, tes_clean h]
  | .index h h' => by simp only [cleanE, te_clean h, te_clean h', Bool.and_true]
  | .charAt h h' => by simp only [cleanE, te_clean h, te_clean h', Bool.and_true]
  | .indexSet h h' h'' => by simp only [cleanE, te_clean h, te_clean h', te_clean h'', Bool.and_true]
theorem tes_clean {Γ : List SymId} {sc : Option ScopeId} {es : List TExpr} {ts : List Ty} : TEs F L T Γ sc es ts → cleanEs es = true
  | .nil => by simp [cleanEs]
  | .cons h h' => by simp only [cleanEs, te_clean h, tes_clean h', Bool.and_true]
end

mutual
theorem ts_clean {ret : Option Ty} {m : Mode} {Γ Γ' : List SymId} {sc : Option ScopeId} {s : TStmt} (hm : m.tidy = true) :
    TS F L T ret m Γ sc s Γ' → cleanS true s = true
  | .expr (e := e) h hc => by
      have hc := hc hm
      have := te_clean h
      cases e with
      | assign l i r => simpa only [cleanE, cleanS] using this
      | indexSet l t i v => simpa only [cleanE, cleanS] using this
      | _ => cases hc
  | .decl _ _ h => by simp only [cleanS, te_clean h]
  | .default .. => by simp [cleanS]
  | .loopCtl _ => by simp [cleanS]
  | .retorna h => by simp only [cleanS, te_clean h, Bool.and_true]
  | .retornaVazio => by simp [cleanS]
  | .mostra h => by simp only [cleanS, te_clean h]
  | .se h _ _ hb he => by
      obtain ⟨h1, h2⟩ := telses_clean hm he
      simp only [cleanS, te_clean h, cleanB, tss_clean (by exact hm) hb, h1, h2, Bool.and_true]
  | .enquanto h _ _ hb => by simp only [cleanS, te_clean h, cleanB, tss_clean (by exact hm) hb, Bool.and_true]
  | .para (inc := inc) _ _ _ h _ _ _ h' hi hb => by
      cases inc with
      | none => simp only [cleanS, te_clean h, te_clean h', cleanB, tss_clean (by exact hm) hb, Bool.and_true]
      | some i =>
          cases hi with
          | some _ h'' => simp only [cleanS, te_clean h, te_clean h', te_clean h'', cleanB, tss_clean (by exact hm) hb, Bool.and_true]
  | .func _ => by simp [cleanS]
  | .noop => by simp [cleanS]
theorem tss_clean {ret : Option Ty} {m : Mode} {Γ Γ' : List SymId} {sc : Option ScopeId} {ss : List TStmt} (hm : m.tidy = true) :
    TSs F L T ret m Γ sc ss Γ' → cleanSs true ss = true
  | .nil => by simp [cleanSs]
  | .cons h h' => by simp only [cleanSs, ts_clean hm h, tss_clean hm h', Bool.and_true]
theorem telses_clean {ret : Option Ty} {m : Mode} {Γ : List SymId} {sc : Option ScopeId} {es : List TElse} {e : Option TBlock}
    (hm : m.tidy = true) : TElses F L T ret m Γ sc es e → cleanElses true es = true ∧ cleanOptB true e = true
  | .nil => by simp [cleanElses, cleanOptB]
  | .senao _ _ hb => by simp only [cleanElses, cleanOptB, cleanB, tss_clean (by exact hm) hb, and_self]
  | .cons h _ _ hb hr => by
      obtain ⟨h1, h2⟩ := telses_clean hm hr
      simp only [cleanElses, te_clean h, cleanB, tss_clean (by exact hm) hb, h1, h2, Bool.and_true, and_self]
end

/-! ## Where variables belong -/

/-- What the tables say about variables and functions of the module. -/
structure Homes (L : Lang) (T : Table) (mod : String) (home : SymId → Option ScopeId) : Prop where
  var : ∀ i t k, T.vty i = some t → i ∈ L.env.ids k → ∃ s, L.env.syms[i]? = some s ∧ s.modPath = mod ∧ home i = some k ∧
    (s.isGlobal = true → L.funs mod s.name = none)
  fn : ∀ i f, T.fn i = some f → ∃ s, L.env.syms[i]? = some s ∧ s.isGlobal = true
  lib : ∀ i n, T.lib i = some n → ∃ s, L.env.syms[i]? = some s ∧ s.isGlobal = true
  block : ∀ i k, home i = some k → i ∈ L.env.ids k

/-- A place of the program where the variables may be used. -/
structure Fits (L : Lang) (mod : String) (home : SymId → Option ScopeId) (W : Wf) (sc : Option ScopeId) (Γ : List SymId) : Prop where
  lang : W.L = L
  mod : W.mod = mod
  home : W.home = home
  scope : W.scope = sc
  head : W.chain.head? = W.scope
  calls : W.calls = true
  vars : ∀ i ∈ Γ, W.canWrite i = true

variable {mod : String} {home : SymId → Option ScopeId} {W : Wf} {sc : Option ScopeId} {Γ : List SymId}

omit [FloatOps F] in
theorem canRead_of {i : SymId} (h : W.canWrite i = true) : W.canRead i = true := by
  unfold Wf.canWrite at h
  unfold Wf.canRead
  split at h
  · cases h
  · rename_i s hs
    split at h
    · rename_i hg; simp [hg]
    · simp [h]

omit [FloatOps F] in
theorem canWrite_more {W' : Wf} {k : ScopeId} {i : SymId} (h : W.canWrite i = true) (h1 : W'.L = W.L) (h2 : W'.mod = W.mod)
    (h3 : W'.home = W.home) (h4 : W'.chain = k :: W.chain) : W'.canWrite i = true := by
  unfold Wf.canWrite at h ⊢
  rw [h1]
  cases hs : W.L.env.syms[i]? with
  | none => rw [hs] at h; cases h
  | some s =>
      rw [hs] at h
      simp only at h ⊢
      split at h
      · rename_i hg
        rw [if_pos hg, h2]
        exact h
      · rename_i hg
        rw [if_neg hg]
        unfold Wf.isLocal at h ⊢
        rw [h2, h3, h4]
        simp only [Bool.and_eq_true] at h ⊢
        refine ⟨h.1, ?_⟩
        cases hh : W.home i with
        | none => rw [hh] at h; simp at h
        | some c =>
            rw [hh] at h
            have := h.2
            simp only [Option.any_some, List.contains_iff_mem] at this ⊢
            exact List.mem_cons_of_mem _ this

omit [FloatOps F] in
/-- In a block. -/
theorem Fits.inner (h : Fits L mod home W sc Γ) {W' : Wf} {k : ScopeId} (h1 : W'.L = W.L) (h2 : W'.mod = W.mod)
    (h3 : W'.home = W.home) (h4 : W'.chain = k :: W.chain) (h5 : W'.scope = some k) (h6 : W'.calls = W.calls) :
    Fits L mod home W' (some k) Γ :=
  ⟨h1.trans h.lang, h2.trans h.mod, h3.trans h.home, h5, by rw [h4, h5]; rfl, h6.trans h.calls,
    fun i hi => canWrite_more (h.vars i hi) h1 h2 h3 h4⟩

omit [FloatOps F] in
theorem Fits.yields (h : Fits L mod home W sc Γ) (y : Bool) : Fits L mod home { W with yields := y } sc Γ :=
  ⟨h.lang, h.mod, h.home, h.scope, h.head, h.calls, fun i hi => h.vars i hi⟩

omit [FloatOps F] in
/-- A variable of the scope. -/
theorem Fits.here (hH : Homes L T mod home) (h : Fits L mod home W sc Γ) {i : SymId} {t : Ty} (hd : Declared L sc i)
    (ht : T.vty i = some t) : W.canWrite i = true := by
  obtain ⟨k, rfl, hk⟩ := hd
  obtain ⟨s, hs, hm, hh, hf⟩ := hH.var i t k ht hk
  unfold Wf.canWrite
  rw [h.lang, hs]
  simp only
  split
  · rename_i hg
    rw [h.mod, hm, hf hg]
    simp
  · rename_i hg
    unfold Wf.isLocal
    rw [h.mod, hm, h.home, hh]
    have hmem : k ∈ W.chain := List.mem_of_mem_head? (by rw [h.head, h.scope]; rfl)
    simp only [Bool.not_eq_true] at hg
    simp [hg, hmem]

omit [FloatOps F] in
theorem Fits.declare (hH : Homes L T mod home) (h : Fits L mod home W sc Γ) {i : SymId} {t : Ty} (hd : Declared L sc i)
    (ht : T.vty i = some t) : Fits L mod home W sc (i :: Γ) :=
  ⟨h.lang, h.mod, h.home, h.scope, h.head, h.calls, fun j hj => by
    rcases List.mem_cons.mp hj with rfl | hj
    · exact h.here hH hd ht
    · exact h.vars j hj⟩

omit [FloatOps F] in
theorem Fits.isBlock (hH : Homes L T mod home) (h : Fits L mod home W sc Γ) {k : ScopeId} (hw : Within L k sc) : W.block k = true := by
  unfold Wf.block Wf.inside
  simp only [Bool.and_eq_true, decide_eq_true_eq, List.all_eq_true, Bool.or_eq_true, List.contains_iff_mem]
  refine ⟨⟨by rw [h.lang, h.scope]; exact hw, h.head⟩, fun i _ => ?_⟩
  rw [h.home, h.lang]
  by_cases hh : home i = some k
  · exact .inr (hH.block i k hh)
  · exact .inl hh

/-! ## Expressions -/

mutual
theorem te_ok (hH : Homes L T mod home) (hW : Fits L mod home W sc Γ) {u : Use} {e : TExpr} {t : Ty} :
    TE F L T u Γ sc e t → okE W u e = true
  | .const _ _ _ h _ => by simp only [okE, h]
  | .fmtStr h => by simp only [okE, tes_ok hH hW h]
  | .var i hi _ _ => by
      simp only [okE, Wf.nameSym, Option.orElse_some, optAll]
      exact canRead_of (hW.vars i hi)
  | .converta h _ => by simp only [okE, te_ok hH hW h]
  | .bin h h' _ _ h1 h2 _ _ _ => by simp [okE, te_ok hH hW h, te_ok hH hW h', te_clean h', h1, h2]
  | .un h _ _ _ _ => by simp only [okE, te_ok hH hW h]
  | .assign hu hi _ h => by simp [okE, te_ok hH hW h, hu, hW.vars _ hi]
  | .call (name := name) (id := id) (cline := cl) (cprom := cp) (sym := sym) i f hk hp hid hf h _ _ => by
      have hn : W.nameSym name id = some i := by
        unfold Wf.nameSym
        rw [hW.lang, hW.scope]
        exact hid
      obtain ⟨s, hs, hg⟩ := hH.fn i f hf
      have hshape : callShape W.L sym (.var cl name id cp) = .function name id := by
        unfold callShape
        rw [hW.lang, hk]
      simp only [okE, Wf.callee, hn, optAll, hshape, Wf.mayCall, hW.calls, Bool.true_or, tes_ok hH hW h, Bool.and_true]
      rw [hW.lang, hs]
      simp [hg, hp]
  | .lib (name := name) (id := id) (cline := cl) (cprom := cp) (sym := sym) i f hk hp hid hf h _ _ => by
      have hn : W.nameSym name id = some i := by
        unfold Wf.nameSym
        rw [hW.lang, hW.scope]
        exact hid
      obtain ⟨s, hs, hg⟩ := hH.lib i f hf
      have hshape : callShape W.L sym (.var cl name id cp) = .function name id := by
        unfold callShape
        rw [hW.lang, hk]
      simp only [okE, Wf.callee, hn, optAll, hshape, Wf.mayCall, hW.calls, Bool.true_or, tes_ok hH hW h, Bool.and_true]
      rw [hW.lang, hs]
      simp [hg, hp]
  | .list _ h _ => by simp only [okE, tes_ok hH hW h]
  | .index h h' => by simp only [okE, te_ok hH hW h, te_ok hH hW h', te_clean h', Bool.and_true]
  | .charAt h h' => by simp only [okE, te_ok hH hW h, te_ok hH hW h', te_clean h', Bool.and_true]
  | .indexSet h h' h'' => by simp [okE, te_ok hH hW h, te_ok hH hW h', te_clean h', te_ok hH hW h'', te_clean h'']
theorem tes_ok (hH : Homes L T mod home) (hW : Fits L mod home W sc Γ) {es : List TExpr} {ts : List Ty} :
    TEs F L T Γ sc es ts → okEs W es = true
  | .nil => by simp [okEs]
  | .cons h h' => by simp only [okEs, te_ok hH hW h, tes_ok hH hW h', tes_clean h', Bool.and_true]
end

/-! ## Statements -/

/-- What may stand in a place. -/
structure Allows (W : Wf) (m : Mode) : Prop where
  strict : m.strict = true
  loop : m.loop = true → W.inLoop = true

mutual
theorem ts_ok (hH : Homes L T mod home) {W : Wf} {sc : Option ScopeId} {Γ Γ' : List SymId} {m : Mode} {ret : Option Ty} {s : TStmt}
    (hW : Fits L mod home W sc Γ) (hm : Allows W m)
    (hf : ∀ line sym b, s = .func line sym b → m.top = true → okS W s = true) :
    TS F L T ret m Γ sc s Γ' → okS W s = true ∧ Fits L mod home W sc Γ'
  | .expr h _ => ⟨by simp only [okS, te_ok hH hW h], hW⟩
  | .decl ht hd h => ⟨by simp only [okS, te_ok hH hW h, hW.here hH hd ht, Bool.and_true], hW.declare hH hd ht⟩
  | .default i v hr hd ht _ _ => ⟨by simp only [okS, hW.lang, hW.scope, hr, optAll, hW.here hH hd ht], hW.declare hH hd ht⟩
  | .loopCtl h => ⟨by simp only [okS, hm.loop h], hW⟩
  | .retorna h => ⟨by simp only [okS, te_ok hH hW h], hW⟩
  | .retornaVazio => ⟨by simp only [okS], hW⟩
  | .mostra h => ⟨by simp only [okS, te_ok hH hW h], hW⟩
  | .se (s := k) h _ hw hb he => by
      obtain ⟨h1, h2⟩ := telses_ok hH hW hm he
      have h3 := tss_ok hH (W := W.enter k) (m := m.block) (hW.inner rfl rfl rfl rfl rfl rfl) ⟨hm.strict, hm.loop⟩
        (fun _ _ _ _ h => by cases h) hb
      exact ⟨by simp only [okS, te_ok hH hW h, okB, hW.isBlock hH hw, h3, h1, h2, Bool.and_true], hW⟩
  | .enquanto (s := k) h _ hw hb => by
      have h3 := tss_ok hH (W := W.loopIn k) (m := m.loopIn) (hW.inner rfl rfl rfl rfl rfl rfl) ⟨hm.strict, fun _ => rfl⟩
        (fun _ _ _ _ h => by cases h) hb
      have h4 := te_ok hH (W := W.paraIn k) (hW.inner rfl rfl rfl rfl rfl rfl) h
      exact ⟨by simp only [okS, h4, hW.isBlock hH hw, h3, Bool.and_true], hW⟩
  | .para (name := name) (s := k) (inc := inc) i _ hw h hr hd ht h' hi hb => by
      have hE : Fits L mod home (W.enter k) (some k) Γ := hW.inner rfl rfl rfl rfl rfl rfl
      have hE' := hE.declare hH hd ht
      have hc := hE.here hH hd ht
      have hP : Fits L mod home (W.paraIn k) (some k) Γ := hW.inner rfl rfl rfl rfl rfl rfl
      have h3 := tss_ok hH (W := W.paraIn k) (m := m.paraIn) (hP.declare hH hd ht) ⟨hm.strict, fun h => by
        simp [hm.strict] at h⟩ (fun _ _ _ _ h => by cases h) hb
      refine ⟨?_, hW⟩
      have hr' : W.L.env.resolve (some k) name = some i := by rw [hW.lang]; exact hr
      cases inc with
      | none =>
          simp only [okS, hW.isBlock hH hw, te_ok hH hE h, te_ok hH hE' h', te_clean h', hr', optAll, hc, canRead_of hc, h3, Bool.and_true]
      | some e =>
          cases hi with
          | some _ h'' =>
              simp only [okS, hW.isBlock hH hw, te_ok hH hE h, te_ok hH hE' h', te_clean h', te_ok hH hE' h'', hr', optAll, hc,
                canRead_of hc, h3, Bool.and_true]
  | .func h => ⟨hf _ _ _ rfl h, hW⟩
  | .noop => ⟨by simp only [okS], hW⟩
theorem tss_ok (hH : Homes L T mod home) {W : Wf} {sc : Option ScopeId} {Γ Γ' : List SymId} {m : Mode} {ret : Option Ty} {ss : List TStmt}
    (hW : Fits L mod home W sc Γ) (hm : Allows W m)
    (hf : ∀ line sym b, .func line sym b ∈ ss → m.top = true → ∀ y, okS { W with yields := y } (.func line sym b) = true) :
    TSs F L T ret m Γ sc ss Γ' → okSs W ss = true
  | .nil => by simp [okSs]
  | .cons (s := s) (ss := rest) h h' => by
      obtain ⟨h1, h2⟩ := ts_ok hH (hW.yields (W.yields && rest.isEmpty)) ⟨hm.strict, hm.loop⟩
        (fun l i b e ht => by subst e; exact hf l i b (by simp) ht _) h
      have h3 := tss_ok hH (W := W) ⟨h2.lang, h2.mod, h2.home, h2.scope, h2.head, h2.calls, h2.vars⟩ hm
        (fun l i b hb => hf l i b (by simp [hb])) h'
      simp only [okSs, h1, h3, Bool.and_true]
theorem telses_ok (hH : Homes L T mod home) {W : Wf} {sc : Option ScopeId} {Γ : List SymId} {m : Mode} {ret : Option Ty} {es : List TElse}
    {e : Option TBlock} (hW : Fits L mod home W sc Γ) (hm : Allows W m) :
    TElses F L T ret m Γ sc es e → okElses W es = true ∧ okOptB W e = true
  | .nil => by simp [okElses, okOptB]
  | .senao (s := k) _ hw hb => by
      have h3 := tss_ok hH (W := W.enter k) (m := m.block) (hW.inner rfl rfl rfl rfl rfl rfl) ⟨hm.strict, hm.loop⟩
        (fun _ _ _ _ h => by cases h) hb
      simp only [okElses, okOptB, okB, hW.isBlock hH hw, h3, Bool.and_true, and_self]
  | .cons (s := k) h _ hw hb hr => by
      obtain ⟨h1, h2⟩ := telses_ok hH hW hm hr
      have h3 := tss_ok hH (W := W.enter k) (m := m.block) (hW.inner rfl rfl rfl rfl rfl rfl) ⟨hm.strict, hm.loop⟩
        (fun _ _ _ _ h => by cases h) hb
      simp only [okElses, te_ok hH hW h, okB, hW.isBlock hH hw, h3, h1, h2, Bool.and_true, and_self]
end

/-- A body that declares a variable. -/
theorem tss_declares {W : Wf} (hL : W.L = L) {k : ScopeId} (hsc : W.scope = some k)
    (hl : ∀ i t, T.vty i = some t → i ∈ L.env.ids k → (L.env.syms[i]?).any (!·.isGlobal) = true) :
    ∀ {ret : Option Ty} {m : Mode} {ss : List TStmt} {Γ Γ' : List SymId}, TSs F L T ret m Γ (some k) ss Γ' →
      ss.any Check.isVar = true → ss.any W.declares = true
  | _, _, [], _, _, _, h => by cases h
  | _, _, s :: ss, _, _, .cons h h', hv => by
      rw [List.any_cons, Bool.or_eq_true] at hv ⊢
      rcases hv with hv | hv
      · refine .inl ?_
        cases h with
        | decl ht hd _ =>
            obtain ⟨k', e, hk⟩ := hd
            cases e
            simp only [Wf.declares, hL]
            exact hl _ _ ht hk
        | default i v hr hd ht _ _ =>
            obtain ⟨k', e, hk⟩ := hd
            cases e
            simp only [Wf.declares, hL, hsc, hr, Option.bind_some]
            exact hl _ _ ht hk
        | _ => simp [Check.isVar] at hv
      · exact .inr (tss_declares hL hsc hl h' hv)

end

end Amanda.Source

namespace Amanda.Check

open Source Imports Codegen

section
variable {F : Type} [FloatOps F] {X : World} {L : Lang}

/-! ## The tables in the end -/

omit [FloatOps F] in
theorem vty_some {i : SymId} {u : Ty} (hu : X.vty i = some u) : X.b ≤ i ∧ ∃ x t, X.sf.syms[i]? = some x ∧ x.body = .var t := by
  unfold World.vty at hu
  split at hu
  · rename_i hb
    refine ⟨hb, ?_⟩
    cases hx : X.sf.syms[i]? with
    | none => rw [hx] at hu; cases hu
    | some x =>
        rw [hx] at hu
        simp only [Option.map_some] at hu
        cases hxb : x.body with
        | var t => exact ⟨x, t, rfl, hxb⟩
        | _ => rw [hxb] at hu; cases hu
  · cases hu

omit [FloatOps F] in
theorem fn_some {i : SymId} {f : FnTy} (hu : X.fn i = some f) : X.b ≤ i ∧ ∃ x t ps, X.sf.syms[i]? = some x ∧ x.body = .func t ps := by
  unfold World.fn at hu
  split at hu
  · rename_i hb
    refine ⟨hb, ?_⟩
    cases hx : X.sf.syms[i]? with
    | none => rw [hx] at hu; cases hu
    | some x =>
        rw [hx] at hu
        simp only [Option.map_some] at hu
        cases hxb : x.body with
        | func t ps => exact ⟨x, t, ps, rfl, hxb⟩
        | _ => rw [hxb] at hu; cases hu
  · cases hu

omit [FloatOps F] in
theorem lang_syms (hL : X.Lang L) (i : Nat) : L.env.syms[i]? = (X.sf.syms[i]?).map CSym.toSym := by
  rw [hL]
  exact List.getElem?_map

omit [FloatOps F] in
theorem lang_ids (hL : X.Lang L) {i : SymId} {k : ScopeId} (h : i ∈ L.env.ids k) :
    ∃ tab, X.sf.scopes[k]? = some tab ∧ i ∈ ScopeTab.ids tab := by
  rw [hL] at h
  unfold SymEnv.ids at h
  cases ht : X.sf.scopes[k]? with
  | none => simp only [ht] at h; cases h
  | some tab => simp only [ht] at h; exact ⟨tab, rfl, h⟩

omit [FloatOps F] in
theorem ids_of_look {scopes : List ScopeTab} {n : String} {k i : Nat} (h : lookIn scopes k n = some i) :
    ∃ tab, scopes[k]? = some tab ∧ i ∈ ScopeTab.ids tab := by
  unfold lookIn at h
  cases ht : scopes[k]? with
  | none => rw [ht] at h; cases h
  | some tab =>
      rw [ht] at h
      refine ⟨tab, rfl, ?_⟩
      simp only [Option.bind_some] at h
      unfold look at h
      cases hfd : tab.symbols.find? (·.1 == n) with
      | none => rw [hfd] at h; cases h
      | some p =>
          rw [hfd] at h
          cases h
          exact List.mem_map.mpr ⟨p, List.mem_of_find?_eq_some hfd, rfl⟩

omit [FloatOps F] in
/-- A symbol of the program is in the scope that has it. -/
theorem home_of (hf : Inv X X.sf) (hL : X.Lang L) {i : SymId} {k : ScopeId} (hb : X.b ≤ i) (hk : i ∈ L.env.ids k) :
    homeIn L.env [] i = some k := by
  obtain ⟨tab, ht, hm⟩ := lang_ids hL hk
  have hlt : (k : Nat) < L.env.scopes.length := by
    rw [hL]
    exact (List.getElem?_eq_some_iff.mp ht).1
  unfold homeIn
  show (List.range L.env.scopes.length).find? _ = _
  cases hfd : (List.range L.env.scopes.length).find? fun k => (L.env.ids k).contains i with
  | none =>
      have := List.find?_eq_none.mp hfd k (List.mem_range.mpr hlt)
      simp [hk] at this
  | some k' =>
      have := List.find?_some hfd
      simp only [List.contains_iff_mem] at this
      obtain ⟨tab', ht', hm'⟩ := lang_ids hL this
      rw [hf.once k' k tab' tab i hb ht' hm' ht hm]

omit [FloatOps F] in
/-- Only the scope of the module has global symbols. -/
theorem local_of (hf : Inv X X.sf) (hL : X.Lang L) {i : SymId} {k : ScopeId} {x : CSym} (hb : X.b ≤ i) (hk : i ∈ L.env.ids k)
    (hg : k ≠ X.g) (hx : X.sf.syms[i]? = some x) : x.isGlobal = false := by
  by_contra hc
  obtain ⟨tab, ht, hm⟩ := lang_ids hL hk
  obtain ⟨tab', ht', hm'⟩ := ids_of_look (hf.global i x hb hx (by simpa using hc))
  exact hg (hf.once k X.g tab tab' i hb ht hm ht' hm')

theorem homes_of {ts : List TStmt} (hN : X.Names) (hf : Inv X X.sf) (hL : X.Lang L)
    (hfuns : ∀ n, L.funs X.mod n = (funcDecls ts).findSome? (declOf L.env n)) (hgood : ∀ d ∈ funcDecls ts, FnGood F X L d) :
    Homes L X.table X.mod (homeIn L.env []) := by
  refine ⟨fun i u k hu hk => ?_, fun i f hu => ?_, fun i n hu => ?_, fun i k hk => ?_⟩
  · obtain ⟨hb, x, t, hx, hxb⟩ := vty_some hu
    obtain ⟨hmod, -, hrest⟩ := hf.syms i x hb hx
    refine ⟨x.toSym, by rw [lang_syms hL, hx]; rfl, hmod, home_of hf hL hb hk, fun _ => ?_⟩
    rw [hfuns, List.findSome?_eq_none_iff]
    intro d hd
    obtain ⟨hb', y, u, qs, hy, hyb, -⟩ := hgood d hd
    unfold declOf
    rw [lang_syms hL, hy]
    simp only [Option.map_some]
    refine if_neg fun hc => ?_
    obtain ⟨-, -, hy'⟩ := hf.syms d.1 y hb' hy
    rcases hrest with ⟨_, _, _, hv⟩ | ⟨_, _, h, _⟩
    · rcases hy' with ⟨_, h, _⟩ | ⟨_, _, _, _, hfn, _⟩
      · rw [hyb] at h; cases h
      · exact hN.apart _ hv ((show y.name = x.name from hc.1) ▸ hfn)
    · rw [hxb] at h; cases h
  · obtain ⟨hb, x, t, ps, hx, hxb⟩ := fn_some hu
    refine ⟨x.toSym, by rw [lang_syms hL, hx]; rfl, ?_⟩
    obtain ⟨-, -, ⟨_, h, _⟩ | ⟨_, _, _, _, _, h, _⟩⟩ := hf.syms i x hb hx
    · rw [hxb] at h; cases h
    · exact h
  · obtain ⟨x, hx, hg, _⟩ := lib_some hf hu
    exact ⟨x.toSym, by rw [lang_syms hL, hx]; rfl, hg⟩
  · unfold homeIn at hk
    change (List.range L.env.scopes.length).find? _ = _ at hk
    have := List.find?_some hk
    simpa using this

omit [FloatOps F] in
theorem mem_funcDecls {line : Nat} {sym : SymId} {scope : ScopeId} {body : List TStmt} : ∀ {ts : List TStmt},
    .func line sym (.mk scope body) ∈ ts → (sym, scope, body) ∈ funcDecls ts
  | t :: ts, h => by
      rw [funcDecls_cons, List.mem_append]
      rcases List.mem_cons.mp h with rfl | h
      · exact .inl (by simp [funcDecls])
      · exact .inr (mem_funcDecls h)

/-- The declaration of a function. -/
theorem func_ok (hH : Homes L X.table X.mod (homeIn L.env [])) (hf : Inv X X.sf) (hL : X.Lang L) (hs : X.K.strict = true)
    {W : Wf} (hW1 : W.L = L) (hW2 : W.mod = X.mod) (hW3 : W.home = homeIn L.env []) (hW4 : W.top = true) (hW5 : W.scope = some X.g)
    {line : Nat} {d : SymId × ScopeId × List TStmt} (hg : FnGood F X L d) :
    Source.okS W (.func line d.1 (.mk d.2.1 d.2.2)) = true := by
  obtain ⟨hb, x, t, ps, hx, hxb, -, ⟨tidy, Γ', htyped, htidy⟩, hbound, hapart, hwithin⟩ := hg
  obtain ⟨hmod, hbn, ⟨_, h, _⟩ | ⟨t', ps', h, _, _, hglob, hps⟩⟩ := hf.syms d.1 x hb hx
  · rw [hxb] at h; cases h
  rw [hxb] at h
  cases h
  have hng : d.2.1 ≠ X.g := by
    intro e
    have hw : (L.env.scopes[d.2.1]?).bind (·.parent) = some X.g := hwithin
    rw [e, hL] at hw
    cases ht : X.sf.scopes[X.g]? with
    | none => simp [ht] at hw
    | some tab => simp [ht, hf.root tab ht] at hw
  have hvar : ∀ p ∈ ps, ∃ t, X.vty p.2 = some t := by
    intro p hp
    obtain ⟨hpb, y, t, hy, hyb⟩ := hps p hp
    refine ⟨toTy [] t, ?_⟩
    unfold World.vty
    rw [if_pos hpb, hy]
    simp only [Option.map_some, hyb]
  have hW0 : Source.Fits L X.mod (homeIn L.env []) (W.funcIn d.2.1) (some d.2.1) [] :=
    ⟨hW1, hW2, hW3, rfl, rfl, rfl, by simp⟩
  have hWp : ∀ p ∈ ps, (W.funcIn d.2.1).canWrite p.2 = true := by
    intro p hp
    obtain ⟨t, ht⟩ := hvar p hp
    exact hW0.here hH ⟨_, rfl, hbound p hp⟩ ht
  have hlocal : ∀ i t, X.vty i = some t → i ∈ L.env.ids d.2.1 → (L.env.syms[i]?).any (!·.isGlobal) = true := by
    intro i t ht hi
    obtain ⟨hib, y, u, hy, -⟩ := vty_some ht
    have := local_of hf hL hib hi hng hy
    rw [lang_syms hL, hy]
    simpa [CSym.toSym] using this
  have hWf : Source.Fits L X.mod (homeIn L.env []) (W.funcIn d.2.1) (some d.2.1) (ps.map (·.2) ++ X.needs d.1) := by
    refine ⟨hW1, hW2, hW3, rfl, rfl, rfl, fun i hi => ?_⟩
    rcases List.mem_append.mp hi with hi | hi
    · obtain ⟨p, hp, rfl⟩ := List.mem_map.mp hi
      exact hWp p hp
    · unfold World.needs at hi
      simp only [List.mem_filter, Bool.and_eq_true, decide_eq_true_eq] at hi
      obtain ⟨-, hib, hgv⟩ := hi
      unfold isGlobalVar at hgv
      cases hy : X.sf.syms[i]? with
      | none => rw [hy] at hgv; cases hgv
      | some y =>
          rw [hy] at hgv
          simp only [Bool.and_eq_true] at hgv
          cases hyb : y.body with
          | var u =>
              obtain ⟨tab, ht, hm⟩ := ids_of_look (hf.global i y hib hy hgv.1)
              have hids : i ∈ L.env.ids X.g := by
                rw [hL]
                unfold SymEnv.ids
                simp only [ht]
                exact hm
              have hv : X.vty i = some (toTy [] u) := by
                unfold World.vty
                rw [if_pos hib, hy]
                simp only [Option.map_some, hyb]
              obtain ⟨s, hs', hsm, -, hfn⟩ := hH.var i _ X.g hv hids
              have : s.isGlobal = true := by
                rw [lang_syms hL, hy] at hs'
                cases hs'
                exact hgv.1
              unfold Wf.canWrite
              rw [show (W.funcIn d.2.1).L = L from hW1, hs']
              simp only [this, if_true]
              rw [show (W.funcIn d.2.1).mod = X.mod from hW2, hsm, hfn this]
              simp
          | _ => rw [hyb] at hgv; exact absurd hgv.2 (by simp)
  have hbody := tss_ok hH (W := W.funcIn d.2.1) (m := ⟨false, tidy, X.K.strict, false⟩) hWf ⟨hs, fun h => by cases h⟩
    (fun _ _ _ _ h => by cases h) htyped
  have hsym : W.L.env.syms[d.1]? = some x.toSym := by rw [hW1, lang_syms hL, hx]; rfl
  have hparams : x.toSym.params = ps.map (·.2) := by simp [CSym.toSym, CSym.params, hxb]
  have hin : W.inside d.2.1 = true := by
    unfold Wf.inside
    rw [hW1, hW5]
    exact decide_eq_true hwithin
  have hhead : W.header d.1 d.2.1 d.2.2 = true := by
    unfold Wf.header
    rw [hsym]
    simp only [hW4, Option.any_some, Bool.true_and, hparams, Bool.and_eq_true, Bool.or_eq_true, decide_eq_true_eq, List.all_eq_true]
    refine ⟨by rw [hW2]; exact hmod, .inr ⟨⟨fun i hi => ?_, hapart⟩, ?_⟩⟩
    · obtain ⟨p, hp, rfl⟩ := List.mem_map.mp hi
      obtain ⟨t, ht⟩ := hvar p hp
      have h1 := hWp p hp
      have h2 := hlocal p.2 t ht (hbound p hp)
      unfold Wf.canWrite at h1
      unfold Wf.local
      rw [show (W.funcIn d.2.1).L = L from hW1] at h1 ⊢
      cases hy : L.env.syms[p.2]? with
      | none => rw [hy] at h1; cases h1
      | some y =>
          rw [hy] at h1 h2
          simp only [Option.any_some, Bool.not_eq_true'] at h2
          simpa [h2] using h1
    · rcases htidy hs with h | h | h
      · exact .inl (.inr (tss_clean (m := ⟨false, tidy, X.K.strict, false⟩) h htyped))
      · refine .inl (.inl ?_)
        cases ps with
        | nil => exact absurd rfl h
        | cons p ps => rfl
      · exact .inr (tss_declares (W := W.funcIn d.2.1) hW1 rfl hlocal htyped h)
  simp only [Source.okS, hhead, hin, hbody, Bool.and_true, Bool.or_true]

/-! ## Internal names -/

theorem innerName_inj {d e j k : Nat} (hd : d < 10) (he : e < 10) (h : innerName d j = innerName e k) : d = e ∧ j = k := by
  have h1 := congrArg String.toList h
  simp only [innerName, String.toList_append, List.append_assoc, List.append_cancel_left_eq] at h1
  have hs : ∀ n < 10, ∃ c, (toString n : String).toList = [c] := by
    intro n hn
    refine ⟨Nat.digitChar n, ?_⟩
    show (Nat.repr n).toList = _
    rw [Nat.repr, String.toList_ofList]
    exact Nat.toDigits_of_lt_base hn
  obtain ⟨c, hc⟩ := hs d hd
  obtain ⟨c', hc'⟩ := hs e he
  rw [hc, hc', List.singleton_append, List.singleton_append, List.cons.injEq] at h1
  refine ⟨Nat.repr_injective (String.toList_injective ?_), Nat.repr_injective (String.toList_injective ?_)⟩
  · show (toString d : String).toList = (toString e : String).toList
    rw [hc, hc', h1.1]
  · exact List.append_cancel_right h1.2

theorem above_deep {env : SymEnv} {k l : Nat} (h : Above env k l) : ∀ {d e : Nat}, Deep env.scopes k d → Deep env.scopes l e →
    d ≤ e ∧ (d = e → k = l) := by
  induction h with
  | refl => exact fun h1 h2 => ⟨Nat.le_of_eq (h1.unique h2), fun _ => rfl⟩
  | @up l p hp _ ih =>
      intro d e h1 h2
      cases h2 with
      | root h hp' => rw [h] at hp; simp [hp'] at hp
      | up h hp' hd =>
          rw [h] at hp
          simp only [Option.bind_some, hp', Option.some.injEq] at hp
          subst hp
          have := (ih h1 hd).1
          exact ⟨by omega, fun e => by omega⟩

omit [FloatOps F] in
/-- Variables of the program that can be visible at the same time have different internal names, when no scope
of it is nested in ten others. -/
theorem outIds_of_deep {bp : String} (hf : Inv X X.sf) (htop : TopG X X.sf) (hL : X.Lang L) (hh : X.home = bp)
    (hd : ∀ k d, X.sb ≤ k → Deep X.sf.scopes k d → d < 10) :
    ∀ (i j : SymId) si sj (k l : ScopeId), L.env.syms[i]? = some si → L.env.syms[j]? = some sj →
      si.isGlobal = false → sj.isGlobal = false → si.modPath = sj.modPath → si.modPath ≠ bp →
      homeIn L.env [] i = some k → homeIn L.env [] j = some l → Above L.env k l → si.outId = sj.outId → i = j := by
  have key : ∀ (i : SymId) si (k : ScopeId), L.env.syms[i]? = some si → si.isGlobal = false → si.modPath ≠ bp → homeIn L.env [] i = some k →
      ∃ tab n m d, X.sf.scopes[k]? = some tab ∧ tab.symbols[m]? = some (n, i) ∧ (X.sb ≤ k ∧ Deep X.sf.scopes k d) ∧ si.outId = innerName d m := by
    intro i si k hi hg hm hk
    rw [lang_syms hL] at hi
    cases hx : X.sf.syms[i]? with
    | none => rw [hx] at hi; cases hi
    | some x =>
        rw [hx] at hi
        cases hi
        have hb : X.b ≤ i := Nat.le_of_not_lt fun hlt => hm ((hf.away i x hlt hx).trans hh)
        have hids : i ∈ L.env.ids k := by
          unfold homeIn at hk
          have := List.find?_some (show (List.range L.env.scopes.length).find? _ = _ from hk)
          simpa using this
        obtain ⟨tab, ht, hmem⟩ := lang_ids hL hids
        obtain ⟨⟨n, i'⟩, hp, rfl⟩ := List.mem_map.mp hmem
        obtain ⟨m, hm'⟩ := List.getElem?_of_mem hp
        have hkg : k ≠ X.g := by
          rintro rfl
          have hlk : lookIn X.sf.scopes X.g n = some i' := by
            unfold lookIn
            rw [ht]
            exact hf.entry _ tab n i' hb ht hp
          obtain ⟨-, -, ⟨u, hu, -⟩ | ⟨_, _, _, _, _, hgl, _⟩⟩ := hf.syms i' x hb hx
          · have := htop n i' x u hlk hb hx hu
            rw [show x.isGlobal = false from hg] at this
            cases this
          · rw [show x.isGlobal = false from hg] at hgl
            cases hgl
        obtain ⟨d, h0, h1, h2⟩ := hf.numbered k m tab n i' x hkg hb ht hm' hx
        exact ⟨tab, n, m, d, ht, hm', ⟨h0, h1⟩, h2⟩
  intro i j si sj k l hi hj hgi hgj hm hm' hki hlj hab ho
  obtain ⟨tab, n, m, d, h1, h2, h3, h4⟩ := key i si k hi hgi hm' hki
  obtain ⟨tab', n', m', d', g1, g2, g3, g4⟩ := key j sj l hj hgj (hm ▸ hm') hlj
  rw [h4, g4] at ho
  obtain ⟨rfl, rfl⟩ := innerName_inj (hd _ _ h3.1 h3.2) (hd _ _ g3.1 g3.2) ho
  have he : L.env.scopes = X.sf.scopes := by rw [hL]
  obtain rfl := (above_deep hab (he ▸ h3.2) (he ▸ g3.2)).2 rfl
  rw [h1] at g1
  cases g1
  rw [h2] at g2
  cases g2
  rfl

/-- Programs the checker accepts meet the conditions of C47, when no scope of theirs is nested in ten others. -/
theorem ok_of_facts {K : Frag} {imports : List (Path × Bool)} {file : Path} {P : Prog} (h : Facts F K imports file X P)
    (hs : K.strict = true) (hi : imports.map (fun i => pstr i.1) = [P.builtinPath])
    (hd : ∀ k d, X.sb ≤ k → Deep P.env.scopes k d → d < 10) : P.Ok (homeIn P.env []) := by
  obtain ⟨ts, Γ', hmain, hty, hgood, hdist, hfuns⟩ := h.statements
  have hf := h.inv
  have hL := h.lang
  have hH : Homes P.lang X.table X.mod (homeIn P.env []) := homes_of h.names hf hL (by rw [h.mod]; exact hfuns) hgood
  have horder := h.order
  rw [hi] at horder
  obtain ⟨m, himp⟩ : ∃ m, P.imports = [m] := by
    have := congrArg List.length horder
    simp only [List.length_map, List.length_singleton] at this
    exact List.length_eq_one_iff.mp this
  have hmem : m ∈ P.imports := by rw [himp]; simp
  obtain ⟨h1, h2, h3, h4⟩ := h.imports m hmem
  have hpath : m.path = P.builtinPath := by
    rw [himp] at horder
    simpa using horder
  have hKs : X.K.strict = true := by rw [h.frag]; exact hs
  refine ⟨⟨by rw [hmain], ?_⟩, ?_, ?_, ⟨m, [], himp, h1, hpath, ?_⟩, ?_, ?_, outIds_of_deep hf h.globals hL ?_ ?_⟩
  · refine tss_ok hH (W := P.wf (homeIn P.env []) P.main true) (sc := some X.g) (Γ := []) (m := X.K.top)
      ⟨rfl, by rw [h.mod]; show P.main.path = _; rw [hmain], rfl, by show some P.main.scope = _; rw [hmain], rfl, rfl, by simp⟩
      ⟨hKs, fun h => by cases h⟩ ?_ (by rw [hmain]; exact hty)
    intro line sym b hb _ y
    obtain ⟨scope, body⟩ := b
    rw [hmain] at hb
    have hd := mem_funcDecls hb
    exact func_ok (d := (sym, scope, body)) hH hf hL hKs rfl (by rw [h.mod]; show P.main.path = _; rw [hmain]) rfl rfl
      (by show some P.main.scope = _; rw [hmain]) (hgood _ hd)
  · intro m' hm' hb
    rw [(h.imports m' hm').1] at hb
    cases hb
  · unfold Prog.modules
    rw [himp, hmain]
    simp only [List.singleton_append, List.map_cons, List.map_nil, List.nodup_cons, List.mem_singleton, List.not_mem_nil,
      not_false_eq_true, List.nodup_nil, and_true]
    exact h2
  · rw [h.library, h3]
  · intro m' hm' _
    rw [h.library]
  · intro m' hm'
    unfold Prog.modules at hm'
    rw [himp] at hm'
    simp only [List.singleton_append, List.mem_cons, List.not_mem_nil, or_false] at hm'
    rcases hm' with rfl | rfl
    · simp [funcNames, h4, funcDecls]
    · unfold funcNames
      rw [hmain]
      refine List.Nodup.of_map
        (fun o : Option String => match o with | some n => lookIn X.sf.scopes X.g n | none => none) ?_
      rw [List.map_map]
      have : ((funcDecls ts).map fun d => some d.1).Nodup := by
        have := hdist.map (f := some) (fun _ _ h => Option.some.inj h)
        rwa [List.map_map] at this
      refine (List.map_congr_left fun d hd => ?_) ▸ this
      obtain ⟨hb, x, t, ps, hx, hxb, -⟩ := hgood d hd
      obtain ⟨-, -, ⟨_, h, _⟩ | ⟨_, _, _, _, _, hg, _⟩⟩ := hf.syms d.1 x hb hx
      · rw [hxb] at h; cases h
      · have hsym : P.env.syms[d.1]? = some x.toSym := by
          have := lang_syms hL d.1
          rw [hx] at this
          exact this
        simp only [Function.comp, hsym, Option.map_some]
        exact (hf.global d.1 x hb hx hg).symm
  · have := h.home
    rw [hi] at this
    simpa using this
  · rw [show X.sf.scopes = P.env.scopes from (congrArg SymEnv.scopes hL).symm]
    exact hd

end

end Amanda.Check

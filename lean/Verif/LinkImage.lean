import Verif.LinkModule
import Verif.Exec
import Verif.Props.Image

/-!
# From the dictionary to the loaded program

The image the compiler writes is read back and made into modules (`Loaded`).
-/

namespace Amanda

namespace Codegen

open Source Bson Compiled

/-! ## What was dumped -/

theorem dumpFields_mem {l : List (String × Bson)} {b : Bytes} (h : dumpFields l = .ok b) {k : String} {v : Bson}
    (hm : (k, v) ∈ l) : ∃ r, dumpValue v = .ok r := by
  induction l generalizing b with
  | nil => cases hm
  | cons p l ih =>
      obtain ⟨k', v'⟩ := p
      simp only [dumpFields, except_bind_eq_ok] at h
      obtain ⟨r, hr, b', hb, -⟩ := h
      rcases List.mem_cons.1 hm with e | hm
      · cases e
        exact ⟨r, hr⟩
      · exact ih hb hm

theorem dumpItems_mem {l : List Bson} {i : Nat} {b : Bytes} (h : dumpItems i l = .ok b) {v : Bson}
    (hm : v ∈ l) : ∃ r, dumpValue v = .ok r := by
  induction l generalizing i b with
  | nil => cases hm
  | cons p l ih =>
      simp only [dumpItems, except_bind_eq_ok] at h
      obtain ⟨r, hr, b', hb, -⟩ := h
      rcases List.mem_cons.1 hm with e | hm
      · cases e
        exact ⟨r, hr⟩
      · exact ih hb hm

theorem dumpValue_doc {l : List (String × Bson)} {r : UInt8 × Bytes} (h : dumpValue (.doc l) = .ok r) :
    ∃ b, dumpFields l = .ok b := by
  simp only [dumpValue, except_bind_eq_ok] at h
  obtain ⟨b, hb, -⟩ := h
  exact ⟨b, hb⟩

theorem dumpValue_arr {l : List Bson} {r : UInt8 × Bytes} (h : dumpValue (.arr l) = .ok r) :
    ∃ b, dumpItems 0 l = .ok b := by
  simp only [dumpValue, except_bind_eq_ok] at h
  obtain ⟨b, hb, -⟩ := h
  exact ⟨b, hb⟩

theorem dumpValue_int {n : Int} {r : UInt8 × Bytes} (h : dumpValue (.int n) = .ok r) : InI64 n := by
  simp only [dumpValue, except_bind_eq_ok] at h
  obtain ⟨b, hb, -⟩ := h
  unfold packInt64 at hb
  by_cases hn : -(2 ^ 63) ≤ n ∧ n < 2 ^ 63
  · exact hn
  · rw [if_neg hn] at hb
    cases hb

theorem asUsize_nat {n : Nat} (h : InI64 (n : Int)) : asUsize (n : Int) = n := by
  unfold asUsize
  obtain ⟨h1, h2⟩ := h
  rw [Int.emod_eq_of_lt (by omega) (by omega)]
  rfl

/-! ## Well keyed -/

theorem keyOk_of {k : String} (h : k.toList.all (fun c => decide (0 < c.toNat ∧ c.toNat < 128)) = true) :
    KeyOk k := by
  intro c hc
  have := List.all_eq_true.1 h c hc
  simpa [AsciiChar] using this

theorem wellKeyedItems_of {l : List Bson} (h : ∀ v ∈ l, WellKeyed v) : WellKeyedItems l := by
  induction l with
  | nil => trivial
  | cons v l ih => exact ⟨h v (by simp), ih fun w hw => h w (by simp [hw])⟩

theorem wellKeyed_doc (out : ModuleOut) (imps : List Bson) (hi : ∀ v ∈ imps, WellKeyed v) :
    WellKeyedFields (ModuleOut.doc out imps) := by
  have hf : WellKeyed (.arr (out.funcs.map FuncOut.bson)) := by
    refine wellKeyedItems_of ?_
    intro v hv
    obtain ⟨f, -, rfl⟩ := List.mem_map.1 hv
    refine ⟨keyOk_of (by decide), by simp, trivial, keyOk_of (by decide), by simp, trivial,
      keyOk_of (by decide), by simp, trivial, keyOk_of (by decide), by simp, trivial, trivial⟩
  have hr : WellKeyed (.arr (out.registos.map RegistoOut.bson)) := by
    refine wellKeyedItems_of ?_
    intro v hv
    obtain ⟨r, -, rfl⟩ := List.mem_map.1 hv
    refine ⟨keyOk_of (by decide), by simp, trivial, keyOk_of (by decide), by simp, ?_, trivial⟩
    refine wellKeyedItems_of ?_
    intro v hv
    obtain ⟨f, -, rfl⟩ := List.mem_map.1 hv
    trivial
  have hc : WellKeyed (.arr (out.consts.map ConstKey.bson)) := by
    refine wellKeyedItems_of ?_
    intro v hv
    obtain ⟨r, -, rfl⟩ := List.mem_map.1 hv
    cases r <;> trivial
  have hn : WellKeyed (.arr (out.names.map Bson.str)) := by
    refine wellKeyedItems_of ?_
    intro v hv
    obtain ⟨r, -, rfl⟩ := List.mem_map.1 hv
    trivial
  have hs : WellKeyed (.arr (out.srcMap.map Bson.int)) := by
    refine wellKeyedItems_of ?_
    intro v hv
    obtain ⟨r, -, rfl⟩ := List.mem_map.1 hv
    trivial
  refine ⟨keyOk_of (by decide), by simp, trivial, keyOk_of (by decide), by simp, trivial,
    keyOk_of (by decide), by simp, trivial, keyOk_of (by decide), by simp, hc,
    keyOk_of (by decide), by simp, hn, keyOk_of (by decide), by simp, trivial,
    keyOk_of (by decide), by simp, hf, keyOk_of (by decide), by simp, hr,
    keyOk_of (by decide), by simp, hs, keyOk_of (by decide), by simp, wellKeyedItems_of hi, trivial⟩

/-! ## Modules -/

/-- A function as the machine holds it. -/
def FuncOut.load (f : FuncOut) : AmaFunc :=
  { name := f.name, startIp := f.startIp, ip := f.startIp, lastI := f.startIp, bp := -1, locals := f.locals
    module := if f.module ≥ 0 then .imported f.module.toNat else .main }

/-- The loaded module `mod` holds what the compiler wrote. -/
structure Loaded {F : Type} [FloatOps F] (out : ModuleOut) (mod : Module F) : Prop where
  name : mod.name = out.name
  builtin : mod.builtin = out.builtin
  code : mod.code = out.code
  names : mod.names = out.names
  consts : ∀ (i : Nat) c, out.consts[i]? = some c → ∃ v, constVal c = some v ∧ mod.constants[i]? = some v
  ints : ∀ n, ConstKey.int n ∈ out.consts → InI64 n
  funcs : mod.functions = out.funcs.map FuncOut.load
  registos : mod.registos = out.registos.map fun r => ⟨r.name, r.fields⟩
  main : mod.main.module = .main ∧ mod.main.ip = 0 ∧ mod.main.name = "_inicio_"
  src : mod.srcMap = out.srcMap.map asUsize
  srcInts : ∀ n ∈ out.srcMap, InI64 n

theorem mapM_map {α β γ : Type} {f : β → Option γ} {g : α → β} {h : α → γ} {l : List α}
    (e : ∀ x ∈ l, f (g x) = some (h x)) : (l.map g).mapM f = some (l.map h) := by
  induction l with
  | nil => rfl
  | cons x xs ih =>
      rw [List.map_cons, List.mapM_cons, e x (by simp), ih fun y hy => e y (by simp [hy])]
      rfl

theorem mapM_some {α β : Type} {f : α → Option β} {l : List α} (e : ∀ x ∈ l, ∃ y, f x = some y) :
    ∃ r, l.mapM f = some r ∧ r.length = l.length := by
  induction l with
  | nil => exact ⟨[], rfl, rfl⟩
  | cons x xs ih =>
      obtain ⟨y, hy⟩ := e x (by simp)
      obtain ⟨r, hr, hl⟩ := ih fun y hy => e y (by simp [hy])
      refine ⟨y :: r, ?_, by simp [hl]⟩
      rw [List.mapM_cons, hy, hr]
      rfl

theorem constVal_some {F : Type} [FloatOps F] {c : ConstKey} (h : Loads c) : ∃ v : Val F, constVal c = some v := by
  cases c with
  | int n => exact ⟨_, rfl⟩
  | str s =>
      show ∃ v : Val F, constOfStr s = some v
      unfold constOfStr
      split
      · exact ⟨_, rfl⟩
      split
      · exact ⟨_, rfl⟩
      split
      · exact ⟨_, rfl⟩
      cases parseI64 s with
      | some n => exact ⟨_, rfl⟩
      | none =>
          cases (FloatOps.parse s : Option F) with
          | some x => exact ⟨_, rfl⟩
          | none =>
              have : (unquote s.toList).isSome = true := h
              obtain ⟨cs, hcs⟩ := Option.isSome_iff_exists.1 this
              exact ⟨_, by rw [hcs]; rfl⟩

theorem constOfBson_eq {F : Type} [FloatOps F] (c : ConstKey) : (constOfBson (ConstKey.bson c) : Option (Val F)) = constVal c := by
  cases c <;> rfl

theorem takeInt_map (l : List Int) : (l.map Bson.int).mapM takeBInt = some l := by
  have := mapM_map (f := takeBInt) (g := Bson.int) (h := id) (l := l) (fun _ _ => rfl)
  simpa using this

theorem registoOfBson_eq (r : RegistoOut) : registoOfBson (RegistoOut.bson r) = some ⟨r.name, r.fields⟩ := by
  show ((some (r.fields.map Bson.str)).bind fun fs => (fs.mapM takeBStr).bind fun fs => some (⟨r.name, fs⟩ : Registo)) = _
  show ((r.fields.map Bson.str).mapM takeBStr).bind _ = _
  rw [mapM_takeStr]
  rfl

theorem funcOfBson_eq {f : FuncOut} {r : UInt8 × Bytes} (h : dumpValue (FuncOut.bson f) = .ok r) :
    funcOfBson (FuncOut.bson f) = some (FuncOut.load f) := by
  obtain ⟨b, hb⟩ := dumpValue_doc h
  obtain ⟨r1, h1⟩ := dumpFields_mem hb (k := "start_ip") (v := .int f.startIp) (by simp)
  obtain ⟨r2, h2⟩ := dumpFields_mem hb (k := "locals") (v := .int f.locals) (by simp)
  show some _ = some _
  unfold FuncOut.load
  rw [asUsize_nat (dumpValue_int h1), asUsize_nat (dumpValue_int h2)]

theorem buildModule_ok {F : Type} [FloatOps F] {out : ModuleOut} {imps : List Bson} {b : Bytes}
    (hc : ∀ c ∈ out.consts, Loads c) (h : dumpFields (ModuleOut.doc out imps) = .ok b) :
    ∃ mod : Module F, buildModule (ModuleOut.doc out imps) = some mod ∧ Loaded out mod := by
  obtain ⟨cs, hcs, -⟩ := mapM_some (f := (constOfBson : Bson → Option (Val F))) (l := out.consts.map ConstKey.bson) (by
    intro x hx
    obtain ⟨c, hcm, rfl⟩ := List.mem_map.1 hx
    rw [constOfBson_eq]
    exact constVal_some (hc c hcm))
  have hfs : (out.funcs.map FuncOut.bson).mapM funcOfBson = some (out.funcs.map FuncOut.load) := by
    refine mapM_map fun f hf => ?_
    obtain ⟨r, hr⟩ := dumpFields_mem h (k := "functions") (v := .arr (out.funcs.map FuncOut.bson)) (by simp [ModuleOut.doc])
    obtain ⟨b, hb⟩ := dumpValue_arr hr
    obtain ⟨r, hr⟩ := dumpItems_mem hb (List.mem_map_of_mem hf)
    exact funcOfBson_eq hr
  have hrs : (out.registos.map RegistoOut.bson).mapM registoOfBson =
      some (out.registos.map fun r => ⟨r.name, r.fields⟩) := mapM_map fun r _ => registoOfBson_eq r
  have hints : ∀ n, ConstKey.int n ∈ out.consts → InI64 n := by
    intro n hn
    obtain ⟨r, hr⟩ := dumpFields_mem h (k := "constants") (v := .arr (out.consts.map ConstKey.bson)) (by simp [ModuleOut.doc])
    obtain ⟨b, hb⟩ := dumpValue_arr hr
    obtain ⟨r, hr⟩ := dumpItems_mem hb (List.mem_map_of_mem hn)
    exact dumpValue_int hr
  have hsrc : ∀ n ∈ out.srcMap, InI64 n := by
    intro n hn
    obtain ⟨r, hr⟩ := dumpFields_mem h (k := "src_map") (v := .arr (out.srcMap.map Bson.int)) (by simp [ModuleOut.doc])
    obtain ⟨b, hb⟩ := dumpValue_arr hr
    obtain ⟨r, hr⟩ := dumpItems_mem hb (List.mem_map_of_mem hn)
    exact dumpValue_int hr
  refine ⟨{ name := out.name, builtin := (if out.builtin then (1 : Int) else 0) != 0, constants := cs, names := out.names
            code := out.code
            main := { name := "_inicio_", startIp := 0, ip := 0, lastI := 0, bp := -1,
                      locals := asUsize (out.entryLocals : Int), module := .main }
            functions := out.funcs.map FuncOut.load
            registos := out.registos.map fun r => ⟨r.name, r.fields⟩
            srcMap := out.srcMap.map asUsize }, ?_, ?_⟩
  · show ((out.consts.map ConstKey.bson).mapM constOfBson).bind _ = _
    rw [hcs]
    show ((out.names.map Bson.str).mapM takeBStr).bind _ = _
    rw [mapM_takeStr]
    show ((out.srcMap.map Bson.int).mapM takeBInt).bind _ = _
    rw [takeInt_map]
    show ((out.funcs.map FuncOut.bson).mapM funcOfBson).bind _ = _
    rw [hfs]
    show ((out.registos.map RegistoOut.bson).mapM registoOfBson).bind _ = _
    rw [hrs]
    rfl
  · refine ⟨rfl, ?_, rfl, rfl, ?_, hints, rfl, rfl, ⟨rfl, rfl, rfl⟩, rfl, hsrc⟩
    · show ((if out.builtin = true then (1 : Int) else 0) != 0) = out.builtin
      cases out.builtin <;> rfl
    · intro i c hi
      have := mapM_get hcs (i := i) (a := ConstKey.bson c) (by rw [List.getElem?_map, hi]; rfl)
      rw [constOfBson_eq] at this
      exact this

/-! ## Programs -/

theorem compileImports_ok {ctx : GenCtx} {ms : List ModuleIn} {docs : List Bson} (h : compileImports ctx ms = .ok docs) :
    ∃ outs : List ModuleOut, docs = outs.map (fun o => .doc (ModuleOut.doc o [])) ∧ outs.length = ms.length ∧
      ∀ (i : Nat) m, ms[i]? = some m → ∃ o, outs[i]? = some o ∧ compileModule ctx m = .ok o := by
  induction ms generalizing docs with
  | nil =>
      cases Except.ok.inj h
      exact ⟨[], rfl, rfl, by simp⟩
  | cons m ms ih =>
      simp only [compileImports, except_bind_eq_ok] at h
      obtain ⟨o, ho, rest, hr, h⟩ := h
      obtain ⟨outs, e, hl, hi⟩ := ih hr
      cases Except.ok.inj h
      refine ⟨o :: outs, by rw [e]; rfl, by simp [hl], ?_⟩
      intro i m' hm
      cases i with
      | zero => cases hm; exact ⟨o, rfl, ho⟩
      | succ i => exact hi i m' hm

/-- The program the machine loads. -/
structure LoadedProg {F : Type} [FloatOps F] (ctx : GenCtx) (main : ModuleIn) (imports : List ModuleIn)
    (prog : Program F) : Prop where
  main : ∃ out, compileModule ctx main = .ok out ∧ Loaded out prog.main
  length : prog.imports.length = imports.length
  imports : ∀ (i : Nat) m, imports[i]? = some m → ∃ out mod, compileModule ctx m = .ok out ∧
    prog.imports[i]? = some mod ∧ Loaded out mod

theorem load_ok {F : Type} [FloatOps F] {env : SymEnv} {bp : String} {main : ModuleIn} {imports : List ModuleIn}
    {image : Bytes} (h : compileProgram env bp main imports = .ok image)
    (hl : ∀ m ∈ imports ++ [main], ∀ out, compileModule { env := env, modPath := main.path, builtinPath := bp
                                                          modules := imports.map ModuleIn.path } m = .ok out →
      ∀ c ∈ out.consts, Loads c) :
    ∃ d, ∃ prog : Program F, loadImage image = .ok d ∧ loadProgram d = some prog ∧
      LoadedProg { env := env, modPath := main.path, builtinPath := bp, modules := imports.map ModuleIn.path }
        main imports prog := by
  simp only [compileProgram, except_bind_eq_ok] at h
  obtain ⟨docs, hdocs, out, hout, h⟩ := h
  obtain ⟨outs, rfl, hlen, hi⟩ := compileImports_ok hdocs
  have hd : dumps (ModuleOut.doc out (outs.map fun o => .doc (ModuleOut.doc o []))) = .ok image := by
    cases hx : dumps (ModuleOut.doc out (outs.map fun o => .doc (ModuleOut.doc o []))) with
    | ok b => rw [hx] at h; cases h; rfl
    | error e => rw [hx] at h; cases h
  have hload := image_round_trip _ (wellKeyed_doc out _ (by
    intro v hv
    obtain ⟨o, -, rfl⟩ := List.mem_map.1 hv
    exact wellKeyed_doc o [] (by simp))) image hd
  obtain ⟨body, hb, -⟩ := except_bind_eq_ok.1 (show (dumpFields _ >>= wrapDoc) = _ from hd)
  obtain ⟨mod, hm1, hm2⟩ := buildModule_ok (F := F) (hl main (by simp) out hout) hb
  have hmods : ∀ o ∈ outs, ∃ mod : Module F, buildModule (ModuleOut.doc o []) = some mod ∧ Loaded o mod := by
    intro o ho
    obtain ⟨i, hio⟩ := List.getElem?_of_mem ho
    have hil : i < imports.length := by
      rw [← hlen]; exact (List.getElem?_eq_some_iff.1 hio).1
    obtain ⟨o', ho', hc⟩ := hi i imports[i] (by simp [hil])
    rw [hio] at ho'
    cases ho'
    obtain ⟨r, hr⟩ := dumpFields_mem hb (k := "imports") (v := .arr (outs.map fun o => .doc (ModuleOut.doc o [])))
      (by simp [ModuleOut.doc])
    obtain ⟨b, hb2⟩ := dumpValue_arr hr
    obtain ⟨r, hr⟩ := dumpItems_mem hb2 (List.mem_map_of_mem ho)
    obtain ⟨b, hb3⟩ := dumpValue_doc hr
    exact buildModule_ok (hl imports[i] (by simp) o hc) hb3
  obtain ⟨mods, hms, hmlen⟩ := mapM_some (f := fun m : Bson => (takeBDoc m).bind (buildModule (F := F)))
    (l := outs.map fun o => .doc (ModuleOut.doc o [])) (by
      intro x hx
      obtain ⟨o, ho, rfl⟩ := List.mem_map.1 hx
      obtain ⟨mod, h1, -⟩ := hmods o ho
      exact ⟨mod, h1⟩)
  refine ⟨_, ⟨mod, mods⟩, hload, ?_, ⟨out, hout, hm2⟩, by rw [hmlen]; simp [hlen], ?_⟩
  · show ((outs.map fun o => Bson.doc (ModuleOut.doc o [])).mapM
      fun m : Bson => (takeBDoc m).bind (buildModule (F := F))).bind _ = _
    rw [hms]
    show (buildModule _).bind _ = _
    rw [hm1]
    rfl
  · intro i m him
    obtain ⟨o, ho, hc⟩ := hi i m him
    obtain ⟨mod, h1, h2⟩ := mapM_get hms (i := i) (a := .doc (ModuleOut.doc o [])) (by rw [List.getElem?_map, ho]; rfl)
    obtain ⟨mod', h3, h4⟩ := hmods o (List.mem_of_getElem? ho)
    have : some mod' = some mod := h3.symm.trans h1
    exact ⟨o, mod, hc, h2, Option.some.inj this ▸ h4⟩

end Codegen

end Amanda

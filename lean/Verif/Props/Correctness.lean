import Verif.LinkRun
import Verif.Props.Loops
import Verif.FloatModel
import Verif.Props.Lexing

/-!
# Compiled programs do what the source says (C38, C44, C46-C49)

The meaning of programs is in `Verif.Source` and `Verif.SourceProg`; `Source.Prog.Ok` and
`Compiled.SlotsFit` say for which programs the claim is made.  For each condition that is more than a
rule of the language there is a program without it for which the claim is false (`*_violated`).
-/

namespace Amanda

open Source Codegen Compiled

/-! ## Checking the conditions -/

/-- The scopes around a scope, itself included. -/
def above (env : SymEnv) : Nat → ScopeId → List ScopeId
  | 0, _ => []
  | n + 1, l =>
      match (env.scopes[l]?).bind (·.parent) with
      | some p => l :: above env n p
      | none => [l]

/-- Scopes are numbered after those they are in. -/
def parentsCheck (env : SymEnv) : Bool :=
  (List.range env.scopes.length).all fun l =>
    match (env.scopes[l]?).bind (·.parent) with
    | some p => decide (p < l)
    | none => true

theorem mem_above {env : SymEnv} (h : parentsCheck env = true) {k l : ScopeId} (ha : Above env k l) :
    ∀ n : Nat, (l : Nat) < n → k ∈ above env n l := by
  induction ha with
  | refl =>
      intro n hn
      obtain ⟨n, rfl⟩ := Nat.exists_eq_add_of_lt (Nat.lt_of_le_of_lt (Nat.zero_le _) hn)
      rw [Nat.zero_add] at hn ⊢
      unfold above
      cases (env.scopes[k]?).bind (·.parent) <;> simp
  | @up l p hp _ ih =>
      intro n hn
      obtain ⟨n, rfl⟩ := Nat.exists_eq_add_of_lt (Nat.lt_of_le_of_lt (Nat.zero_le _) hn)
      rw [Nat.zero_add] at hn ⊢
      unfold above
      rw [hp]
      refine List.mem_cons_of_mem _ (ih n ?_)
      have hl : l < env.scopes.length := by
        cases e : env.scopes[l]? with
        | none => rw [e] at hp; cases hp
        | some t => exact (List.getElem?_eq_some_iff.1 e).1
      have := List.all_eq_true.1 h l (List.mem_range.2 hl)
      rw [hp] at this
      have hlt : (p : Nat) < l := by simpa using this
      exact Nat.lt_of_lt_of_le hlt (Nat.lt_succ_iff.1 hn)

/-- `Prog.Ok.outIds`, computed. -/
def outIdsCheck (env : SymEnv) (home : SymId → Option ScopeId) : Bool :=
  parentsCheck env &&
  (List.range env.syms.length).all fun i =>
    match env.syms[i]?, home i with
    | some si, some k => si.isGlobal ||
        (List.range env.syms.length).all fun j =>
          match env.syms[j]?, home j with
          | some sj, some l =>
              sj.isGlobal || decide (si.modPath ≠ sj.modPath) || decide (si.outId ≠ sj.outId) ||
                decide (i = j) || !(above env (l + 1) l).contains k
          | _, _ => true
    | _, _ => true

theorem outIds_of_check {env : SymEnv} {home : SymId → Option ScopeId} (h : outIdsCheck env home = true) :
    ∀ i j si sj k l, env.syms[i]? = some si → env.syms[j]? = some sj →
      si.isGlobal = false → sj.isGlobal = false → si.modPath = sj.modPath → home i = some k → home j = some l →
      Above env k l → si.outId = sj.outId → i = j := by
  intro i j si sj k l hi hj h1 h2 h3 h4 h4' hab h5
  simp only [outIdsCheck, Bool.and_eq_true] at h
  obtain ⟨hp, h⟩ := h
  have li := (List.getElem?_eq_some_iff.1 hi).1
  have lj := (List.getElem?_eq_some_iff.1 hj).1
  have hi' := List.all_eq_true.1 h i (List.mem_range.2 li)
  rw [hi, h4] at hi'
  simp only [h1, Bool.false_or] at hi'
  have hj' := List.all_eq_true.1 hi' j (List.mem_range.2 lj)
  rw [hj, h4'] at hj'
  have hm := mem_above hp hab (l + 1) (Nat.lt_succ_self _)
  simpa [h2, h3, h5, hm] using hj'

/-- The scope in whose table a symbol is, or the one given in `more`. -/
def homeIn (env : SymEnv) (more : List (SymId × ScopeId)) (i : SymId) : Option ScopeId :=
  (assocGet more i).orElse fun _ => (List.range env.scopes.length).find? fun k => (env.ids k).contains i

/-- `Prog.Ok`, computed. -/
def okCheck (P : Prog) (home : SymId → Option ScopeId) : Bool :=
  !P.main.builtin && okSs (P.wf home P.main true) P.main.body &&
  P.imports.all (fun m => m.builtin || okSs (P.wf home m false) m.body) &&
  decide (P.modules.map ModuleIn.path).Nodup &&
  (match P.imports with
    | m :: _ => m.builtin && decide (m.path = P.builtinPath) && decide (P.library m.path = "embutidos")
    | [] => false) &&
  P.imports.all (fun m => !m.builtin || decide (moduleName m.path = P.library m.path)) &&
  P.modules.all (fun m => decide (funcNames P.env m).Nodup) &&
  outIdsCheck P.env home

theorem ok_of_check {P : Prog} {home : SymId → Option ScopeId} (h : okCheck P home = true) : P.Ok home := by
  simp only [okCheck, Bool.and_eq_true] at h
  obtain ⟨⟨⟨⟨⟨⟨⟨h1, h2⟩, h3⟩, h4⟩, h5⟩, h6⟩, h7⟩, h8⟩ := h
  refine ⟨⟨by simpa using h1, h2⟩, ?_, by simpa using h4, ?_, ?_, ?_,
    fun i j si sj k l h1 h2 h3 h4 h5 _ => outIds_of_check h8 i j si sj k l h1 h2 h3 h4 h5⟩
  · intro m hm hb
    have := List.all_eq_true.1 h3 m hm
    simpa [hb] using this
  · cases hi : P.imports with
    | nil => rw [hi] at h5; cases h5
    | cons m ms =>
        rw [hi] at h5
        simp only [Bool.and_eq_true, decide_eq_true_eq] at h5
        exact ⟨m, ms, rfl, h5.1.1, h5.1.2, h5.2⟩
  · intro m hm hb
    have := List.all_eq_true.1 h6 m hm
    simpa [hb] using this
  · intro m hm
    have := List.all_eq_true.1 h7 m hm
    simpa using this

/-- `SlotsFit`, computed. -/
def slotsCheck (P : Prog) : Bool :=
  P.modules.all fun m => m.builtin ||
    match genModule (P.ctx m) m {} with
    | .ok (_, fin) =>
        fin.finished.all (fun t => decide (Small t)) && decide (Small fin.funcLocals) &&
          decide (fin.registos.length ≤ 65536) && decide (fin.funcLocals.length ≤ 256)
    | .error _ => true

theorem slots_of_check {P : Prog} (h : slotsCheck P = true) : SlotsFit P := by
  have key : ∀ m ∈ P.modules, m.builtin = false → ∀ fin, genModule (P.ctx m) m {} = .ok ((), fin) →
      Tables fin ∧ fin.funcLocals.length ≤ 256 := by
    intro m hm hb fin hf
    have := List.all_eq_true.1 h m hm
    simp only [hb, hf, Bool.false_or, Bool.and_eq_true, decide_eq_true_eq] at this
    obtain ⟨⟨⟨h1, h2⟩, h3⟩, h4⟩ := this
    exact ⟨⟨fun t ht => by simpa using List.all_eq_true.1 h1 t ht, h2, h3⟩, h4⟩
  exact ⟨fun m hm hb fin hf => (key m hm hb fin hf).1, fun m hm hb fin hf => (key m hm hb fin hf).2⟩

/-! ## Whole programs -/

theorem empty_text {F : Type} [FloatOps F] [LawfulFloatOps F] : (constOfStr "''" : Option (Val F)) = some (.str "") :=
  constOfStr_quoted (q := '\'') (.inl rfl) []

/-- **C47 and C48, whole programs.**  If the source program runs to its end, so does its image, with
the same output and status 0.  If the source program fails with an error, the image stops with status 1,
the same output and a report that ends with that error. -/
theorem compiled_program_correct (F : Type) [FloatOps F] [LawfulFloatOps F] (cfg : Cfg) (P : Prog)
    (home : SymId → Option ScopeId) (hP : P.Ok home) (hS : SlotsFit P) (image : Bytes)
    (h : compileProgram P.env P.builtinPath P.main P.imports = .ok image) (inp : List String) (n : Nat) :
    (∀ st : St F, P.eval cfg n inp = .done () st →
      ∃ k, ∀ fuel, k ≤ fuel → runImage F cfg fuel inp image = .exited 0 st.world.out "") ∧
    (∀ (msg : String) (w : World F), P.eval cfg n inp = .fail msg w →
      ∃ k trace, ∀ fuel, k ≤ fuel → runImage F cfg fuel inp image = .exited 1 w.out (trace ++ msg ++ ".")) := by
  obtain ⟨d, prog, hd, hp, hL⟩ := load_ok (F := F) h (fun m hm out hc => consts_load hP hS hm hc)
  have hrun : ∀ fuel, runImage F cfg fuel inp image =
      match runProgram cfg prog fuel inp with
      | .done vm => .exited 0 vm.world.out ""
      | .err msg vm => .exited 1 vm.world.out msg
      | .panic vm => .panicked vm.world.out
      | .outOfFuel vm => .outOfFuel vm.world.out := by
    intro fuel
    unfold runImage
    rw [hd]
    simp only [hp]
    cases runProgram cfg prog fuel inp <;> rfl
  have key := program_runs (cfg := cfg) hP hS empty_text hL n inp
  constructor
  · intro st hev
    rw [hev] at key
    obtain ⟨k, vm, R, hk⟩ := key
    refine ⟨k, fun fuel hf => ?_⟩
    have := hk fuel hf
    simp only at this
    rw [hrun, this]
    simp only [R.world]
  · intro msg w hev
    rw [hev] at key
    obtain ⟨k, pre, vm, hw, hk⟩ := key
    refine ⟨k, pre, fun fuel hf => ?_⟩
    have := hk fuel hf
    simp only at this
    rw [hrun, this]
    simp only [hw]

/-! ### A program the theorem is about -/

section
open TExpr TStmt

/-- An integer literal. -/
def lit (n : String) : TExpr := .const 1 n .unknown
/-- A variable. -/
def vr (name : String) (id : SymId) : TExpr := .var 1 name (some id) .unknown
/-- An operation on integers. -/
def op2 (op : TT) (a b : TExpr) : TExpr := .bin 1 op a b .int .int .unknown
/-- A call. -/
def cl (name : String) (id : SymId) (args : List TExpr) : TExpr := .call 1 (vr name id) args id .unknown

def glob (m name : String) (kind : SymKind) (params : List SymId := []) : Sym :=
  { name := name, outId := name, modPath := m, isGlobal := true, kind := kind, params := params }
def loc (m name out : String) : Sym :=
  { name := name, outId := out, modPath := m, isGlobal := false, kind := .var }

/-- A module with a function, and a program with a recursive function, a union, `iguala`, `para`,
`enquanto` with `quebra`, `se` and a call of the standard library. -/
def demo : Prog where
  env :=
    { syms := [glob "/u.ama" "dobro" .func [1], loc "/u.ama" "n" "_r11_", glob "/u.ama" "base" .var,
               glob "/m.ama" "fact" .func [4], loc "/m.ama" "n" "_r11_", glob "/m.ama" "s" .var,
               loc "/m.ama" "i" "_r12_", glob "/m.ama" "Circulo" .variant,
               glob "/m.ama" "area" .func [9], loc "/m.ama" "f" "_r11_", loc "/m.ama" "_r0_" "_r0_",
               loc "/m.ama" "r" "_r21_", glob "/embutidos.ama" "escrevaln" .func]
      scopes := [⟨[("dobro", 0), ("base", 2)], none⟩, ⟨[("n", 1)], some 0⟩,
                 ⟨[("fact", 3), ("s", 5), ("area", 8)], none⟩, ⟨[("n", 4)], some 2⟩, ⟨[], some 3⟩,
                 ⟨[("i", 6)], some 2⟩, ⟨[], some 2⟩, ⟨[], some 6⟩, ⟨[("f", 9)], some 2⟩, ⟨[("r", 11)], some 8⟩,
                 ⟨[], some 8⟩] }
  builtinPath := "/embutidos.ama"
  library := fun p => if p = "/embutidos.ama" then "embutidos" else ""
  imports := [
    { path := "/embutidos.ama", builtin := true, scope := 0, body := [] },
    { path := "/u.ama", builtin := false, scope := 0
      body := [.func 1 0 (.mk 1 [.retorna 1 (some (op2 .star (vr "n" 1) (vr "base" 2)))]),
               .varDecl 2 "base" .int (some (.mk 2 (lit "2")))] }]
  main :=
    { path := "/m.ama", builtin := false, scope := 2
      body := [
        .uniao 1 "Forma" [⟨"Forma::Circulo", 1⟩, ⟨"Forma::Nada", 0⟩],
        .func 2 3 (.mk 3 [
          .se 3 (op2 .lesseq (vr "n" 4) (lit "1")) (.mk 4 [.retorna 3 (some (lit "1"))]) [] none,
          .retorna 4 (some (op2 .star (vr "n" 4) (cl "fact" 3 [op2 .minus (vr "n" 4) (lit "1")])))]),
        .func 5 8 (.mk 8 [
          .retorna 6 (some (.iguala 6 (.switch 9
            [.mk (.variant ⟨"Forma::Circulo", 1⟩) [10] (.success [("r", 10)] 7 9 [.produz 7 (op2 .star (vr "r" 11) (vr "r" 11))]),
             .mk (.variant ⟨"Forma::Nada", 0⟩) [] (.success [] 8 10 [.produz 8 (lit "0")])] none)))]),
        .varDecl 9 "s" .int (some (.mk 5 (lit "0"))),
        .para 10 "i" (lit "0") (lit "4") none (.mk 5 [
          .expr (.assign 11 5 (op2 .plus (vr "s" 5) (cl "dobro" 0 [vr "i" 6])))]),
        .enquanto 12 (.const 12 "verdadeiro" .unknown) (.mk 6 [
          .expr (.assign 13 5 (op2 .minus (vr "s" 5) (lit "1"))),
          .se 14 (op2 .less (vr "s" 5) (lit "8")) (.mk 7 [.loopCtl 14 true]) [] none]),
        .expr (cl "escrevaln" 12 [vr "s" 5]),
        .mostra 15 (cl "fact" 3 [lit "5"]),
        .mostra 16 (cl "area" 8 [.call 16 (.path 16 (some ⟨"Forma::Circulo", 1⟩)) [lit "3"] 7 .unknown]),
        .mostra 17 (cl "area" 8 [.path 17 (some ⟨"Forma::Nada", 0⟩)]),
        .mostra 18 (op2 .slash (lit "1") (lit "0"))] }

def demoHome : SymId → Option ScopeId := homeIn demo.env [(10, 8)]

def plainCfg : Cfg := { debug := false, graphemes := fun _ => [] }

/-- How the source program ends: the message of the error, if any, and the output. -/
def sourceEnd (P : Prog) (fuel : Nat) : Option (Option String × String) :=
  match (P.eval plainCfg fuel [] : Out WholeFloat Unit) with
  | .done _ st => some (none, st.world.out)
  | .fail msg w => some (some msg, w.out)
  | _ => none

/-- How the compiled program ends. -/
def machineEnd (P : Prog) (fuel : Nat) : Option RunResult :=
  match compileProgram P.env P.builtinPath P.main P.imports with
  | .ok image => some (runImage WholeFloat plainCfg fuel [] image)
  | .error _ => none

end

theorem demo_ok : demo.Ok demoHome := ok_of_check (by decide +kernel)

theorem demo_slots : SlotsFit demo := slots_of_check (by decide +kernel)

example : sourceEnd demo 200 = some (some "não pode dividir um número por zero", "7\n120\n9\n0\n") := by decide +kernel

example : machineEnd demo 2000 =
    some (.exited 1 "7\n120\n9\n0\n" "Erro na linha 1: não pode dividir um número por zero.") := by decide +kernel

/-! ## Expressions -/

section
variable {F : Type} [FloatOps F] {K : Link F} {a : Act F} {W : Wf} {lp : Loop} {s s' : Gen} {st : St F} {vm : VM F}
  {k : List (Val F)}

/-- **C46.** The code of an expression leaves its value on top of what was on the stack before, in the
state the evaluation of the expression ends in; if evaluation fails, the machine reports the same error
and stops.  `Here K a st vm ip k` says that the machine is at `ip` in the call `a`, that its globals and
the slots of the call hold the variables of `st`, that the output is that of `st`, that `k` is on the
stack above the slots, and that the frames and stacks of the callers are those of `a`. -/
theorem expression_code_correct (hK : LinkOk K) {e : TExpr} (C : Code K a W lp s s') (hok : okE W .value e = true)
    (hclean : cleanE e = true) (hg : genExpr a.cm.ctx e s = .ok ((), s')) (hh : Here K a st vm s.ip k) (n : Nat) :
    (∀ v st', evalE K.cfg K.L n (pos a W) e st = .done v st' →
      ∃ vm', Runs K vm vm' ∧ Here K a st' vm' s'.ip (k ++ [v])) ∧
    (∀ msg w, evalE K.cfg K.L n (pos a W) e st = .fail msg w → RunsErr K vm msg w) := by
  have key := (simulates hK n).strict C hok hclean hg hh
  constructor
  · intro v st' he
    rw [he] at key
    obtain ⟨vm', j, hj, hr, hp⟩ := key
    rcases hj with hj | rfl
    · cases hj
    · exact ⟨vm', hr, by simpa [Pushed] using hp⟩
  · intro msg w he
    rw [he] at key
    exact key

/-! ## Statements -/

/-- **C47.** The code of statements ends in the state the statements end in, behind the code, with the
stack as before but for values `j` of expression statements; if the statements fail, the machine reports
the same error and stops. -/
theorem statements_code_correct (hK : LinkOk K) {cs : List TStmt} (C : Code K a W lp s s') (hok : okSs W cs = true)
    (hg : genStmts a.cm.ctx cs s = .ok ((), s')) (hh : Here K a st vm s.ip k) (n : Nat) :
    (∀ st', evalSs K.cfg K.L n (pos a W) cs st = .done none st' →
      ∃ vm' j, Runs K vm vm' ∧ Here K a st' vm' s'.ip (k ++ j) ∧ (cleanSs true cs = true → j = [])) ∧
    (∀ msg w, evalSs K.cfg K.L n (pos a W) cs st = .fail msg w → RunsErr K vm msg w) := by
  constructor
  · intro st' he
    by_cases hc : cleanSs true cs = true
    · have key := (simulates hK n).ss (m := .tidy) C hok hc hg hh
      rw [he] at key
      obtain ⟨vm', j, hj, hr, hp, -⟩ := key
      rcases hj with hj | rfl
      · cases hj
      · exact ⟨vm', [], hr, by simpa using hp, fun _ => rfl⟩
    · have key := (simulates hK n).ss (m := .any) C hok trivial hg hh
      rw [he] at key
      obtain ⟨vm', j, -, hr, hp, -⟩ := key
      exact ⟨vm', j, hr, by simpa using hp, fun h => absurd h hc⟩
  · intro msg w he
    have key := (simulates hK n).ss (m := .any) C hok trivial hg hh
    rw [he] at key
    exact key

/-! ## Calls -/

/-- The call of a function of the program, in terms of its parts. -/
theorem call_value {cfg : Cfg} {L : Lang} {p : Pos} {n line l2 : Nat} {name : String} {id : Option SymId}
    {args : List TExpr} {sym i : SymId} {prom pv : Ty} {f : Sym} {d : FunDecl} {vs : List (Val F)} {st1 : St F}
    (hshape : callShape L sym (.var l2 name id pv) = .function name id)
    (hname : id.orElse (fun _ => L.env.resolve p.scope name) = some i) (hf : L.env.syms[i]? = some f)
    (hd : L.funs f.modPath f.name = some d) (hargs : evalEs cfg L n p args st = .done vs st1) :
    evalE cfg L (n + 1) p (.call line (.var l2 name id pv) args sym prom) st =
      (invoke p.depth d (evalSs cfg L n ⟨f.modPath, some d.scope, p.depth + 1⟩ d.body) vs st1).next
        (fun r => promote prom r) := by
  simp only [evalE, hshape]
  change Out.next (evalEs cfg L n p args st) _ = _
  rw [hargs]
  change Out.next (apply cfg L p (evalSs cfg L n) name id vs st1) _ = _
  congr 1
  unfold apply
  change Out.next (M.need (id.orElse fun _ => L.env.resolve p.scope name) st1) _ = _
  rw [hname]
  change Out.next (M.need (L.env.syms[i]?) st1) _ = _
  rw [hf]
  show (match L.funs f.modPath f.name with
    | some d => invoke p.depth d (evalSs cfg L n ⟨f.modPath, some d.scope, p.depth + 1⟩ d.body) vs
    | none => do
        let g ← readVar L i
        callLibrary cfg g vs) st1 = _
  rw [hd]

/-- What the caller sees of a body that ended with `o`. -/
def called (st1 : St F) (o : Out F (Option (Val F))) : Out F (Val F) :=
  match o with
  | .done none st' => .done (.bool false) { st' with locals := st1.locals }
  | .leave (.retorna v) st' => .done v { st' with locals := st1.locals }
  | .fail msg w => .fail msg w
  | .fuel k => .fuel (k + 1)
  | _ => .stuck

/-- **C48.** A call `name(args)` of a function of the program, where the arguments have the values `vs`
and there is room for another call: the body runs with the parameters bound to `vs` in order and no other
locals.  If it returns `v`, the caller goes on behind the call with its own locals, the rest of its stack
and `v` on top; if it ends without `retorna`, the same with `falso`; if it fails, the machine reports that
error. -/
theorem call_code_partial (hK : LinkOk K) {n line l2 : Nat} {name : String} {id : Option SymId}
    {args : List TExpr} {sym i : SymId} {pv : Ty} {f : Sym} {d : FunDecl} {vs : List (Val F)} {st1 : St F}
    (C : Code K a W lp s s') (hok : okE W .value (.call line (.var l2 name id pv) args sym .unknown) = true)
    (hclean : cleanEs args = true)
    (hg : genExpr a.cm.ctx (.call line (.var l2 name id pv) args sym .unknown) s = .ok ((), s'))
    (hh : Here K a st vm s.ip k)
    (hshape : callShape K.L sym (.var l2 name id pv) = .function name id)
    (hname : id.orElse (fun _ => K.L.env.resolve W.scope name) = some i) (hf : K.L.env.syms[i]? = some f)
    (hd : K.L.funs f.modPath f.name = some d)
    (hargs : evalEs K.cfg K.L n (pos a W) args st = .done vs st1) (hlen : vs.length = d.params.length)
    (hroom : a.rest.length + 1 ≠ recursionLimit) :
    let body := evalSs K.cfg K.L n ⟨f.modPath, some d.scope, a.rest.length + 2⟩ d.body
      { st1 with locals := fun x => assocGet (d.params.zip vs) x }
    (∀ v st2, body = .leave (.retorna v) st2 →
      ∃ vm', Runs K vm vm' ∧ Here K a { st2 with locals := st1.locals } vm' s'.ip (k ++ [v])) ∧
    (∀ st2, body = .done none st2 →
      ∃ vm', Runs K vm vm' ∧ Here K a { st2 with locals := st1.locals } vm' s'.ip (k ++ [.bool false])) ∧
    (∀ msg w, body = .fail msg w → RunsErr K vm msg w) := by
  intro body
  have key := expression_code_correct hK C hok (by simpa [cleanE] using hclean) hg hh (n + 1)
  have hv := call_value (line := line) (prom := .unknown) (p := pos a W) hshape hname hf hd hargs
  have hinv : invoke (pos a W).depth d (evalSs K.cfg K.L n ⟨f.modPath, some d.scope, (pos a W).depth + 1⟩ d.body) vs st1 =
      called st1 body := by
    unfold invoke
    rw [if_neg (by simp [hlen]), if_neg (by exact hroom)]
    rfl
  rw [hinv] at hv
  refine ⟨fun v st2 hb => ?_, fun st2 hb => ?_, fun msg w hb => ?_⟩
  · refine key.1 v _ ?_
    rw [hv, hb]; rfl
  · refine key.1 _ _ ?_
    rw [hv, hb]; rfl
  · refine key.2 _ _ ?_
    rw [hv, hb]; rfl

/-- **C48.** At the limit of active calls the machine reports it. -/
theorem call_code_limit (hK : LinkOk K) {n line l2 : Nat} {name : String} {id : Option SymId}
    {args : List TExpr} {sym i : SymId} {pv : Ty} {f : Sym} {d : FunDecl} {vs : List (Val F)} {st1 : St F}
    (C : Code K a W lp s s') (hok : okE W .value (.call line (.var l2 name id pv) args sym .unknown) = true)
    (hclean : cleanEs args = true)
    (hg : genExpr a.cm.ctx (.call line (.var l2 name id pv) args sym .unknown) s = .ok ((), s'))
    (hh : Here K a st vm s.ip k)
    (hshape : callShape K.L sym (.var l2 name id pv) = .function name id)
    (hname : id.orElse (fun _ => K.L.env.resolve W.scope name) = some i) (hf : K.L.env.syms[i]? = some f)
    (hd : K.L.funs f.modPath f.name = some d)
    (hargs : evalEs K.cfg K.L n (pos a W) args st = .done vs st1) (hlen : vs.length = d.params.length)
    (hroom : a.rest.length + 1 = recursionLimit) : RunsErr K vm msgDepth st1.world := by
  have key := expression_code_correct hK C hok (by simpa [cleanE] using hclean) hg hh (n + 1)
  refine key.2 _ _ ?_
  rw [call_value (line := line) (prom := .unknown) (p := pos a W) hshape hname hf hd hargs]
  unfold invoke
  rw [if_neg (by simp [hlen]), if_pos (by exact hroom)]
  rfl

/-! ## Decisions -/

/-- **C44.** The code of an `iguala` used as an expression leaves the value of the selected arm on top,
above values `j` that it may leave too; nothing else is left if every case names parts of its subject and
no arm is left early.  That `j` need not be empty otherwise is `iguala_leaves_subject_violated`. -/
theorem iguala_code_partial (hK : LinkOk K) {line : Nat} {d : Decision} (C : Code K a W lp s s')
    (hok : okE W .value (.iguala line d) = true) (hg : genExpr a.cm.ctx (.iguala line d) s = .ok ((), s'))
    (hh : Here K a st vm s.ip k) (n : Nat) :
    (∀ v st', evalD K.cfg K.L n (pos a W) d st = .done (some v) st' →
      ∃ vm' j, Runs K vm vm' ∧ Here K a st' vm' s'.ip (k ++ j ++ [v]) ∧ (cleanD d = true → j = [])) ∧
    (∀ msg w, evalD K.cfg K.L n (pos a W) d st = .fail msg w → RunsErr K vm msg w) := by
  have hv : ∀ v st', evalD K.cfg K.L n (pos a W) d st = .done (some v) st' →
      evalE K.cfg K.L (n + 1) (pos a W) (.iguala line d) st = .done v st' := by
    intro v st' he
    simp only [evalE]
    change Out.next (evalD K.cfg K.L n (pos a W) d st) _ = _
    rw [he]; rfl
  constructor
  · intro v st' he
    by_cases hc : cleanD d = true
    · obtain ⟨vm', hr, hp⟩ := (expression_code_correct hK C hok (by simpa [cleanE] using hc) hg hh (n + 1)).1 v st' (hv v st' he)
      exact ⟨vm', [], hr, by simpa using hp, fun _ => rfl⟩
    · have key := (simulates hK (n + 1)).value (m := .any) C hok (fun h => absurd rfl h) hg hh
      rw [hv v st' he] at key
      obtain ⟨vm', j, -, hr, hp⟩ := key
      exact ⟨vm', j, hr, by simpa [Pushed] using hp, fun h => absurd h hc⟩
  · intro msg w he
    have key := (simulates hK (n + 1)).value (m := .any) C hok (fun h => absurd rfl h) hg hh
    have : evalE K.cfg K.L (n + 1) (pos a W) (.iguala line d) st = .fail msg w := by
      simp only [evalE]
      change Out.next (evalD K.cfg K.L n (pos a W) d st) _ = _
      rw [he]; rfl
    rw [this] at key
    exact key

end

end Amanda

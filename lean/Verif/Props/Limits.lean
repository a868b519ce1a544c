import Verif.Props.Correctness

/-!
# Where compiled programs do not do what the source says, and instances of the theorems that hold

The first part has, for each condition of `Verif.Props.Correctness` that is more than a rule of the
language, a program the compiler accepts whose image does something else than its source.  The second
part has machines and programs that meet the hypotheses of the theorems about pieces of code.
-/

namespace Amanda

open Source Codegen Compiled

/-! ## Violations -/

/-- A program of one module. -/
def only (syms : List Sym) (scopes : List ScopeTab) (body : List TStmt) : Prog where
  env := { syms := syms, scopes := scopes }
  builtinPath := "/embutidos.ama"
  library := fun p => if p = "/embutidos.ama" then "embutidos" else ""
  imports := [{ path := "/embutidos.ama", builtin := true, scope := 0, body := [] }]
  main := { path := "/m.ama", builtin := false, scope := 0, body := body }

/-- ```
enquanto verdadeiro:
  para j de 0 ate 2: quebra fim
  mostra 1
  quebra
fim
mostra 2
``` -/
def quebraProg : Prog := only [loc "/m.ama" "j" "_r21_"] [⟨[], none⟩, ⟨[], some 0⟩, ⟨[("j", 0)], some 1⟩]
  [.enquanto 1 (.const 1 "verdadeiro" .unknown) (.mk 1 [
     .para 2 "j" (lit "0") (lit "2") none (.mk 2 [.loopCtl 3 true]),
     .mostra 4 (lit "1"),
     .loopCtl 5 true]),
   .mostra 6 (lit "2")]

/-- **C38 is violated.** `gen_para` sets no labels for `quebra` (codegen.py:698-740), so a `quebra` in a
`para` inside an `enquanto` leaves the `enquanto`. -/
theorem quebra_innermost_violated :
    sourceEnd quebraProg 100 = some (none, "1\n2\n") ∧ machineEnd quebraProg 1000 = some (.exited 0 "2\n" "") := by
  decide +kernel

/-- ```
var n : int = 0
enquanto n < 2:
  n = n + 1
  para j de 0 ate 2: continua fim
  mostra n
fim
mostra 9
``` -/
def contProg : Prog := only [loc "/m.ama" "j" "_r21_", glob "/m.ama" "n" .var]
  [⟨[("n", 1)], none⟩, ⟨[], some 0⟩, ⟨[("j", 0)], some 1⟩]
  [.varDecl 1 "n" .int (some (.mk 1 (lit "0"))),
   .enquanto 2 (op2 .less (vr "n" 1) (lit "2")) (.mk 1 [
     .expr (.assign 3 1 (op2 .plus (vr "n" 1) (lit "1"))),
     .para 4 "j" (lit "0") (lit "2") none (.mk 2 [.loopCtl 5 false]),
     .mostra 6 (vr "n" 1)]),
   .mostra 7 (lit "9")]

/-- **C38 is violated** for `continua` in the same way. -/
theorem continua_innermost_violated :
    sourceEnd contProg 100 = some (none, "1\n2\n9\n") ∧ machineEnd contProg 1000 = some (.exited 0 "9\n" "") := by
  decide +kernel

/-- A variant without parts. -/
def nada : VariantRef := ⟨"Forma::Nada", 0⟩

/-- `mostra 10 - iguala x: caso Forma::Nada => produz 3 fim` with `x = Forma::Nada`. -/
def igualaProg : Prog := only [glob "/m.ama" "x" .var] [⟨[("x", 0)], none⟩, ⟨[], some 0⟩]
  [.uniao 1 "Forma" [nada],
   .varDecl 2 "x" .unknown (some (.mk 0 (.path 2 (some nada)))),
   .mostra 3 (op2 .minus (lit "10")
     (.iguala 3 (.switch 0 [.mk (.variant nada) [] (.success [] 3 1 [.produz 3 (lit "3")])] none)))]

/-- **C44 is violated.** The code of a case without parts leaves its subject on the stack
(codegen.py:784-797), below the value of the arm: here it is taken for the left operand. -/
theorem iguala_leaves_subject_violated :
    sourceEnd igualaProg 100 = some (none, "7\n") ∧ machineEnd igualaProg 1000 = some (.panicked "") := by
  decide +kernel

/-- `mostra iguala n: caso 1 => produz 6, caso z => produz 7 fim` after `var n : int = 5`, with the
decision tree of these arms: a switch whose fallback is the second arm. -/
def fallbackProg : Prog := only [glob "/m.ama" "n" .var, loc "/m.ama" "z" "_r10_"]
  [⟨[("n", 0)], none⟩, ⟨[], some 0⟩, ⟨[("z", 1)], some 0⟩]
  [.varDecl 1 "n" .int (some (.mk 0 (lit "5"))),
   .mostra 2 (.iguala 2 (.switch 0 [.mk (.int 1) [] (.success [] 2 1 [.produz 2 (lit "6")])]
     (some (.success [("z", 0)] 2 2 [.produz 2 (lit "7")]))))]

/-- **C44 is violated.** No code is generated for the fallback of a switch (codegen.py:762-763), so the
arm for all other numbers or texts never runs: instead of `7` the program shows `nulo`. -/
theorem iguala_fallback_violated :
    (∀ ctx subject cases fallback,
      genDecision ctx (.switch subject cases fallback) = genDecision ctx (.switch subject cases none)) ∧
    machineEnd fallbackProg 1000 = some (.exited 0 "nulo\n" "") := by
  refine ⟨fun ctx subject cases fallback => ?_, by decide +kernel⟩
  cases cases <;> simp [genDecision]

/-- ```
func g(): int  retorna 5 fim
func h(): int  g()  retorna 2 fim
mostra 10 - h()
``` -/
def junkProg : Prog := only [glob "/m.ama" "g" .func, glob "/m.ama" "h" .func]
  [⟨[("g", 0), ("h", 1)], none⟩, ⟨[], some 0⟩, ⟨[], some 0⟩]
  [.func 1 0 (.mk 1 [.retorna 1 (some (lit "5"))]),
   .func 2 1 (.mk 2 [.expr (cl "g" 0 []), .retorna 2 (some (lit "2"))]),
   .mostra 3 (op2 .minus (lit "10") (cl "h" 1 []))]

/-- **C48 is violated.** The value of a call used as a statement stays on the stack, and a function
without locals does not drop it when it returns (vm.rs:394-406): the caller's operand `10` is replaced
by `5`. -/
theorem call_keeps_operands_violated :
    sourceEnd junkProg 100 = some (none, "8\n") ∧ machineEnd junkProg 1000 = some (.exited 0 "3\n" "") := by
  decide +kernel

/-- A module that calls its own function at top level, and a program that imports it. -/
def importProg : Prog where
  env := { syms := [glob "/u.ama" "f" .func, glob "/u.ama" "x" .var, glob "/m.ama" "y" .var]
           scopes := [⟨[("f", 0), ("x", 1)], none⟩, ⟨[], some 0⟩, ⟨[("y", 2)], none⟩] }
  builtinPath := "/embutidos.ama"
  library := fun p => if p = "/embutidos.ama" then "embutidos" else ""
  imports := [{ path := "/embutidos.ama", builtin := true, scope := 0, body := [] },
    { path := "/u.ama", builtin := false, scope := 0
      body := [.func 1 0 (.mk 1 [.retorna 1 (some (lit "5"))]),
               .varDecl 2 "x" .int (some (.mk 1 (cl "f" 0 []))),
               .mostra 3 (vr "x" 1)] }]
  main := { path := "/m.ama", builtin := false, scope := 2, body := [.mostra 1 (vr "x" 1)] }

/-- **C48 is violated.** Returning to the top level of an imported module goes on in the code of the
main module (vm.rs:394-406: the frame of every module's top level says `main`). -/
theorem call_in_import_violated :
    sourceEnd importProg 100 = some (none, "5\n5\n") ∧ machineEnd importProg 1000 = some (.panicked "") := by
  decide +kernel

/-- `mostra (x = 1)`. -/
def assignProg : Prog := only [glob "/m.ama" "x" .var] [⟨[("x", 0)], none⟩]
  [.mostra 1 (.assign 1 0 (lit "1"))]

/-- **C46 outside `okE`.** An assignment used as an operand leaves no value. -/
theorem assignment_value_violated :
    sourceEnd assignProg 100 = some (none, "1\n") ∧ machineEnd assignProg 1000 = some (.exited 0 "nulo\n" "") := by
  decide +kernel

/-- Assigning a variable of another module. -/
def foreignProg : Prog where
  env := { syms := [glob "/u.ama" "x" .var], scopes := [⟨[("x", 0)], none⟩, ⟨[("x", 0)], none⟩] }
  builtinPath := "/embutidos.ama"
  library := fun p => if p = "/embutidos.ama" then "embutidos" else ""
  imports := [{ path := "/embutidos.ama", builtin := true, scope := 0, body := [] },
    { path := "/u.ama", builtin := false, scope := 0, body := [.varDecl 1 "x" .int (some (.mk 0 (lit "2")))] }]
  main := { path := "/m.ama", builtin := false, scope := 1
            body := [.expr (.assign 1 0 (lit "7")), .mostra 2 (vr "x" 0)] }

/-- **C47 outside `okS`.** `set_variable` stores under the running module's name table whatever module
the symbol is of (codegen.py), `load_variable` reads from the right one. -/
theorem foreign_assignment_violated :
    sourceEnd foreignProg 100 = some (none, "7\n") ∧ machineEnd foreignProg 1000 = some (.exited 0 "2\n" "") := by
  decide +kernel

/-- `x.f = y.f`. -/
def fieldProg : Prog := only [glob "/m.ama" "P" .type, glob "/m.ama" "x" .var, glob "/m.ama" "y" .var]
  [⟨[("P", 0), ("x", 1), ("y", 2)], none⟩]
  [.registo 1 "P" ["f"],
   .varDecl 2 "x" .unknown (some (.mk 1 (.call 2 (vr "P" 0) [.named 2 "f" (lit "1")] 0 .unknown))),
   .varDecl 3 "y" .unknown (some (.mk 2 (.call 3 (vr "P" 0) [.named 3 "f" (lit "2")] 0 .unknown))),
   .expr (.set 4 (.get 4 (vr "x" 1) "f" true) (.get 4 (vr "y" 2) "f" true)),
   .mostra 5 (.get 5 (vr "x" 1) "f" false)]

/-- **C47 outside `okE`.** A field read on the right of an assignment to a field is not read
(`gen_get` looks at the parent node). -/
theorem field_to_field_violated :
    sourceEnd fieldProg 100 = some (none, "2\n") ∧ machineEnd fieldProg 1000 = some (.panicked "") := by
  decide +kernel

/-! ## Instances -/

/-- The machine at the only statement of a program. -/
theorem single_start (F : Type) [FloatOps F] [LawfulFloatOps F] (cfg : Cfg) {P : Prog} {home : SymId → Option ScopeId}
    (hP : P.Ok home) (hS : SlotsFit P) {image : Bytes}
    (h : compileProgram P.env P.builtinPath P.main P.imports = .ok image) {m : ModuleIn} (hm : P.imports = [m])
    {c : TStmt} (hb : P.main.body = [c]) :
    ∃ (K : Link F) (a : Act F) (st : St F) (vm : VM F) (s0 s1 : Gen), LinkOk K ∧ K.cfg = cfg ∧ K.L = P.lang ∧ a.rest = [] ∧
      Code K a (P.wf home P.main true) (none, none) s0 s1 ∧ okS (P.wf home P.main true) c = true ∧
      genStmt a.cm.ctx c s0 = .ok ((), s1) ∧ Here K a (st.begin P.main.path []) vm s0.ip [] := by
  obtain ⟨d, prog, hd, hp, hL⟩ := load_ok (F := F) h (fun m hm out hc => consts_load hP hS hm hc)
  obtain ⟨a, st, vm, s0, s1, hr, hc, hg, hh⟩ := main_start (cfg := cfg) hP hS hL hm []
  refine ⟨_, a, st, vm, s0, s1, linkOk (cfg := cfg) (prog := prog) hP empty_text _, rfl, rfl, hr, hc, ?_, ?_, hh⟩
  · have := hP.main.2
    rw [hb] at this
    simpa [okSs] using this
  · rw [hb] at hg
    simp only [genStmts] at hg
    obtain ⟨u, s, h1, h2⟩ := G.bind_ok.1 hg
    cases h2
    exact h1

theorem compiles {P : Prog} (h : (compileProgram P.env P.builtinPath P.main P.imports).toOption.isSome = true) :
    ∃ image, compileProgram P.env P.builtinPath P.main P.imports = .ok image := by
  cases hc : compileProgram P.env P.builtinPath P.main P.imports with
  | ok image => exact ⟨image, rfl⟩
  | error e => rw [hc] at h; cases h

/-- The machine at the second of two statements. -/
theorem second_start (F : Type) [FloatOps F] [LawfulFloatOps F] (cfg : Cfg) {P : Prog} {home : SymId → Option ScopeId}
    (hP : P.Ok home) (hS : SlotsFit P) {image : Bytes}
    (h : compileProgram P.env P.builtinPath P.main P.imports = .ok image) {m : ModuleIn} (hm : P.imports = [m])
    {c0 c : TStmt} (hb : P.main.body = [c0, c]) {n : Nat} {f : St F → St F} (hclean : cleanSs true [c0] = true)
    (hrun : ∀ st : St F, evalSs cfg P.lang n ⟨P.main.path, some P.main.scope, 1⟩ [c0] st = .done none (f st)) :
    ∃ (K : Link F) (a : Act F) (st : St F) (vm : VM F) (s0 s1 : Gen), LinkOk K ∧ K.cfg = cfg ∧ K.L = P.lang ∧ a.rest = [] ∧
      Code K a (P.wf home P.main true) (none, none) s0 s1 ∧ okS (P.wf home P.main true) c = true ∧
      genStmt a.cm.ctx c s0 = .ok ((), s1) ∧ Here K a (f (st.begin P.main.path [])) vm s0.ip [] := by
  obtain ⟨d, prog, hd, hp, hL⟩ := load_ok (F := F) h (fun m hm out hc => consts_load hP hS hm hc)
  obtain ⟨a, st, vm, s0, s1, hr, hc, hg, hh⟩ := main_start (cfg := cfg) hP hS hL hm []
  have hok := hP.main.2
  rw [hb] at hg hok
  have hok2 : okSs (P.wf home P.main true) [c0] = true ∧ okSs (P.wf home P.main true) [c] = true := by
    simp only [okSs, Bool.and_eq_true, List.isEmpty] at hok ⊢
    exact ⟨⟨hok.1, trivial⟩, hok.2⟩
  have n1 : Nice (P.wf home P.main true).scope (genStmts a.cm.ctx [c0]) := nice_stmts hc hok2.1
  have n2 : Nice (P.wf home P.main true).scope (genStmts a.cm.ctx [c]) := nice_stmts hc hok2.2
  have hg' : (genStmts a.cm.ctx [c0] >>= fun _ => genStmts a.cm.ctx [c]) s0 = .ok ((), s1) := by
    simp only [genStmts] at hg ⊢
    obtain ⟨u, s, h1, h2⟩ := G.bind_ok.1 hg
    exact G.bind_ok.2 ⟨(), s, G.bind_ok.2 ⟨u, s, h1, rfl⟩, h2⟩
  obtain ⟨_, t, h1, h2, c1, c2⟩ := hc.cut hg' (by good) (fun _ => by good)
  have hK := linkOk (cfg := cfg) (prog := prog) hP empty_text (fun _ => true)
  obtain ⟨vm', j, -, hh', hj⟩ := (statements_code_correct hK c1 hok2.1 h1 hh n).1 (f (st.begin P.main.path [])) (by
    have := hrun (st.begin P.main.path [])
    unfold pos
    rw [hr]
    exact this)
  rw [hj hclean] at hh'
  refine ⟨_, a, st, vm', t, s1, hK, rfl, rfl, hr, c2, ?_, ?_, hh'⟩
  · simpa [okSs] using hok2.2
  · simp only [genStmts] at h2
    obtain ⟨u, s, h1, h2⟩ := G.bind_ok.1 h2
    cases h2
    exact h1

/-- `1 + 2 * 3`. -/
def sumProg : Prog := only [] [⟨[], none⟩] [.expr (op2 .plus (lit "1") (op2 .star (lit "2") (lit "3")))]

section
variable {F : Type} [FloatOps F] {cfg : Cfg} {L : Lang} {p : Pos} {st : St F}

theorem lit_value {t : String} {i : Int} (n : Nat) (h : (constOfStr t : Option (Val F)) = some (.int i)) :
    evalE cfg L (n + 1) p (lit t) st = .done (.int i) st := by
  simp only [lit, evalE, literal, h]
  rfl

theorem op2_value {op : TT} {o : Op} {a b : TExpr} {i j k : Int} {n : Nat} (h1 : operator op = some o)
    (ha : evalE cfg L n p a st = .done (.int i) st) (hb : evalE cfg L n p b st = .done (.int j) st)
    (hk : (binop (.int i) o (.int j) : Res (Val F)) = .ok (.int k)) :
    evalE cfg L (n + 1) p (op2 op a b) st = .done (.int k) st := by
  have hn : nuloTest op a b .int .int = none := by
    unfold nuloTest
    split <;> simp
  simp only [op2, evalE, hn]
  change Out.next (evalE cfg L n p a st) _ = _
  rw [ha]
  change Out.next (evalE cfg L n p b st) _ = _
  rw [hb]
  change Out.next (M.need (operator op) st) _ = _
  rw [h1]
  change Out.next (M.res (binop (.int i) o (.int j)) st) _ = _
  rw [hk]
  rfl

end

/-- An instance of `expression_code_correct`. -/
example : ∃ (K : Link WholeFloat) (a : Act WholeFloat) (st : St WholeFloat) (vm vm' : VM WholeFloat) (s0 s1 : Gen),
    Here K a st vm s0.ip [] ∧ Runs K vm vm' ∧ Here K a st vm' s1.ip [.int 7] := by
  have hP : sumProg.Ok (fun _ => none) := ok_of_check (by decide +kernel)
  have hS : SlotsFit sumProg := slots_of_check (by decide +kernel)
  obtain ⟨image, hi⟩ := compiles (P := sumProg) (by decide +kernel)
  obtain ⟨K, a, st, vm, s0, s1, hK, hcfg, hL, hr, hc, hok, hg, hh⟩ := single_start WholeFloat plainCfg hP hS hi rfl rfl
  obtain ⟨vm', h1, h2⟩ := (expression_code_correct hK hc (by decide +kernel) (by decide +kernel) hg hh 5).1 (.int 7)
    (st.begin sumProg.main.path [])
    (op2_value rfl (lit_value 3 rfl) (op2_value (k := 6) rfl (lit_value 2 rfl) (lit_value 2 rfl)
      (by decide +kernel)) (by decide +kernel))
  exact ⟨K, a, _, vm, vm', s0, s1, hh, h1, h2⟩

/-- `func g(x : int): int  retorna x + 1 fim`, `g(4)`. -/
def callProg : Prog := only [glob "/m.ama" "g" .func [1], loc "/m.ama" "x" "_r11_"]
  [⟨[("g", 0)], none⟩, ⟨[("x", 1)], some 0⟩]
  [.func 1 0 (.mk 1 [.retorna 1 (some (op2 .plus (vr "x" 1) (lit "1")))]),
   .expr (cl "g" 0 [lit "4"])]

/-- An instance of `call_code_partial` (and of `statements_code_correct`, for the declaration). -/
example : ∃ (K : Link WholeFloat) (a : Act WholeFloat) (st : St WholeFloat) (vm vm' : VM WholeFloat) (s0 s1 : Gen),
    Here K a st vm s0.ip [] ∧ Runs K vm vm' ∧ Here K a st vm' s1.ip [.int 5] := by
  have hP : callProg.Ok (homeIn callProg.env []) := ok_of_check (by decide +kernel)
  have hS : SlotsFit callProg := slots_of_check (by decide +kernel)
  obtain ⟨image, hi⟩ := compiles (P := callProg) (by decide +kernel)
  obtain ⟨K, a, st, vm, s0, s1, hK, hcfg, hL, hr, hc, hok, hg, hh⟩ :=
    second_start WholeFloat plainCfg hP hS hi rfl rfl (n := 2) (f := id) (by decide +kernel) (fun _ => rfl)
  have hd : K.L.funs "/m.ama" "g" = some ⟨[1], 1, [.retorna 1 (some (op2 .plus (vr "x" 1) (lit "1")))]⟩ := by
    rw [hL]; rfl
  obtain ⟨vm', h1, h2⟩ := (call_code_partial hK (n := 5) (i := 0) hc (by decide +kernel) (by decide +kernel) hg hh
    (by rw [hL]; rfl) rfl (by rw [hL]; rfl) hd
    (vs := [.int 4]) (st1 := st.begin callProg.main.path []) rfl rfl (by rw [hr]; decide)).1 (.int 5)
    { st.begin callProg.main.path [] with locals := fun x => assocGet ([1].zip [.int 4]) x } (by
      rw [hL]; rfl)
  exact ⟨K, a, _, vm, vm', s0, s1, hh, h1, h2⟩

/-- `para i de 0 ate 3: s = i fim`. -/
def paraProg : Prog := only [loc "/m.ama" "i" "_r11_", glob "/m.ama" "s" .var] [⟨[("s", 1)], none⟩, ⟨[("i", 0)], some 0⟩]
  [.para 1 "i" (lit "0") (lit "3") none (.mk 1 [.expr (.assign 1 1 (vr "i" 0))])]

/-- The state after the body of `paraProg`. -/
def paraProgSet (i : Int) (st : St WholeFloat) : St WholeFloat :=
  { st with globals := fun m n => if m = "/m.ama" ∧ n = "s" then some (.int i) else st.globals m n }

theorem paraProg_body (st : St WholeFloat) (p : Pos) (i : Int) (h : st.locals 0 = some (.int i)) :
    evalSs plainCfg paraProg.lang 4 p [.expr (.assign 1 1 (vr "i" 0))] st = .done none (paraProgSet i st) := by
  have hv : evalE plainCfg paraProg.lang 1 p (vr "i" 0) st = .done (.int i) st := by
    show Out.next (M.need (st.locals 0) st) _ = _
    rw [h]
    rfl
  have ha : evalE plainCfg paraProg.lang 2 p (.assign 1 1 (vr "i" 0)) st = .done (.int i) (paraProgSet i st) := by
    rw [evalE]
    change Out.next (evalE plainCfg paraProg.lang 1 p (vr "i" 0) st) _ = _
    rw [hv]
    rfl
  rw [evalSs]
  change Out.next (evalS plainCfg paraProg.lang 3 p (.expr (.assign 1 1 (vr "i" 0))) st) _ = _
  have hs : evalS plainCfg paraProg.lang 3 p (.expr (.assign 1 1 (vr "i" 0))) st = .done none (paraProgSet i st) := by
    simp only [evalS]
    change Out.next (evalE plainCfg paraProg.lang 2 p (.assign 1 1 (vr "i" 0)) st) _ = _
    rw [ha]
    rfl
  rw [hs]
  rfl

/-- An instance of `para_code_runs_range` (and of `paraParts_const` and `Iterates`). -/
example : ∃ (K : Link WholeFloat) (a : Act WholeFloat) (st st' : St WholeFloat) (vm vm' : VM WholeFloat) (s0 s1 : Gen)
    (j : List (Val WholeFloat)), Here K a st vm s0.ip [] ∧ Runs K vm vm' ∧ Here K a st' vm' s1.ip j ∧
      st'.globals "/m.ama" "s" = some (.int 2) := by
  have hP : paraProg.Ok (homeIn paraProg.env []) := ok_of_check (by decide +kernel)
  have hS : SlotsFit paraProg := slots_of_check (by decide +kernel)
  obtain ⟨image, hi⟩ := compiles (P := paraProg) (by decide +kernel)
  obtain ⟨K, a, st, vm, s0, s1, hK, hcfg, hL, hr, hc, hok, hg, hh⟩ := single_start WholeFloat plainCfg hP hS hi rfl rfl
  have H : ParaParts K.cfg K.L { pos a (paraProg.wf (homeIn paraProg.env []) paraProg.main true) with scope := some 1 } 0
      (lit "3") none [.expr (.assign 1 1 (vr "i" 0))] 3 1 (fun _ : St WholeFloat => True) := by
    rw [hL]
    exact paraParts_const rfl rfl (by show setsSs paraProg.lang.env 0 (some 1) _ = false; decide +kernel) ⟨1, fun st => lit_value 0 rfl⟩ ⟨1, fun st => rfl⟩
  let S (i : Int) (st : St WholeFloat) : St WholeFloat :=
    { st with locals := fun x => if x = 0 then some (.int i) else st.locals x }
  have key := (para_code_runs_range (x := 0) (b := 3) hK hc hok hg hh H (by decide) (by decide) (by decide)
    (lit_value 0 rfl) (by rw [hL]; rfl) (st1 := S 0 ((st.begin paraProg.main.path []).entered paraProg.lang 1)) (by rw [hL]; rfl) trivial).1
  have hrun : ∀ (i : Int) (st : St WholeFloat), ∃ m, evalSs K.cfg K.L m
      { pos a (paraProg.wf (homeIn paraProg.env []) paraProg.main true) with scope := some 1 }
      [.expr (.assign 1 1 (vr "i" 0))] (S i st) = .done none (paraProgSet i (S i st)) := by
    intro i st
    rw [hL, hcfg]
    exact ⟨4, paraProg_body _ _ i rfl⟩
  have hold : ∀ (i : Int) (st : St WholeFloat), Holds K.L 0 (S i st) (.int i) := by
    intro i st
    rw [hL]
    rfl
  have hw : ∀ (i : Int) (st : St WholeFloat), writeVar K.L 0 (some (.int (i + 1))) (paraProgSet i (S i st)) =
      .done () (S (i + 1) (paraProgSet i (S i st))) := by
    intro i st
    rw [hL]
    rfl
  have hrange : paraRange 0 3 1 = [0, 0 + 1, 0 + 1 + 1] := by decide
  rw [hrange] at key
  obtain ⟨vm', j, h1, h2⟩ := key _ (.round (hold 0 _) (.inl (hrun 0 _)) (by decide) (hw 0 _)
    (.round (hold (0 + 1) _) (.inl (hrun (0 + 1) _)) (by decide) (hw (0 + 1) _)
      (.round (hold (0 + 1 + 1) _) (.inl (hrun (0 + 1 + 1) _)) (by decide) (hw (0 + 1 + 1) _) .stop)))
  exact ⟨K, a, _, _, vm, vm', s0, s1, _, hh, h1, h2, rfl⟩

/-- `enquanto verdadeiro: quebra fim`. -/
def whileProg : Prog := only [] [⟨[], none⟩, ⟨[], some 0⟩]
  [.enquanto 1 (.const 1 "verdadeiro" .unknown) (.mk 1 [.loopCtl 1 true])]

/-- An instance of `quebra_code_partial`. -/
example : ∃ (K : Link WholeFloat) (a : Act WholeFloat) (st : St WholeFloat) (vm vm' : VM WholeFloat) (s0 s1 : Gen)
    (j : List (Val WholeFloat)), Here K a st vm s0.ip [] ∧ Runs K vm vm' ∧ Here K a st vm' s1.ip j := by
  have hP : whileProg.Ok (fun _ => none) := ok_of_check (by decide +kernel)
  have hS : SlotsFit whileProg := slots_of_check (by decide +kernel)
  obtain ⟨image, hi⟩ := compiles (P := whileProg) (by decide +kernel)
  obtain ⟨K, a, st, vm, s0, s1, hK, hcfg, hL, hr, hc, hok, hg, hh⟩ := single_start WholeFloat plainCfg hP hS hi rfl rfl
  obtain ⟨vm', j, h1, h2⟩ := quebra_code_partial hK hc hok hg hh (n := 2) (st1 := st.begin whileProg.main.path [])
    (st2 := st.begin whileProg.main.path []) (by rw [hL]; rfl) (by rw [hL]; rfl)
  exact ⟨K, a, _, vm, vm', s0, s1, _, hh, h1, h2⟩

/-- `enquanto n < 1: n = 1  continua fim` after `var n : int = 0`. -/
def againProg : Prog := only [glob "/m.ama" "n" .var] [⟨[("n", 0)], none⟩, ⟨[], some 0⟩]
  [.varDecl 1 "n" .int (some (.mk 0 (lit "0"))),
   .enquanto 1 (op2 .less (vr "n" 0) (lit "1")) (.mk 1 [.expr (.assign 1 0 (lit "1")), .loopCtl 1 false])]

/-- The state in which `n` is `i`. -/
def againSt (i : Int) (st : St WholeFloat) : St WholeFloat :=
  { st with globals := fun m n => if m = "/m.ama" ∧ n = "n" then some (.int i) else st.globals m n }

/-- An instance of `continua_code_partial`. -/
example : ∃ (K : Link WholeFloat) (a : Act WholeFloat) (st : St WholeFloat) (vm vm' : VM WholeFloat) (s0 s1 : Gen)
    (j : List (Val WholeFloat)), Here K a (againSt 0 st) vm s0.ip [] ∧ Runs K vm vm' ∧
      Here K a (againSt 1 (againSt 0 st)) vm' s1.ip j := by
  have hP : againProg.Ok (fun _ => none) := ok_of_check (by decide +kernel)
  have hS : SlotsFit againProg := slots_of_check (by decide +kernel)
  obtain ⟨image, hi⟩ := compiles (P := againProg) (by decide +kernel)
  obtain ⟨K, a, st, vm, s0, s1, hK, hcfg, hL, hr, hc, hok, hg, hh⟩ :=
    second_start WholeFloat plainCfg hP hS hi rfl rfl (n := 3) (f := againSt 0) (by decide +kernel) (fun _ => rfl)
  obtain ⟨vm', j, h1, h2⟩ := continua_code_partial hK hc hok hg hh (n := 4)
    (st1 := againSt 0 (st.begin againProg.main.path [])) (st2 := againSt 1 (againSt 0 (st.begin againProg.main.path [])))
    (st3 := againSt 1 (againSt 0 (st.begin againProg.main.path [])))
    (by rw [hL]; rfl) (by rw [hL]; rfl) (by rw [hL]; rfl)
  exact ⟨K, a, _, vm, vm', s0, s1, _, hh, h1, h2⟩

/-- `iguala n: caso 4 => produz 6 ... fim` after `var n : int = 4`. -/
def matchProg : Prog := only [glob "/m.ama" "n" .var] [⟨[("n", 0)], none⟩, ⟨[], some 0⟩]
  [.varDecl 1 "n" .int (some (.mk 0 (lit "4"))),
   .expr (.iguala 1 (.switch 0 [.mk (.int 3) [] (.success [] 1 1 [.produz 1 (lit "5")]),
                                .mk (.int 4) [] (.success [] 1 1 [.produz 1 (lit "6")])] none))]

/-- An instance of `iguala_code_partial`. -/
example : ∃ (K : Link WholeFloat) (a : Act WholeFloat) (st : St WholeFloat) (vm vm' : VM WholeFloat) (s0 s1 : Gen)
    (j : List (Val WholeFloat)), Here K a st vm s0.ip [] ∧ Runs K vm vm' ∧ Here K a st vm' s1.ip (j ++ [.int 6]) := by
  have hP : matchProg.Ok (fun _ => none) := ok_of_check (by decide +kernel)
  have hS : SlotsFit matchProg := slots_of_check (by decide +kernel)
  obtain ⟨image, hi⟩ := compiles (P := matchProg) (by decide +kernel)
  obtain ⟨K, a, st, vm, s0, s1, hK, hcfg, hL, hr, hc, hok, hg, hh⟩ :=
    second_start WholeFloat plainCfg hP hS hi rfl rfl (n := 3) (f := fun st => { st with
      globals := fun m n => if m = "/m.ama" ∧ n = "n" then some (.int 4) else st.globals m n })
      (by decide +kernel) (fun _ => rfl)
  obtain ⟨vm', j, h1, h2, -⟩ := (iguala_code_partial hK hc (by decide +kernel) hg hh 9).1 (.int 6) _ (by rw [hL]; rfl)
  exact ⟨K, a, _, vm, vm', s0, s1, j, hh, h1, h2⟩

end Amanda

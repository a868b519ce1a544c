import Verif.FragProg

/-!
# The state in which the analysis of a program begins
-/

namespace Amanda.Check

open Source Imports

/-- The statements of a module without `usa` (check/core.py:300-302). -/
def libChildren (cfg : CCfg) (p : Path) : List Stmt → CState → Except PyErr CState
  | [], s => .ok s
  | st :: rest, s => do
      let s ← (visitChild cfg p st).run s
      libChildren cfg p rest s

/-- A new analyzer with the file of the builtin functions `b` loaded, whose tree is `t`
(check/core.py:44-75). -/
def libState (cfg : CCfg) (b : Path) (t : Tree) : Except PyErr CState := do
  let s ← freshAna.run (initState (pstr b))
  let s ← (openModule cfg b t.annotations).run s
  let s ← libChildren cfg b t.stmts s
  let s ← (closeModule b t).run s
  initOpcao.run s

/-- A tree without `usa`. -/
def Tree.plain (t : Tree) : Bool := t.stmts.all fun s => match s with | .usa .. => false | _ => true

theorem children_lib {cfg : CCfg} {py : PyCfg} {files : Files}
    {load : Path → Token → UsaMode → LState CState → Except LErr (LState CState)} :
    ∀ {sts : List Stmt} {ls : LState CState}, (sts.all fun s => match s with | .usa .. => false | _ => true) = true →
      visitChildren (icfg cfg py files) load sts ls =
        (liftE ls.ctx (libChildren cfg ls.ctx sts ls.rest)).map fun r => { ls with rest := r }
  | [], ls, _ => rfl
  | st :: sts, ls, h => by
      simp only [List.all_cons, Bool.and_eq_true] at h
      cases st with
      | usa => simp at h
      | _ =>
        simp only [visitChildren, libChildren]
        show (liftE ls.ctx ((visitChild cfg ls.ctx _).run ls.rest) >>= _) = _
        cases (visitChild cfg ls.ctx _).run ls.rest with
        | error e => rfl
        | ok r =>
            show visitChildren (icfg cfg py files) load sts { ls with rest := r } = _
            rw [children_lib h.2]
            rfl

/-- The analysis of a program begins with the library loaded, whatever the path of the program. -/
theorem analyzer_lib {cfg : CCfg} {py : PyCfg} {files : Files} {n : Nat} {main : Path} {bt : Tree}
    (hp : parseFile (icfg cfg py files) (builtinPath files) = .ok bt) (hb : Tree.plain bt = true) :
    newAnalyzer (icfg cfg py files) (loadModule (icfg cfg py files) (n + 1)) main
        { imports := [], ctx := main, log := [], rest := initState (pstr (builtinPath files)) } =
      (liftE (builtinPath files) (libState cfg (builtinPath files) bt)).map fun r =>
        ⟨[(builtinPath files, true)], main, [builtinPath files], r⟩ := by
  have hst : status ([] : List (Path × Bool)) (builtinPath files) = none := rfl
  simp only [newAnalyzer, libState]
  show (liftE main (freshAna.run _) >>= _) = _
  obtain ⟨r0, hr0⟩ : ∃ r0, freshAna.run (initState (pstr (builtinPath files))) = .ok r0 := ⟨_, rfl⟩
  rw [hr0]
  show ((loadModule (icfg cfg py files) (n + 1) (builtinPath files) noTok .global ⟨[], main, [], r0⟩) >>= _) = _
  simp only [loadModule, hst, analyse, visitModule, hp, visitTree]
  show ((((liftE (builtinPath files) ((openModule cfg (builtinPath files) bt.annotations).run r0) >>= _) >>= _)) >>= _) = _
  show _ = (liftE (builtinPath files) ((openModule cfg (builtinPath files) bt.annotations).run r0 >>= _)).map _
  cases (openModule cfg (builtinPath files) bt.annotations).run r0 with
  | error e => rfl
  | ok r1 =>
  show (((visitChildren _ _ _ _ >>= _) >>= _) >>= _) = _
  rw [children_lib hb]
  show _ = (liftE (builtinPath files) (libChildren cfg (builtinPath files) bt.stmts r1 >>= _)).map _
  show ((((liftE (builtinPath files) (libChildren cfg (builtinPath files) bt.stmts r1)).map _ >>= _) >>= _) >>= _) = _
  cases libChildren cfg (builtinPath files) bt.stmts r1 with
  | error e => rfl
  | ok r2 =>
  show (((liftE (builtinPath files) ((closeModule (builtinPath files) bt).run r2) >>= _) >>= _) >>= _) = _
  show _ = (liftE (builtinPath files) ((closeModule (builtinPath files) bt).run r2 >>= _)).map _
  cases (closeModule (builtinPath files) bt).run r2 with
  | error e => rfl
  | ok r3 =>
  show (liftE (builtinPath files) (initOpcao.run r3) >>= _) = (liftE (builtinPath files) (initOpcao.run r3)).map _
  cases initOpcao.run r3 with
  | error e => rfl
  | ok r4 => simp [liftE, Except.map, bind, Except.bind, setLoaded]

/-- What a program accepted by the checker is made of. -/
theorem accepted_tree {cfg : CCfg} {py : PyCfg} {files : Files} {n : Nat} {main : Path} {t bt : Tree} {P : Prog}
    (hp : parseFile (icfg cfg py files) (builtinPath files) = .ok bt) (hb : Tree.plain bt = true)
    (h : checkFile cfg py files n main t = .ok P) :
    ∃ m r ls', n = m + 1 ∧ libState cfg (builtinPath files) bt = .ok r ∧
      visitTree (icfg cfg py files) (loadModule (icfg cfg py files) n) t
        ⟨[(builtinPath files, true)], main, [builtinPath files], r⟩ = .ok ls' ∧
      P = { env := ⟨ls'.rest.syms.map CSym.toSym, ls'.rest.scopes⟩, builtinPath := pstr (builtinPath files),
            main := modIn ls'.rest main, imports := ls'.imports.map fun i => modIn ls'.rest i.1,
            library := Codegen.moduleName } := by
  unfold checkFile at h
  cases hc : checkProgram cfg py files n main t with
  | error e => rw [hc] at h; cases h
  | ok Q =>
  rw [hc] at h
  cases h
  simp only [checkProgram] at hc
  obtain ⟨ls, h1, hc⟩ := except_bind_eq_ok.mp hc
  obtain ⟨ls', h2, hc⟩ := except_bind_eq_ok.mp hc
  cases hc
  cases n with
  | zero =>
      simp only [newAnalyzer] at h1
      obtain ⟨r, -, h1⟩ := except_bind_eq_ok.mp h1
      obtain ⟨r, h1, -⟩ := except_bind_eq_ok.mp h1
      simp [loadModule] at h1
  | succ m =>
      rw [analyzer_lib hp hb] at h1
      cases hl : libState cfg (builtinPath files) bt with
      | error e => rw [hl] at h1; cases h1
      | ok r =>
          rw [hl] at h1
          cases h1
          exact ⟨m, r, ls', rfl, rfl, h2, rfl⟩

end Amanda.Check

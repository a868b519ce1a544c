import Verif.CheckLines
import Verif.ImportsSpec

/-!
# Loading the imports: the file and the line of an error

Follows `Verif.Imports` with the checker of `Verif.Elaborate` as its parameter.
-/

namespace Amanda.Check

open Imports Lines

/-- The line is one of the file. -/
def FileLine (files : Files) (p : Path) (l : Nat) : Prop := ∃ text, files.read p = .ok text ∧ LineOf text l

/-- The files a program is made of: what can be reached from the program and from the builtin module. -/
def PartOf {σ : Type} (c : ICfg σ) (main p : Path) : Prop := Reachable c main p ∨ Reachable c (builtinPath c.files) p

/-- The message says that a name is in use. -/
def Taken (name msg : String) : Prop :=
  msg = "O identificador '" ++ name ++ "' já foi declarado neste escopo" ∨ msg = "O atributo '" ++ name ++ "' já foi declarado neste registo"

/-- The error is about the alias of an import whose name is in use; it has the line of the import but the file that is
imported. -/
def Mislaid {σ : Type} (c : ICfg σ) (main f : Path) (l : Nat) (msg : String) : Prop :=
  ∃ g tree tok module name, PartOf c main g ∧ parseFile c g = .ok tree ∧ Stmt.usa tok module (.scoped name) ∈ tree.stmts ∧
    target c.files module = some f ∧ l = tok.line ∧ FileLine c.files g l ∧ Taken name.str msg

/-- The error names a line of the file it names, or is one of those just described. -/
def Right {σ : Type} (c : ICfg σ) (main : Path) : LErr → Prop
  | .cyclic f _ l => FileLine c.files f l
  | .py f (.amanda m l _) => FileLine c.files f l ∨ Mislaid c main f l m
  | _ => True

/-- The errors for the user are on lines of `Q`; the analyzers that wait are the same. -/
def Ends (Q : Nat → Prop) (w : List Ana) : Except PyErr CState → Prop
  | .ok s => s.waiting = w
  | .error (.amanda _ l _) => Q l
  | .error _ => True

section
variable {cfg : CCfg} {Q : Nat → Prop}

theorem openModule_ends {p : Path} {as : List Annotation} (h : ∀ a ∈ as, Q a.tok.line) (s : CState) :
    Ends Q s.waiting ((openModule cfg p as).run s) := by
  unfold openModule
  split
  · rfl
  · rename_i a ha
    split
    · rfl
    · exact h _ (List.mem_of_find?_eq_some ha)

theorem run_anew {m : C Unit} (h : Anew Q m) (s : CState) :
    Ends Q s.waiting (m.run s) := by
  have := h s
  unfold C.run
  cases hm : m s with
  | ok r => rw [hm] at this; exact this.2
  | error e => rw [hm] at this; cases e <;> exact this

theorem run_lined {m : C Unit} (h : Lined Q m) (s : CState) (hs : Q s.ana.line) :
    Ends Q s.waiting (m.run s) := by
  have := h.run s hs
  unfold C.run
  cases hm : m s with
  | ok r => rw [hm] at this; exact this.2
  | error e => rw [hm] at this; cases e <;> exact this

theorem run_hushed {m : C Unit} [h : Hushed m] (s : CState) :
    Ends (fun _ => False) s.waiting (m.run s) := by
  have := h.run s
  unfold C.run
  cases hm : m s with
  | ok r => rw [hm] at this; exact this
  | error e => rw [hm] at this; cases e <;> exact this

theorem visitChild_anew (h1 : Q 1) {p : Path} {st : Stmt} (h : stmtLines Q st) : Anew Q (visitChild cfg p st) := by
  unfold visitChild
  exact (visitS_anew h1 st h _ _).bind fun _ => Lined.modify fun _ => ⟨rfl, rfl⟩

instance {n : String} : Lined Q (assertFreeHere n) := by unfold assertFreeHere; lined

instance {a : Token} {p : Path} : Lined Q (defineAlias a p) := by unfold defineAlias; lined

theorem defineItems_lined {p : Path} : ∀ l, Lined Q (defineItems p l)
  | [] => by unfold defineItems; lined
  | x :: xs => by
      unfold defineItems
      have := defineItems_lined (p := p) xs
      lined

/-- The errors of an alias. -/
theorem defineAlias_taken {a : Token} {p : Path} {s : CState} {m : String} {l : Nat} {c : Int}
    (h : (defineAlias a p).run s = .error (.amanda m l c)) : l = s.ana.line ∧ Taken a.str m := by
  unfold C.run defineAlias assertFreeHere at h
  cases hf : ((s.scopes[s.ana.ctxScope]?.map ScopeTab.symbols).getD []).find? (·.1 == a.str) with
  | none => simp [bind, C.get, getIn, symbolsOf, newSym, define, pure, hf, C.modify] at h
  | some i =>
    cases hr : s.ana.ctxReg with
    | true =>
      simp [bind, C.get, getIn, symbolsOf, pure, hf, hr, C.error] at h
      exact ⟨h.2.1.symm, .inr h.1.symm⟩
    | false =>
      simp [bind, C.get, getIn, symbolsOf, pure, hf, hr, C.error] at h
      exact ⟨h.2.1.symm, .inl h.1.symm⟩

end

/-! ## The loader -/

section
variable {cfg : CCfg} {py : PyCfg} {files : Files} {main : Path}

/-- A result of the loader: an error is right; otherwise the module and the analyzers that wait are the same. -/
def Fair (c : ICfg CState) (main : Path) (w : List Ana) (ctx : Path) : Except LErr (LState CState) → Prop
  | .ok s => s.ctx = ctx ∧ s.rest.waiting = w
  | .error e => Right c main e

/-- What is asked of the files: reading one gives no error for the user, and their format strings are plain. -/
structure Legible (c : ICfg CState) (main : Path) : Prop where
  python : c.py.Lawful
  errors : ∀ p, Silent (c.files.read p)
  plain : ∀ p text, PartOf c main p → c.files.read p = .ok text → PlainFormats c.py text

theorem PartOf.step {c : ICfg CState} {p q : Path} (h : PartOf c main p) (hi : Imp c p q) : PartOf c main q := by
  rcases h with h | h
  · exact .inl (h.tail hi)
  · exact .inr (h.tail hi)

theorem Legible.tree {c : ICfg CState} (hl : Legible c main) {p : Path} (hp : PartOf c main p) {t : Tree} (h : parseFile c p = .ok t) :
    treeLines (FileLine c.files p) t ∧ (t.stmts ≠ [] → FileLine c.files p 1) := by
  unfold parseFile at h
  split at h
  · cases h
  · rename_i text hr
    have he : FileLine c.files p = LineOf text := by
      funext l
      exact propext ⟨fun ⟨x, hx, h⟩ => by rw [hr] at hx; cases hx; exact h, fun h => ⟨_, hr, h⟩⟩
    rw [he]
    refine ⟨parse_lines hl.python (hl.plain p text hp hr) h, fun hne => ?_⟩
    cases text with
    | nil => cases h; exact absurd rfl hne
    | cons c cs => exact ⟨[], c, cs, rfl, rfl⟩

theorem Legible.syntax {c : ICfg CState} (hl : Legible c main) {p : Path} {m : String} {l : Nat} {col : Int}
    (h : parseFile c p = .error (.amanda m l col)) : FileLine c.files p l := by
  unfold parseFile at h
  split at h
  · rename_i e hr
    cases h
    exact absurd hr (hl.errors p m l col)
  · rename_i text hr
    exact ⟨text, hr, syntax_error_line hl.python text h⟩

/-- What an import is asked for. -/
def Asked (c : ICfg CState) (main p : Path) (tok : Token) (mode : UsaMode) (s : LState CState) : Prop :=
  (status s.imports p = none ∧ mode = .global) ∨
    (FileLine c.files s.ctx tok.line ∧ s.rest.ana.line = tok.line ∧ PartOf c main s.ctx ∧
      ∃ tree module, parseFile c s.ctx = .ok tree ∧ Stmt.usa tok module mode ∈ tree.stmts ∧ target c.files module = some p)

/-- The loader is right about files that are part of the program. -/
def Loads (c : ICfg CState) (main : Path) (load : Path → Token → UsaMode → LState CState → Except LErr (LState CState)) : Prop :=
  ∀ p tok mode s, PartOf c main p → Asked c main p tok mode s → Fair c main s.rest.waiting s.ctx (load p tok mode s)

theorem right_of_ends {c : ICfg CState} {Q : Nat → Prop} {w : List Ana} {f : Path} {e : PyErr} (hq : ∀ l, Q l → FileLine c.files f l)
    (h : Ends Q w (.error e)) : Right c main (.py f e) := by
  cases e with
  | amanda m l col => exact .inl (hq _ h)
  | _ => trivial

variable {c : ICfg CState} {load : Path → Token → UsaMode → LState CState → Except LErr (LState CState)}

theorem visitChildren_fair (hc : c.hooks = hooks cfg) (hl : Legible c main) (hload : Loads c main load) {tree : Tree} :
    ∀ (ss : List Stmt) (s : LState CState), (∀ st ∈ ss, st ∈ tree.stmts) → PartOf c main s.ctx → parseFile c s.ctx = .ok tree →
      Fair c main s.rest.waiting s.ctx (visitChildren c load ss s)
  | [], s, _, _, _ => ⟨rfl, rfl⟩
  | st :: rest, s, hm, hs, ht => by
      obtain ⟨⟨-, hlines⟩, h1⟩ := hl.tree hs ht
      have hst := hm st (by simp)
      have h1 := h1 (List.ne_nil_of_mem hst)
      have hst' := hlines st hst
      have hm' : ∀ st ∈ rest, st ∈ tree.stmts := fun x hx => hm x (List.mem_cons_of_mem _ hx)
      by_cases hu : ∃ tok module mode, st = .usa tok module mode
      · obtain ⟨tok, module, mode, rfl⟩ := hu
        have htok : FileLine c.files s.ctx tok.line := by
          rcases hst' with h | h
          · exact h.1
          · simp [stmtLines] at h
        simp only [visitChildren, visitUsa]
        cases htg : target c.files module with
        | none =>
          simp only [pathError]
          split
          · exact .inl htok
          · trivial
        | some p =>
          have hf := hload p tok mode { s with rest := c.hooks.enter tok s.rest } (hs.step ⟨tree, ht, tok, module, mode, hst, htg⟩)
            (.inr ⟨htok, by rw [hc]; rfl, hs, tree, module, ht, hst, htg⟩)
          dsimp only
          cases hr : load p tok mode { s with rest := c.hooks.enter tok s.rest } with
          | error e => rw [hr] at hf; exact hf
          | ok s' =>
            rw [hr] at hf
            obtain ⟨hf1, hf2⟩ := hf
            have hw : (c.hooks.enter tok s.rest).waiting = s.rest.waiting := by rw [hc]; rfl
            have := visitChildren_fair hc hl hload rest s' hm' (hf1 ▸ hs) (by rw [hf1]; exact ht)
            dsimp only at hf1 hf2
            rw [hf1, hf2, hw] at this
            exact this
      · have hlin : stmtLines (FileLine c.files s.ctx) st := by
          rcases hst' with h | h
          · cases st <;> first | exact absurd ⟨_, _, _, rfl⟩ hu | exact h.elim
          · exact h
        rw [visitChildren]
        · have hv := run_anew (visitChild_anew (cfg := cfg) (p := s.ctx) h1 hlin) s.rest
          have he : c.hooks.stmt s.ctx st s.rest = (visitChild cfg s.ctx st).run s.rest := by rw [hc]; rfl
          rw [he]
          cases hr : (visitChild cfg s.ctx st).run s.rest with
          | error e => rw [hr] at hv; exact right_of_ends (fun _ h => h) hv
          | ok r =>
            rw [hr] at hv
            have := visitChildren_fair hc hl hload rest { s with rest := r } hm' hs ht
            dsimp only at this
            rw [show r.waiting = s.rest.waiting from hv] at this
            exact this
        · intro a b d h
          exact hu ⟨a, b, d, h⟩

theorem visitTree_fair (hc : c.hooks = hooks cfg) (hl : Legible c main) (hload : Loads c main load) {tree : Tree} (s : LState CState)
    (hs : PartOf c main s.ctx) (ht : parseFile c s.ctx = .ok tree) : Fair c main s.rest.waiting s.ctx (visitTree c load tree s) := by
  obtain ⟨⟨ha, -⟩, -⟩ := hl.tree hs ht
  unfold visitTree
  have ho := openModule_ends (cfg := cfg) (p := s.ctx) ha s.rest
  have he : c.hooks.annotations s.ctx tree.annotations s.rest = (openModule cfg s.ctx tree.annotations).run s.rest := by rw [hc]; rfl
  rw [he]
  cases hr : (openModule cfg s.ctx tree.annotations).run s.rest with
  | error e => rw [hr] at ho; exact right_of_ends (fun _ h => h) ho
  | ok r =>
    rw [hr] at ho
    have hv := visitChildren_fair hc hl hload tree.stmts { s with log := s.log ++ [s.ctx], rest := r } (fun _ h => h) hs ht
    dsimp only at hv
    simp only [liftE, except_bind_ok]
    cases hr' : visitChildren c load tree.stmts { s with log := s.log ++ [s.ctx], rest := r } with
    | error e => rw [hr'] at hv; exact hv
    | ok s' =>
      rw [hr'] at hv
      obtain ⟨h1, h2⟩ := hv
      simp only [except_bind_ok]
      have hq := run_hushed (m := closeModule s'.ctx tree) s'.rest
      have he : c.hooks.finish s'.ctx tree s'.rest = (closeModule s'.ctx tree).run s'.rest := by rw [hc]; rfl
      rw [he]
      cases hr'' : (closeModule s'.ctx tree).run s'.rest with
      | error e => rw [hr''] at hq; exact right_of_ends (fun _ h => h.elim) hq
      | ok r' =>
        rw [hr''] at hq
        exact ⟨h1, (show r'.waiting = s'.rest.waiting from hq).trans (h2.trans ho)⟩

theorem visitModule_fair (hc : c.hooks = hooks cfg) (hl : Legible c main) (hload : Loads c main load) (s : LState CState)
    (hs : PartOf c main s.ctx) : Fair c main s.rest.waiting s.ctx (visitModule c load s) := by
  unfold visitModule
  cases hr : parseFile c s.ctx with
  | error e =>
    cases e with
    | amanda m l col => exact .inl (hl.syntax hr)
    | _ => trivial
  | ok t => exact visitTree_fair hc hl hload s hs hr

theorem newAnalyzer_fair (hc : c.hooks = hooks cfg) (hload : Loads c main load) (p : Path) (s : LState CState) :
    Fair c main (s.rest.ana :: s.rest.waiting) p (newAnalyzer c load p s) := by
  unfold newAnalyzer
  have he : c.hooks.fresh p s.rest = freshAna.run s.rest := by rw [hc]; rfl
  obtain ⟨r, hr, hw⟩ : ∃ r, freshAna.run s.rest = .ok r ∧ r.waiting = s.rest.ana :: s.rest.waiting := ⟨_, rfl, rfl⟩
  rw [he, hr]
  simp only [liftE, except_bind_ok]
  have hf := hload (builtinPath c.files) noTok .global { s with imports := [], ctx := p, rest := r } (.inr .refl) (.inl ⟨rfl, rfl⟩)
  cases hr' : load (builtinPath c.files) noTok .global { s with imports := [], ctx := p, rest := r } with
  | error e => rw [hr'] at hf; exact hf
  | ok s' =>
    rw [hr'] at hf
    obtain ⟨h1, h2⟩ := hf
    simp only [except_bind_ok]
    have hq := run_hushed (m := initOpcao) s'.rest
    have he : c.hooks.embutidos s'.rest = initOpcao.run s'.rest := by rw [hc]; rfl
    rw [he]
    cases hr'' : initOpcao.run s'.rest with
    | error e => rw [hr''] at hq; exact right_of_ends (fun _ h => h.elim) hq
    | ok r' =>
      rw [hr''] at hq
      exact ⟨h1, (show r'.waiting = s'.rest.waiting from hq).trans (h2.trans hw)⟩

/-- After an import that is not global the analyzer that waited goes on. -/
theorem loadScoped_fair (hc : c.hooks = hooks cfg) (hl : Legible c main) (hload : Loads c main load) (p : Path) (hp : PartOf c main p)
    (s : LState CState) :
    match loadScoped c load p s with
    | .ok s' => s'.ctx = p ∧ s'.rest.waiting = s.rest.waiting ∧ s'.rest.ana = s.rest.ana
    | .error e => Right c main e := by
  unfold loadScoped
  have hn := newAnalyzer_fair hc hload p s
  cases hr : newAnalyzer c load p s with
  | error e => rw [hr] at hn; exact hn
  | ok a =>
    rw [hr] at hn
    obtain ⟨h1, h2⟩ := hn
    simp only [except_bind_ok]
    have hv := visitModule_fair hc hl hload { a with imports := s.imports, ctx := p } hp
    cases hr' : visitModule c load { a with imports := s.imports, ctx := p } with
    | error e => rw [hr'] at hv; exact hv
    | ok s' =>
      rw [hr'] at hv
      obtain ⟨h3, h4⟩ := hv
      simp only [except_bind_ok]
      have h5 : s'.rest.waiting = s.rest.ana :: s.rest.waiting := h4.trans h2
      have hb : c.hooks.back s'.rest = { s'.rest with ana := s.rest.ana, waiting := s.rest.waiting } := by
        rw [hc]
        simp only [hooks, h5]
      rw [hb]
      exact ⟨h3, rfl, rfl⟩

theorem loadModule_loads (hc : c.hooks = hooks cfg) (hl : Legible c main) : ∀ n, Loads c main (loadModule c n)
  | 0 => fun _ _ _ _ _ _ => trivial
  | n + 1 => by
      have ih := loadModule_loads hc hl n
      intro p tok mode s hp ha
      have hal : ∀ a : Token, ∀ r : CState, c.hooks.alias s.ctx a p r = (defineAlias a p).run r := fun a r => by rw [hc]; rfl
      have hit : ∀ is, ∀ r : CState, r.ana.line = tok.line → FileLine c.files s.ctx tok.line →
          Ends (FileLine c.files s.ctx) r.waiting (c.hooks.items s.ctx is p r) := by
        intro is r hr hf
        have : c.hooks.items s.ctx is p r = C.run (match is with
            | [] => C.raise "TypeError"
            | is => defineItems p is) r := by rw [hc]; rfl
        rw [this]
        cases is with
        | nil => trivial
        | cons x xs => exact run_lined (defineItems_lined _) r (hr ▸ hf)
      unfold loadModule
      cases hst : status s.imports p with
      | some b =>
        rcases ha with ⟨h, -⟩ | ⟨h1, h2, h3, tree, module, h4, h5, h6⟩
        · rw [hst] at h; cases h
        cases b with
        | false =>
          simp only [pathError]
          split
          · exact h1
          · trivial
        | true =>
          cases mode with
          | global => exact ⟨rfl, rfl⟩
          | «scoped» a =>
            simp only [defineNames]
            rw [hal]
            have hq := run_lined (Q := FileLine c.files s.ctx) (m := defineAlias a p) inferInstance s.rest (h2 ▸ h1)
            cases hr : (defineAlias a p).run s.rest with
            | error e => rw [hr] at hq; exact right_of_ends (fun _ h => h) hq
            | ok r => rw [hr] at hq; exact ⟨rfl, hq⟩
          | item is =>
            simp only [defineNames]
            have hq := hit is s.rest h2 h1
            cases hr : c.hooks.items s.ctx is p s.rest with
            | error e => rw [hr] at hq; exact right_of_ends (fun _ h => h) hq
            | ok r => rw [hr] at hq; exact ⟨rfl, hq⟩
      | none =>
        cases mode with
        | global =>
          simp only [analyse, defineNames, except_bind_ok]
          have hv := visitModule_fair hc hl ih { s with ctx := p, imports := s.imports ++ [(p, false)] } hp
          cases hr : visitModule c (loadModule c n) { s with ctx := p, imports := s.imports ++ [(p, false)] } with
          | error e => rw [hr] at hv; exact hv
          | ok s' => rw [hr] at hv; exact ⟨rfl, hv.2⟩
        | «scoped» a =>
          rcases ha with ⟨-, h⟩ | ⟨h1, h2, h3, tree, module, h4, h5, h6⟩
          · cases h
          simp only [analyse, defineNames]
          have hv := loadScoped_fair hc hl ih p hp { s with ctx := p, imports := s.imports ++ [(p, false)] }
          cases hr : loadScoped c (loadModule c n) p { s with ctx := p, imports := s.imports ++ [(p, false)] } with
          | error e => rw [hr] at hv; exact hv
          | ok s' =>
            rw [hr] at hv
            obtain ⟨hv1, hv2, hv3⟩ := hv
            simp only [except_bind_ok]
            rw [hal]
            have hq := run_lined (Q := FileLine c.files s.ctx) (m := defineAlias a p) inferInstance s'.rest (by rw [hv3]; exact h2 ▸ h1)
            cases hr : (defineAlias a p).run s'.rest with
            | error e =>
              cases e with
              | amanda m l col =>
                obtain ⟨hl', htk⟩ := defineAlias_taken hr
                rw [hv3] at hl'
                refine .inr ⟨s.ctx, tree, tok, module, a, h3, h4, h5, ?_, hl'.trans h2, ?_, htk⟩
                · rw [hv1]; exact h6
                · rw [hl'.trans h2]; exact h1
              | _ => trivial
            | ok r => rw [hr] at hq; exact ⟨rfl, (show r.waiting = s'.rest.waiting from hq).trans hv2⟩
        | item is =>
          rcases ha with ⟨-, h⟩ | ⟨h1, h2, h3, tree, module, h4, h5, h6⟩
          · cases h
          simp only [analyse, defineNames]
          have hv := loadScoped_fair hc hl ih p hp { s with ctx := p, imports := s.imports ++ [(p, false)] }
          cases hr : loadScoped c (loadModule c n) p { s with ctx := p, imports := s.imports ++ [(p, false)] } with
          | error e => rw [hr] at hv; exact hv
          | ok s' =>
            rw [hr] at hv
            obtain ⟨hv1, hv2, hv3⟩ := hv
            simp only [except_bind_ok]
            have hq := hit is s'.rest (by rw [hv3]; exact h2) h1
            cases hr : c.hooks.items s.ctx is p s'.rest with
            | error e => rw [hr] at hq; exact right_of_ends (fun _ h => h) hq
            | ok r => rw [hr] at hq; exact ⟨rfl, (show r.waiting = s'.rest.waiting from hq).trans hv2⟩

/-- The errors of the checker on a program. -/
theorem checkProgram_right (hl : Legible (icfg cfg py files) main) {n : Nat} {t : Tree} (ht : parseFile (icfg cfg py files) main = .ok t)
    {e : LErr} (h : checkProgram cfg py files n main t = .error e) : Right (icfg cfg py files) main e := by
  unfold checkProgram at h
  have hload := loadModule_loads (c := icfg cfg py files) (cfg := cfg) rfl hl n
  have hn := newAnalyzer_fair (c := icfg cfg py files) (cfg := cfg) rfl hload main
    { imports := [], ctx := main, log := [], rest := initState (pstr (builtinPath files)) }
  dsimp only at h
  cases hr : newAnalyzer (icfg cfg py files) (loadModule (icfg cfg py files) n) main
    { imports := [], ctx := main, log := [], rest := initState (pstr (builtinPath files)) } with
  | error e' =>
    rw [hr] at h hn
    cases h
    exact hn
  | ok s =>
    rw [hr] at h hn
    obtain ⟨h1, h2⟩ := hn
    simp only [except_bind_ok] at h
    have hv := visitTree_fair (c := icfg cfg py files) (cfg := cfg) rfl hl hload (tree := t) s (h1 ▸ .inl .refl) (by rw [h1]; exact ht)
    cases hr' : visitTree (icfg cfg py files) (loadModule (icfg cfg py files) n) t s with
    | error e' =>
      rw [hr'] at h hv
      cases h
      exact hv
    | ok s' =>
      rw [hr'] at h
      cases h

end

end Amanda.Check

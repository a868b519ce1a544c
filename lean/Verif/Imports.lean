import Verif.Parser

/-!
# Imports

`visit_module`, `visit_usa` and `load_module` of the checker, over a set of files.  The rest of the
checker, whatever it does to scopes and types, is a parameter (`Hooks`).
-/

namespace Amanda.Imports

/-- A path. -/
abbrev Path := List Char

/-- What the checker uses of the file system (os.path, parse.py:1350-1355): which paths are files, the
absolute path, and the text of a file. `stdLib` is `STD_LIB` (config.py:14-34). -/
structure Files where
  isFile : Path → Bool
  absPath : Path → Path
  read : Path → Except PyErr (List Char)
  stdLib : Path

/-- Why loading stops: the error for cyclic imports (check/core.py:397-400), another exception, or the
bound of the model. `file` is the file of an `AmandaError` (check/core.py:145-155, parse.py:52-55, 289-292,
1186-1188); another exception has none in the code. -/
inductive LErr where
  | cyclic (file path : Path) (line : Nat)
  | py (file : Path) (e : PyErr)
  | fuel
  deriving DecidableEq, Repr

/-- The rest of the checker, on a state `σ`: all scopes, types and annotated trees of all analyzers. -/
structure Hooks (σ : Type) where
  /-- a new `Analyzer`, up to the loading of the builtin module (check/core.py:44-71) -/
  fresh : Path → σ → Except PyErr σ
  /-- `init_embutidos` (types/builtins.py:31-43) -/
  embutidos : σ → Except PyErr σ
  /-- back in the analyzer of the importing module -/
  back : σ → σ
  /-- `validate_builtin_module` (check/core.py:304-315) -/
  annotations : Path → List Annotation → σ → Except PyErr σ
  /-- `self.ctx_node = node` for a `usa` (check/core.py:295) -/
  enter : Token → σ → σ
  /-- `visit` of a child of a module that is not a `usa` -/
  stmt : Path → Stmt → σ → Except PyErr σ
  /-- `transform` and what is stored in the module (check/core.py:322-326) -/
  finish : Path → Tree → σ → Except PyErr σ
  /-- `define_module_alias` (check/core.py:333-346) -/
  alias : Path → Token → Path → σ → Except PyErr σ
  /-- `define_module_items` (check/core.py:348-363) -/
  items : Path → List (List Char) → Path → σ → Except PyErr σ

/-- The configuration: Python, the files, the rest of the checker. -/
structure ICfg (σ : Type) where
  py : PyCfg
  files : Files
  hooks : Hooks σ

/-- `imports` of the analyzer in insertion order, with `loaded` of each module (check/core.py:58,
module.py:6-12), `ctx_module`, and the rest. `log` is the list of the files analysed so far, in the
order in which their analysis began (not in the code). -/
structure LState (σ : Type) where
  imports : List (Path × Bool)
  ctx : Path
  log : List Path
  rest : σ

/-- `self.imports.get(fpath)` and its `loaded`. -/
def status (imports : List (Path × Bool)) (p : Path) : Option Bool := (imports.find? (·.1 == p)).map (·.2)

/-- `module.loaded = True` (check/core.py:426). -/
def setLoaded (imports : List (Path × Bool)) (p : Path) : List (Path × Bool) :=
  imports.map fun e => if e.1 == p then (p, true) else e

/-- Whether `str.format` without arguments leaves the text as it is (check/core.py:145-149 formats every
message again). With a brace in the text it raises an exception or drops braces. -/
def noBraces (t : List Char) : Bool := t.all fun c => c != '{' && c != '}'

/-- `self.error(..)` with a message that shows a path (check/core.py:145-149). Which exception a brace
leads to is not modelled, nor the texts in which braces are doubled. -/
def pathError {α : Type} (file p : Path) (e : LErr) : Except LErr α :=
  if noBraces p then .error e else .error (.py file (.exc "KeyError"))

/-- An error of the rest of the checker while `file` is `ctx_module.fpath`. -/
def liftE {α : Type} (file : Path) (r : Except PyErr α) : Except LErr α :=
  match r with
  | .ok a => .ok a
  | .error e => .error (.py file e)

/-- `path.split` of posixpath: head and tail. -/
def splitPath (p : Path) : Path × Path :=
  let tail := (p.reverse.takeWhile (· != '/')).reverse
  let head := p.reverse.dropWhile (· != '/')
  (if head.all (· == '/') then head else (head.dropWhile (· == '/')).reverse, tail)

/-- `path.join` of posixpath with two arguments. -/
def joinPath (a b : Path) : Path :=
  if b.head? = some '/' then b else if a = [] ∨ a.getLast? = some '/' then a ++ b else a ++ '/' :: b

/-- `tail.split(".")[-1]`. -/
def lastPart (tail : Path) : Path := (tail.reverse.takeWhile (· != '.')).reverse

/-- The path written in a `usa`, without quotes (check/core.py:441). -/
def written (lexeme : List Char) : Path := lexeme.filter fun c => c != '\'' && c != '"'

/-- The path with the extension, if it can be one of a file (check/core.py:443-450). -/
def usaPath (fpath : Path) : Option Path :=
  let (head, tail) := splitPath fpath
  if tail = [] then none
  else some (joinPath head (if lastPart tail = ['a', 'm', 'a'] then tail else tail ++ ['.', 'a', 'm', 'a']))

/-- `resolve_import` (check/core.py:429-438). The list of import paths holds nothing but `STD_LIB`, once
for every analyzer around (check/core.py:48, 329; __main__.py:25). -/
def resolveImport (fs : Files) (fpath : Path) : Option Path :=
  if fs.isFile fpath then some (fs.absPath fpath)
  else if fs.isFile (joinPath fs.stdLib fpath) then some (fs.absPath (joinPath fs.stdLib fpath))
  else none

/-- The file a `usa` refers to (check/core.py:440-453). -/
def target (fs : Files) (module : Token) : Option Path := (usaPath (written module.chars)).bind (resolveImport fs)

/-- `builtin_module.fpath` (types/builtins.py:9). -/
def builtinPath (fs : Files) : Path := joinPath fs.stdLib "embutidos.ama".toList

variable {σ : Type}

/-- `parse(fpath)` (parse.py:1350-1355). -/
def parseFile (cfg : ICfg σ) (p : Path) : Except PyErr Tree :=
  match cfg.files.read p with
  | .error e => .error e
  | .ok text => parse cfg.py text

/-- `visit_usa` (check/core.py:440-462); `load` is `load_module`. -/
def visitUsa (cfg : ICfg σ) (load : Path → Token → UsaMode → LState σ → Except LErr (LState σ))
    (tok module : Token) (mode : UsaMode) (s : LState σ) : Except LErr (LState σ) :=
  match target cfg.files module with
  | none => pathError s.ctx (written module.chars) (.py s.ctx (.amanda ("Erro ao importar módulo. O caminho '" ++
      String.ofList (written module.chars) ++ "' não é um ficheiro válido") tok.line (-1)))
  | some p => load p tok mode s

/-- `visit_children` of a module (check/core.py:300-302, 291-298). -/
def visitChildren (cfg : ICfg σ) (load : Path → Token → UsaMode → LState σ → Except LErr (LState σ)) :
    List Stmt → LState σ → Except LErr (LState σ)
  | [], s => .ok s
  | .usa tok module mode :: rest, s => do
      let s ← visitUsa cfg load tok module mode { s with rest := cfg.hooks.enter tok s.rest }
      visitChildren cfg load rest s
  | st :: rest, s => do
      let r ← liftE s.ctx (cfg.hooks.stmt s.ctx st s.rest)
      visitChildren cfg load rest { s with rest := r }

/-- `visit_module` (check/core.py:317-326) on a parsed file, for `ctx_module`. -/
def visitTree (cfg : ICfg σ) (load : Path → Token → UsaMode → LState σ → Except LErr (LState σ))
    (t : Tree) (s : LState σ) : Except LErr (LState σ) := do
  let r ← liftE s.ctx (cfg.hooks.annotations s.ctx t.annotations s.rest)
  let s ← visitChildren cfg load t.stmts { s with log := s.log ++ [s.ctx], rest := r }
  let r ← liftE s.ctx (cfg.hooks.finish s.ctx t s.rest)
  .ok { s with rest := r }

/-- `visit_module(parse(fpath))` (check/core.py:331, 408). -/
def visitModule (cfg : ICfg σ) (load : Path → Token → UsaMode → LState σ → Except LErr (LState σ))
    (s : LState σ) : Except LErr (LState σ) := do
  let t ← liftE s.ctx (parseFile cfg s.ctx)
  visitTree cfg load t s

/-- `Analyzer(fpath, ..)` (check/core.py:44-75): with imports of its own it loads the builtin module. -/
def newAnalyzer (cfg : ICfg σ) (load : Path → Token → UsaMode → LState σ → Except LErr (LState σ))
    (p : Path) (s : LState σ) : Except LErr (LState σ) := do
  let r ← liftE p (cfg.hooks.fresh p s.rest)
  let s ← load (builtinPath cfg.files) noTok .global { s with imports := [], ctx := p, rest := r }
  let r ← liftE (builtinPath cfg.files) (cfg.hooks.embutidos s.rest)
  .ok { s with rest := r }

/-- `load_module_scoped` (check/core.py:328-331). -/
def loadScoped (cfg : ICfg σ) (load : Path → Token → UsaMode → LState σ → Except LErr (LState σ))
    (p : Path) (s : LState σ) : Except LErr (LState σ) := do
  let a ← newAnalyzer cfg load p s
  let s ← visitModule cfg load { a with imports := s.imports, ctx := p }
  .ok { s with rest := cfg.hooks.back s.rest }

/-- The names an import defines in the importing module `prev`, none for a global one
(check/core.py:378-391, 410-424).  While an alias is defined, `ctx_module` may still be the imported module
(check/core.py:403, 412-415, 427); for items it is set to `prev` (check/core.py:358, 361). -/
def defineNames (cfg : ICfg σ) (p : Path) (mode : UsaMode) (prev : Path) (s : LState σ) : Except LErr (LState σ) :=
  match mode with
  | .global => .ok s
  | .scoped alias => do
      let r ← liftE s.ctx (cfg.hooks.alias prev alias p s.rest)
      .ok { s with rest := r }
  | .item names => do
      let r ← liftE prev (cfg.hooks.items prev names p s.rest)
      .ok { s with rest := r }

/-- The analysis of a module that is not in `imports` (check/core.py:406-424). -/
def analyse (cfg : ICfg σ) (load : Path → Token → UsaMode → LState σ → Except LErr (LState σ))
    (p : Path) (mode : UsaMode) (s : LState σ) : Except LErr (LState σ) :=
  match mode with
  | .global => visitModule cfg load s
  | _ => loadScoped cfg load p s

/-- `load_module` (check/core.py:365-427), with at most `n` loads inside one another. -/
def loadModule (cfg : ICfg σ) : Nat → Path → Token → UsaMode → LState σ → Except LErr (LState σ)
  | 0, _, _, _, _ => .error .fuel
  | n + 1, p, tok, mode, s =>
    match status s.imports p with
    | some true => defineNames cfg p mode s.ctx s
    | some false => pathError s.ctx p (.cyclic s.ctx p tok.line)
    | none => do
        let s' ← analyse cfg (loadModule cfg n) p mode { s with ctx := p, imports := s.imports ++ [(p, false)] }
        let s' ← defineNames cfg p mode s.ctx s'
        .ok { s' with imports := setLoaded s'.imports p, ctx := s.ctx }

/-- `Analyzer(filename, [], Module(filename)).visit_module(program)` (__main__.py:22-28). The module of the
program is not among the imports. -/
def analyseProgram (cfg : ICfg σ) (n : Nat) (main : Path) (init : σ) : Except LErr (LState σ) := do
  let t ← liftE main (parseFile cfg main)
  let s ← newAnalyzer cfg (loadModule cfg n) main { imports := [], ctx := main, log := [], rest := init }
  visitTree cfg (loadModule cfg n) t s

end Amanda.Imports

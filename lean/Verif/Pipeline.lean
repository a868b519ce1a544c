import Verif.Imports
import Verif.SourceProg
import Verif.Loader
import Verif.Compile

/-!
# Running a file

`__main__.py`, `throw_error` and `fmt_error` of error.py, and `run_module` as seen by Python.  The
checker is a parameter (`Verif.Elaborate` gives it).  Not modelled: the command line (argparse),
`--debug`, and tracebacks of Python exceptions, which are represented by the name of the exception.
-/

namespace Amanda.Pipeline

open Imports Codegen Source

/-- `AmandaError` (error.py:29-59). `col` is there for syntax errors. -/
structure AmandaError where
  isSyntax : Bool
  fpath : Path
  message : String
  line : Int
  col : Int
  deriving DecidableEq, Repr

/-- What `run_frontend` can meet: an `AmandaError`, or another exception. -/
inductive Trouble where
  | amanda (e : AmandaError)
  | other (name : String)
  deriving DecidableEq, Repr

/-- How the process ends: by `sys.exit` or at the end of the program, by an uncaught Python exception, by a
panic of the virtual machine (a panic does not leave an `extern "C"` function, it aborts the process), or
not within the bound of the model. -/
inductive Ended where
  | exit (status : Nat) (out err : String)
  | raised (name : String)
  | aborted (out : String)
  | running (out : String)
  deriving DecidableEq, Repr

/-- The status the process leaves, if it does: an uncaught exception gives 1. -/
def Ended.status : Ended → Option Nat
  | .exit n _ _ => some n
  | .raised _ => some 1
  | .aborted _ => none
  | .running _ => none

/-- The environment of a run: Python, the files, `path.relpath`, the virtual machine's configuration and
its input. -/
structure Env where
  py : PyCfg
  files : Files
  relPath : Path → Path
  vm : Cfg
  input : List String

/-- The lines of a file, each with its line feed, as `for line in f` gives them (the text has been read
with universal newlines). -/
def fileLines : List Char → List (List Char)
  | [] => []
  | c :: cs =>
      if c = '\n' then [c] :: fileLines cs
      else match fileLines cs with
        | [] => [[c]]
        | l :: ls => (c :: l) :: ls

/-- `fmt_error` (error.py:62-88). -/
def fmtError (env : Env) (context : List Char) (e : AmandaError) : String :=
  let loc := "linha " ++ toString e.line ++ if e.isSyntax then ": coluna " ++ toString e.col else ""
  let header := "Ficheiro \"" ++ String.ofList (env.relPath e.fpath) ++ "\", " ++ loc
  let msg := if e.isSyntax then "Erro sintático: " ++ e.message ++ "." else "Erro: " ++ e.message ++ "."
  "\n" ++ header ++ "\n    " ++ String.ofList context ++ "\n" ++ msg ++ "\n"

/-- The line of a file with a number, counted from 1 (error.py:96-100). -/
def lineAt (text : List Char) (line : Int) : Option (List Char) :=
  if line < 1 then none else (fileLines text)[(line - 1).toNat]?

/-- `throw_error` (error.py:91-105): `sys.exit()` without an argument leaves status 0. -/
def reportError (env : Env) (e : AmandaError) : Ended :=
  let filename := env.files.absPath e.fpath
  if env.files.isFile filename then
    match env.files.read filename with
    | .error _ => .raised "OSError"
    | .ok text =>
        match lineAt text e.line with
        | none => .raised "AssertionError"
        | some context => .exit 0 "" (fmtError env (strip env.py context) e)
  else .raised "AssertionError"

/-- `parse(filename)` (parse.py:1350-1355); the errors of the parser are syntax errors of the file. -/
def parseMain (env : Env) (filename : Path) : Except Trouble Tree :=
  match env.files.read filename with
  | .error _ => .error (.other "OSError")
  | .ok text =>
      match parse env.py text with
      | .ok t => .ok t
      | .error (.amanda msg line col) => .error (.amanda ⟨true, filename, msg, line, col⟩)
      | .error (.exc name) => .error (.other name)
      | .error .fuel => .error (.other "RecursionError")

/-- `run_frontend` (__main__.py:22-31); `check` stands for `Analyzer(..).visit_module(..)`. -/
def runFrontend (env : Env) (check : Path → Tree → Except Trouble Prog) (filename : Path) : Except Ended Prog :=
  match parseMain env filename >>= check filename with
  | .ok P => .ok P
  | .error (.amanda e) => .error (reportError env e)
  | .error (.other name) => .error (.raised name)

/-- `run_file` (__main__.py:34-44) and `run_module` (libamanda.py, lib.rs:17-35), every module for at most
`fuel` instructions. -/
def runFile (F : Type) [FloatOps F] (env : Env) (check : Path → Tree → Except Trouble Prog) (fuel : Nat)
    (filename : Path) : Ended :=
  match runFrontend env check filename with
  | .error e => e
  | .ok P =>
      match compileProgram P.env P.builtinPath P.main P.imports with
      | .error (.amanda ..) => .raised "AmandaError"
      | .error (.exc name) => .raised name
      | .error .fuel => .raised "RecursionError"
      | .ok image =>
          match runImage F env.vm fuel env.input image with
          | .exited status out err => .exit status out err
          | .panicked out => .aborted out
          | .outOfFuel out => .running out

/-- `main` with the name of a file (__main__.py:47-65). -/
def runMain (F : Type) [FloatOps F] (env : Env) (check : Path → Tree → Except Trouble Prog) (fuel : Nat)
    (filename : Path) : Ended :=
  if env.files.isFile filename then runFile F env check fuel filename
  else .exit 1 "" ("The file '" ++ String.ofList (env.files.absPath filename) ++ "' was not found on this system\n")

end Amanda.Pipeline

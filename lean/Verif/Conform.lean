import Verif.Elaborate
import Verif.PyModel

/-!
# The model against the tests of the repository

`lake env lean --run Verif/Conform.lean` runs the whole model (lexer, parser, checker, `transform`, code
generation, serialisation, loading, virtual machine) on the test cases of /repo/tests and compares what it
prints with the `#[output]` line of each, the way /repo/tests/test.py does.  Nothing is proved here and no
theorem depends on this file; it is a test of the model.  Reals are those of Lean's runtime.
-/

namespace Amanda.Conform

open Pipeline

/-- Numerals. -/
def parseF (s : String) : Option Float :=
  let (neg, t) := if s.startsWith "-" then (true, (s.drop 1).toString) else (false, s)
  match t.splitOn "." with
  | [a] => a.toNat?.map fun n => let f := Float.ofNat n; if neg then -f else f
  | [a, b] => do
    let n ← (a ++ b).toNat?
    let f := Float.ofScientific n true b.length
    pure (if neg then -f else f)
  | _ => none

/-- The shortest numeral that is read as the same number. -/
def showF (x : Float) : String :=
  let a := x.abs
  let sign := if x < 0 then "-" else ""
  if !a.isFinite then toString x else
    let bits := a.toBits.toNat
    let ex := bits / 2 ^ 52
    let m := bits % 2 ^ 52 + (if ex == 0 then 0 else 2 ^ 52)
    let e : Int := Int.ofNat (max ex 1) - 1075
    let (num, den) := if e ≥ 0 then (m * 2 ^ e.toNat, 1) else (m, 2 ^ (-e).toNat)
    let tries := (List.range 25).findSome? fun k =>
      let n := (2 * num * 10 ^ k + den) / (2 * den)
      if Float.ofScientific n true k == a then some (n, k) else none
    match tries with
    | none => toString x
    | some (n, 0) => sign ++ toString n
    | some (n, k) =>
      let frac := toString (n % 10 ^ k)
      sign ++ toString (n / 10 ^ k) ++ "." ++ String.ofList (List.replicate (k - frac.length) '0') ++ frac

instance : FloatOps Float where
  ofInt n := Float.ofInt n
  toInt x := x.toInt64.toInt
  zero := 0.0
  pi := 3.141592653589793
  add := (· + ·)
  sub := (· - ·)
  mul := (· * ·)
  div := (· / ·)
  rem a b := a - b * (if a / b < 0 then Float.ceil (a / b) else Float.floor (a / b))
  neg a := -a
  eq a b := a == b
  lt a b := a < b
  le a b := a ≤ b
  isWhole a := Float.floor a == a
  display := showF
  parse := parseF
  ofBits n := Float.ofBits n.toUInt64
  abs := Float.abs
  pow := Float.pow
  sqrt := Float.sqrt
  round := Float.round
  floor := Float.floor
  ceil := Float.ceil
  sin := Float.sin
  cos := Float.cos
  tan := Float.tan
  log a b := Float.log a / Float.log b
  toRadians a := a * 3.141592653589793 / 180
  toDegrees a := a * 180 / 3.141592653589793

/-- `os.path.abspath` in the directory /repo. -/
def norm (p : String) : String :=
  let p := if p.startsWith "/" then p else "/repo/" ++ p
  let parts := (p.splitOn "/").filter fun x => x != "" && x != "."
  let r := parts.foldl (init := ([] : List String)) fun acc x => if x == ".." then acc.tail else x :: acc
  "/" ++ "/".intercalate r.reverse

/-- Some words with a meaning in Python (check/core.py:157-164). -/
def pythonNames : List String :=
  ["and", "as", "assert", "async", "await", "break", "class", "continue", "def", "del", "elif", "else", "except",
   "finally", "for", "from", "global", "if", "import", "in", "is", "lambda", "nonlocal", "not", "or", "pass", "raise",
   "return", "try", "while", "with", "yield", "None", "True", "False", "print", "sum", "max", "min", "abs", "len",
   "list", "str", "type", "id", "map", "filter", "range", "open", "input", "pow", "round", "set", "hash", "iter",
   "next", "dir", "vars", "all", "any", "bin", "chr", "ord", "object", "super", "int", "bool"]

/-- `is_valid_name` (check/core.py:157-164), for those words. -/
def validName (n : String) : Bool := !(pythonNames.contains n || (n.startsWith "_" && n.endsWith "_"))

/-- `fmt_error` (tests/test.py:95-107). -/
def fmtErr (output : String) : String := Id.run do
  let mut found := false
  let mut r := ""
  for line in output.trimAscii.toString.splitOn "\n" do
    if line.trimAscii.toString.startsWith "Erro" then found := true
    if found then r := r ++ line ++ " "
  return r

/-- The suites (tests/test.py:15-41). -/
def suites : List String :=
  ["assignment", "statement/mostra", "operator", "statement/se", "statement/enquanto", "statement/escolha", "function",
   "statement/retorna", "statement/loop_ctl", "comment", "call", "declaration", "expression", "converte", "vec",
   "rt_errors", "math", "registo", "set", "methods", "nulo", "usa", "annotations", "uniao", "iguala"]

/-- `get_case_output` (tests/test.py:77-88). -/
def expected (text : String) : Option String :=
  (text.splitOn "\n").findSome? fun l =>
    if (l.splitOn "#[output]").length > 1 then some (":".intercalate ((l.splitOn ":").drop 1)).trimAscii.toString
    else none

/-- What the output of the model looks like to tests/test.py:110-127. -/
def shown : Ended → String
  | .exit _ out err =>
    if out.length > 0 && err.length > 0 then (out ++ fmtErr err).replace "\n" " "
    else if err.length > 0 then fmtErr err else out.replace "\n" " "
  | .raised n => "RAISED " ++ n
  | .aborted o => "ABORTED " ++ o
  | .running o => "RUNNING " ++ o

/-- The files of /repo. -/
def repoFiles (all : List (String × List Char)) : Imports.Files :=
  { isFile := fun p => all.any fun e => e.1 == norm (String.ofList p)
    absPath := fun p => (norm (String.ofList p)).toList
    read := fun p => match all.find? fun e => e.1 == norm (String.ofList p) with
      | some e => .ok e.2
      | none => .error (.exc "FileNotFoundError")
    stdLib := "/repo/std".toList }

/-- `python -m amanda file` in /repo. -/
def runCase (all : List (String × List Char)) (file : String) : Ended :=
  let fs := repoFiles all
  let env : Env :=
    { py := samplePy, files := fs, relPath := fun p => ((norm (String.ofList p)).drop 6).toString.toList
      vm := { debug := false, graphemes := fun s => s.toList.map String.singleton }, input := [] }
  runMain Float env (Check.checkFile ⟨validName, fs.stdLib⟩ samplePy fs 50) 2000000 file.toList

end Amanda.Conform

open Amanda.Conform in
/-- Without arguments all suites, otherwise the files given (absolute paths; files outside /repo are read too). -/
def main (args : List String) : IO Unit := do
  let tree ← System.FilePath.walkDir "/repo"
  let names := (tree.toList.map toString).filter (·.endsWith ".ama")
  let mut all : List (String × List Char) := []
  for f in args.filter (fun a => !names.contains a) ++ names do
    all := (f, (← IO.FS.readFile f).toList) :: all
  let cases := if args.isEmpty then
      names.filter fun f => suites.any fun d => (System.FilePath.mk f).parent == some ("/repo/tests/test_cases/" ++ d)
    else args
  let mut same := 0
  for f in cases do
    let text := String.ofList (((all.find? fun e => e.1 == f).map (·.2)).getD [])
    let out := (shown (runCase all f)).trimAscii.toString
    if some out == expected text then same := same + 1
    else IO.println s!"{f}\n   model:    {out}\n   expected: {(expected text).getD "-"}"
  IO.println s!"{same} of {cases.length} as expected"

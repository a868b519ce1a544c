import Verif.Props.Accepted
import Verif.FragCalmTop

/-!
# C57: the checker reports errors, for the programs of `Verif.Frag`

`checker_raises_violated` and `condition_raises_violated` (`Verif.Props.Accepted`) are programs on which the checker
ends with a Python exception.  On the programs of `Verif.Frag` a condition that is a vector is the only way there.
-/

namespace Amanda.Check

open Source Imports Pipeline Codegen Compiled

/-- **C57**, for the programs of `Verif.Frag` with the library as it is: the checker accepts, or reports an error
with a line, or raises `AttributeError`, and that only when some condition of `se` or `enquanto` in the program is
neither a literal, nor an operation, nor a conversion to a primitive type.  Missing: the parts of the language outside
`Verif.Frag`, and the stages after the checker. -/
theorem checker_reports_partial {l : List (Path × List Char)} {n : Nat} {main : Path} {t : Tree} {K : Frag} {tr : Trouble}
    (hm : pstr stdBuiltin ≠ pstr main) (hK : ∀ f ∈ K.fns, f ∉ libraryNames) (hk : okTree K t = true)
    (ha : builtinAnn t.annotations = false) (h : checkFile stdCfg samplePy (stdFiles l) (n + 1) main t = .error tr) :
    (∃ e, tr = .amanda e) ∨ (t.stmts.any bareS = true ∧ tr = .other "AttributeError") := by
  obtain ⟨bt, hp, hr⟩ := std_ready K main hm hK (okTree_libs hk)
  unfold checkFile at h
  cases hc : checkProgram stdCfg samplePy (stdFiles l) (n + 1) main t with
  | ok Q => rw [hc] at h; cases h
  | error e =>
  rw [hc] at h
  cases h
  simp only [checkProgram] at hc
  rw [analyzer_lib ((std_read l).trans hp) hr.1] at hc
  have hl := libCheck_ok
  unfold libCheck at hl
  rw [hp] at hl
  simp only [Bool.and_eq_true] at hl
  rw [stdFiles_builtin] at hc
  cases hls : libState stdCfg stdBuiltin bt with
  | error e => rw [hls] at hl; exact absurd hl.2 (by simp)
  | ok r =>
  rw [hls] at hc
  obtain ⟨hs, -⟩ := hr.2 r hls
  change (visitTree _ _ t ⟨[(stdBuiltin, true)], main, [stdBuiltin], r⟩ >>= _) = _ at hc
  cases hv : visitTree (icfg stdCfg samplePy (stdFiles l)) (loadModule (icfg stdCfg samplePy (stdFiles l)) (n + 1)) t
      ⟨[(stdBuiltin, true)], main, [stdBuiltin], r⟩ with
  | ok ls => rw [hv] at hc; cases hc
  | error e' =>
  rw [hv] at hc
  cases hc
  obtain ⟨_, e, rfl, hmild⟩ := safe_tree CutFloat (b := t.stmts.any bareS) (K := K) (main := main)
    (ls := ⟨[(stdBuiltin, true)], main, [stdBuiltin], r⟩) rfl hk id ha hs hv
  rcases hmild with ⟨m, ln, c, rfl⟩ | ⟨hb, rfl⟩
  · exact .inl ⟨_, rfl⟩
  · exact .inr ⟨hb, rfl⟩

/-- **C57** for programs whose conditions are literals, operations or conversions: the checker accepts them or
reports an error. -/
theorem checker_reports_flat {l : List (Path × List Char)} {n : Nat} {main : Path} {t : Tree} {K : Frag} {tr : Trouble}
    (hm : pstr stdBuiltin ≠ pstr main) (hK : ∀ f ∈ K.fns, f ∉ libraryNames) (hk : okTree K t = true)
    (ha : builtinAnn t.annotations = false) (hb : t.stmts.any bareS = false)
    (h : checkFile stdCfg samplePy (stdFiles l) (n + 1) main t = .error tr) : ∃ e, tr = .amanda e := by
  rcases checker_reports_partial hm hK hk ha h with h | ⟨h, -⟩
  · exact h
  · rw [hb] at h; cases h

/-- The error the checker ends with on a text. -/
def troubleIn (text : List Char) : Option Trouble :=
  match checkFile stdCfg samplePy (stdFiles []) 2 (chars! "/m.ama") (treeOf text) with
  | .ok _ => none
  | .error e => some e

/-- A mistake in a loop: the sum of a number and a text. -/
def mistakeText : List Char := chars! "func f(v : [int]) : int\n  x : int = 0\n  enquanto x < 3 faca\n    x = x + v[x]\n    x = x + \"a\"\n  fim\n  retorna x\nfim\nmostra f([int: 1, 2])\n"

/-- A condition that is a vector. -/
def vectorCondText : List Char := chars! "v : [int] = [int: 1]\nse v entao\n  mostra 1\nfim\n"

/-- Their names. -/
def mistakeNames : Frag := ⟨["v", "x"], ["f"], [], false, false⟩

set_option maxRecDepth 100000 in
theorem mistake_reported : okTree mistakeNames (treeOf mistakeText) = true ∧ (treeOf mistakeText).stmts.any bareS = false ∧
    troubleIn mistakeText = some (.amanda ⟨false, chars! "/m.ama", "os tipos 'int' e 'texto' não suportam operações com o operador '+'", 5, -1⟩) ∧
    okTree mistakeNames (treeOf vectorCondText) = true ∧ (treeOf vectorCondText).stmts.any bareS = true ∧
    troubleIn vectorCondText = some (.other "AttributeError") := by decide +kernel

/-- The hypotheses of `checker_reports_flat` are met by `mistakeText`. -/
example {tr : Trouble} (h : checkFile stdCfg samplePy (stdFiles []) 2 (chars! "/m.ama") (treeOf mistakeText) = .error tr) :
    ∃ e, tr = .amanda e :=
  checker_reports_flat (K := mistakeNames) (by decide) (by decide) mistake_reported.1 (by decide +kernel) mistake_reported.2.1 h

end Amanda.Check

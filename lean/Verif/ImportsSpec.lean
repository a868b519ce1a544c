import Verif.Imports
import Mathlib.Logic.Relation

/-!
# Import graphs

The specification for C50 and C51: which file imports which.
-/

namespace Amanda.Imports

variable {σ : Type}

/-- File `p` imports file `q`: it has a `usa` that refers to `q`. -/
def Imp (cfg : ICfg σ) (p q : Path) : Prop :=
  ∃ t, parseFile cfg p = .ok t ∧ ∃ tok module mode, Stmt.usa tok module mode ∈ t.stmts ∧ target cfg.files module = some q

/-- File `p` imports itself, directly or through other files. -/
def OnCycle (cfg : ICfg σ) (p : Path) : Prop := Relation.TransGen (Imp cfg) p p

/-- File `p` is the file `main` or imported by it, directly or through other files. -/
def Reachable (cfg : ICfg σ) (main p : Path) : Prop := Relation.ReflTransGen (Imp cfg) main p

/-- Among the files reachable from `main` some import each other in a cycle. -/
def Cyclic (cfg : ICfg σ) (main : Path) : Prop := ∃ p, Reachable cfg main p ∧ OnCycle cfg p

/-- The file with the builtin functions imports nothing, as the one in std/embutidos.ama. -/
def PlainBuiltin (cfg : ICfg σ) : Prop := ∀ q, ¬ Imp cfg (builtinPath cfg.files) q

/-- The files read: those reachable from the program, and the builtin one. -/
def Read (cfg : ICfg σ) (main p : Path) : Prop := Reachable cfg main p ∨ p = builtinPath cfg.files

/-- Nothing but the imports can be wrong with a program: every file read can be read and parsed, every `usa`
in them refers to a file, no path has braces (see `noBraces`), and the rest of the checker has no
complaint. -/
structure Fine (cfg : ICfg σ) (main : Path) : Prop where
  parsed : ∀ p, Read cfg main p → ∃ t, parseFile cfg p = .ok t
  found : ∀ p t, Read cfg main p → parseFile cfg p = .ok t → ∀ tok module mode, Stmt.usa tok module mode ∈ t.stmts →
    ∃ q, target cfg.files module = some q
  braces : ∀ p, Reachable cfg main p → noBraces p = true
  fresh : ∀ p s, ∃ r, cfg.hooks.fresh p s = .ok r
  embutidos : ∀ s, ∃ r, cfg.hooks.embutidos s = .ok r
  annotations : ∀ p a s, ∃ r, cfg.hooks.annotations p a s = .ok r
  stmt : ∀ p a s, ∃ r, cfg.hooks.stmt p a s = .ok r
  finish : ∀ p a s, ∃ r, cfg.hooks.finish p a s = .ok r
  named : ∀ p a q s, ∃ r, cfg.hooks.alias p a q s = .ok r
  items : ∀ p a q s, ∃ r, cfg.hooks.items p a q s = .ok r

/-- The files that the imports among some statements refer to, in order. -/
def targets (cfg : ICfg σ) : List Stmt → List Path
  | [] => []
  | .usa _ module _ :: rest => (target cfg.files module).toList ++ targets cfg rest
  | _ :: rest => targets cfg rest

/-- In a list of modules run one after the other, `a` runs before `b`. -/
def Before (l : List Path) (a b : Path) : Prop := ∃ l1 l2 l3, l = l1 ++ a :: l2 ++ b :: l3

end Amanda.Imports

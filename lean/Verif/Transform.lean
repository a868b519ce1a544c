import Verif.Annot

/-!
# `escolha` before code generation: amanda/compiler/transform.py

`ASTTransformer.transform` replaces every `Escolha` node by an `Se` node (transform.py:65-105).  The
parts of the node are given already annotated.  Calls of methods and of functions of other modules,
and `Get` nodes, are replaced too (transform.py:110-179); annotated trees (`Verif.Annot`) only have what
they are replaced by, so those methods are modelled with the checker's own trees (`Verif.Elaborate`).
-/

namespace Amanda

/-- A `CaseBlock` (ast.py:279-283): the value with its `eval_type`, and the block. -/
structure TCase where
  value : TExpr
  ty : Ty
  block : TBlock

/-- An `Escolha` node (ast.py:286-291) with its parts annotated. -/
structure TEscolha where
  line : Nat
  sel : TExpr
  selTy : Ty
  cases : List TCase
  default : Option TBlock

/-- `equality_op` applied to the value of a case and the selector (transform.py:68-73).  The result
has no promotion (ast.py:120-130). -/
def TEscolha.test (e : TEscolha) (c : TCase) : TExpr :=
  .bin e.line .doubleequal c.value e.sel c.ty e.selTy .unknown

/-- `transform_escolha` (transform.py:65-105).  The selector is the same node in every test. -/
def transformEscolha (e : TEscolha) : TStmt :=
  match e.cases, e.default with
  | [], none => .noop 0
  | [], some d => .se e.line (.const e.line "verdadeiro" .unknown) d [] none
  | c :: cs, d => .se e.line (e.test c) c.block (cs.map fun c => .mk (e.test c) c.block) d

end Amanda

import Verif.Parser

/-!
# Trees whose tokens lie on given lines

Used by C64.  The predicates only look at line numbers, so they say nothing about the functions of the parser or the
checker.  The names in types and the keys of annotations carry no line that is ever reported.
-/

namespace Amanda.Lines

mutual
/-- The tokens of a pattern are on lines of `L`. -/
def patLines (L : Nat → Prop) : Pat → Prop
  | .int t | .str t | .bind t => L t.line
  | .adtPath ts args => ts ≠ [] ∧ (∀ t ∈ ts, L t.line) ∧ patsLines L args
  | .adtVar t args => L t.line ∧ patsLines L args
def patsLines (L : Nat → Prop) : List Pat → Prop
  | [] => True
  | p :: ps => patLines L p ∧ patsLines L ps
end

/-- The pattern of an alternative: a lone name may have a token of its own making (parse.py:779). -/
def armPatLines (L : Nat → Prop) : Pat → Prop
  | .bind _ => True
  | p => patLines L p

mutual
/-- The tokens of an expression are on lines of `L`, and paths are not empty. -/
def exprLines (L : Nat → Prop) : Expr → Prop
  | .const t | .var t | .alvo t => L t.line
  | .fmtStr t ps => L t.line ∧ exprsLines L ps
  | .converta t e _ => L t.line ∧ exprLines L e
  | .bin t a b | .assign t a b | .index t a b | .indexSet t a b => L t.line ∧ exprLines L a ∧ exprLines L b
  | .un t a | .named t a => L t.line ∧ exprLines L a
  | .iguala t e arms => L t.line ∧ exprLines L e ∧ armsLines L arms
  | .call c args => exprLines L c ∧ exprsLines L args
  | .list t _ es => L t.line ∧ exprsLines L es
  | .get e m => L m.line ∧ exprLines L e
  | .set a b => exprLines L a ∧ exprLines L b
  | .path ts => ts ≠ [] ∧ ∀ t ∈ ts, L t.line
def exprsLines (L : Nat → Prop) : List Expr → Prop
  | [] => True
  | e :: es => exprLines L e ∧ exprsLines L es
def armLines (L : Nat → Prop) : Arm → Prop
  | .mk t p bt b => L t.line ∧ armPatLines L p ∧ L bt.line ∧ stmtsLines L b
def armsLines (L : Nat → Prop) : List Arm → Prop
  | [] => True
  | a :: as => armLines L a ∧ armsLines L as
/-- ... of a statement; `usa` is not one inside a program. -/
def stmtLines (L : Nat → Prop) : Stmt → Prop
  | .expr e => exprLines L e
  | .varDecl t n _ none => L t.line ∧ L n.line
  | .varDecl t n _ (some e) => L t.line ∧ L n.line ∧ exprLines L e
  | .loopCtl t => L t.line
  | .retorna t none => L t.line
  | .retorna t (some e) => L t.line ∧ exprLines L e
  | .produz t e | .mostra t e => L t.line ∧ exprLines L e
  | .se t c b es none => L t.line ∧ exprLines L c ∧ stmtsLines L b ∧ elsesLines L es
  | .se t c b es (some d) => L t.line ∧ exprLines L c ∧ stmtsLines L b ∧ elsesLines L es ∧ stmtsLines L d
  | .enquanto t c b => L t.line ∧ exprLines L c ∧ stmtsLines L b
  | .escolha t c cs none => L t.line ∧ exprLines L c ∧ elsesLines L cs
  | .escolha t c cs (some d) => L t.line ∧ exprLines L c ∧ elsesLines L cs ∧ stmtsLines L d
  | .para t n a z none b => L t.line ∧ L n.line ∧ exprLines L a ∧ exprLines L z ∧ stmtsLines L b
  | .para t n a z (some i) b => L t.line ∧ L n.line ∧ exprLines L a ∧ exprLines L z ∧ exprLines L i ∧ stmtsLines L b
  | .func n ps _ none _ as => L n.line ∧ (∀ p ∈ ps, L p.name.line) ∧ ∀ a ∈ as, L a.tok.line
  | .func n ps _ (some b) _ as => L n.line ∧ (∀ p ∈ ps, L p.name.line) ∧ (∀ a ∈ as, L a.tok.line) ∧ stmtsLines L b
  | .method gs _ n ps _ b as => (∀ g ∈ gs, L g.line) ∧ L n.line ∧ (∀ p ∈ ps, L p.name.line) ∧ (∀ a ∈ as, L a.tok.line) ∧ stmtsLines L b
  | .registo n gs fs as => L n.line ∧ (∀ g ∈ gs, L g.line) ∧ (∀ a ∈ as, L a.tok.line) ∧ stmtsLines L fs
  | .uniao n gs vs as => L n.line ∧ (∀ g ∈ gs, L g.line) ∧ (∀ a ∈ as, L a.tok.line) ∧ ∀ v ∈ vs, L v.name.line
  | .usa _ _ _ => False
def stmtsLines (L : Nat → Prop) : List Stmt → Prop
  | [] => True
  | s :: ss => stmtLines L s ∧ stmtsLines L ss
def elseLines (L : Nat → Prop) : ElseIf → Prop
  | .mk t c b => L t.line ∧ exprLines L c ∧ stmtsLines L b
def elsesLines (L : Nat → Prop) : List ElseIf → Prop
  | [] => True
  | e :: es => elseLines L e ∧ elsesLines L es
end

/-- The tokens of a `usa` are on lines of `L`. -/
def usaLines (L : Nat → Prop) : Stmt → Prop
  | .usa t m _ => L t.line ∧ L m.line
  | _ => False

/-- The tokens of a program are on lines of `L`. -/
def treeLines (L : Nat → Prop) (t : Tree) : Prop :=
  (∀ a ∈ t.annotations, L a.tok.line) ∧ ∀ s ∈ t.stmts, usaLines L s ∨ stmtLines L s

end Amanda.Lines

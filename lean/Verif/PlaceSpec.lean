import Verif.Annot

/-!
# Where statements may stand

Used by C66.  `lp`: inside the body of a loop that can be left.  `fn`: inside a function or method.  `top`: a statement of
the module itself.  `pr`: the last statement of the block of an arm of an `iguala`.
-/

namespace Amanda

mutual
/-- Statements inside an expression: the blocks of an `iguala`. -/
def standsE (lp fn : Bool) : TExpr → Bool
  | .const .. | .var .. | .path .. => true
  | .alvo .. => fn
  | .fmtStr _ es | .list _ es => standsEs lp fn es
  | .converta _ e _ _ | .un _ _ e _ | .assign _ _ e | .named _ _ e | .get _ e _ _ | .unwrap _ e none => standsE lp fn e
  | .bin _ _ a b _ _ _ | .index _ a b | .set _ a b | .unwrap _ a (some b) => standsE lp fn a && standsE lp fn b
  | .indexSet _ a b c => standsE lp fn a && standsE lp fn b && standsE lp fn c
  | .iguala _ d => standsD lp fn d
  | .call _ f es _ _ => standsE lp fn f && standsEs lp fn es
/-- Lists. -/
def standsEs (lp fn : Bool) : List TExpr → Bool
  | [] => true
  | e :: es => standsE lp fn e && standsEs lp fn es
/-- Decision trees. -/
def standsD (lp fn : Bool) : Decision → Bool
  | .fail => true
  | .success _ _ _ body => standsYs lp fn body
  | .switch _ cs none => standsCs lp fn cs
  | .switch _ cs (some d) => standsCs lp fn cs && standsD lp fn d
/-- Their cases. -/
def standsCs (lp fn : Bool) : List DCase → Bool
  | [] => true
  | .mk _ _ d :: cs => standsD lp fn d && standsCs lp fn cs
/-- Statements. -/
def standsS (lp fn top pr : Bool) : TStmt → Bool
  | .loopCtl .. => lp
  | .retorna _ none => fn
  | .retorna _ (some e) => fn && standsE lp fn e
  | .produz _ e => pr && standsE lp fn e
  | .func _ _ b => top && standsB false true b
  | .enquanto _ c b => standsE lp fn c && standsB true fn b
  | .expr e | .mostra _ e | .varDecl _ _ _ (some (.mk _ e)) => standsE lp fn e
  | .se _ c b es none => standsE lp fn c && standsB lp fn b && standsElses lp fn es
  | .se _ c b es (some d) => standsE lp fn c && standsB lp fn b && standsElses lp fn es && standsB lp fn d
  | .para _ _ x y none b => standsE lp fn x && standsE lp fn y && standsB lp fn b
  | .para _ _ x y (some z) b => standsE lp fn x && standsE lp fn y && standsE lp fn z && standsB lp fn b
  | .varDecl _ _ _ none | .registo .. | .uniao .. | .noop _ => true
/-- `senaose` branches. -/
def standsElses (lp fn : Bool) : List TElse → Bool
  | [] => true
  | .mk c b :: es => standsE lp fn c && standsB lp fn b && standsElses lp fn es
/-- Blocks. -/
def standsB (lp fn : Bool) : TBlock → Bool
  | .mk _ body => standsSs lp fn body
/-- The statements of a block. -/
def standsSs (lp fn : Bool) : List TStmt → Bool
  | [] => true
  | s :: ss => standsS lp fn false false s && standsSs lp fn ss
/-- The statements of the block of an arm. -/
def standsYs (lp fn : Bool) : List TStmt → Bool
  | [] => true
  | s :: ss => standsS lp fn false ss.isEmpty s && standsYs lp fn ss
end

/-- A statement of a module. -/
def standsTop (s : TStmt) : Bool := standsS false false true false s

end Amanda

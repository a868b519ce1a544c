import Verif.Scope

/-!
# What names are to mean

Lexical scoping, without scope objects, numbers or stored names: an environment is a stack of
blocks, each with the tokens that declare names in it.  Checking a program gives, for each use of a
name, the declaration it refers to, or the reason for which the program is to be rejected.
-/

namespace Amanda.Names

/-- Why a program is rejected.  `outside` marks programs the specification does not speak about. -/
inductive Reason where
  | undeclared
  | redeclared
  | nested
  | selfInit
  | callee
  | outside
  deriving DecidableEq, Repr

/-- The declarations of one block, the latest first. -/
abbrev Frame := List (List Char × Token)

/-- The blocks around a place in the program, the innermost first. -/
abbrev Env := List Frame

/-- Pairs of a use of a name and the declaration it refers to. -/
abbrev Meaning := List (Token × Token)

/-- Names kept for the compiler's own variables. -/
def reserved (n : List Char) : Bool := n == targetName || ['_', 'r'].isPrefixOf n

/-- The declaration in the nearest block that declares the name. -/
def Env.find : Env → List Char → Option Token
  | [], _ => none
  | f :: fs, n =>
    match assocGet f n with
    | some d => some d
    | none => Env.find fs n

/-- A use of a name. -/
def Env.use (E : Env) (t : Token) : Except Reason Meaning :=
  if reserved t.chars then .error .outside
  else match E.find t.chars with
    | some d => .ok [(t, d)]
    | none => .error .undeclared

/-- A declaration in a block. -/
def Frame.declare (f : Frame) (t : Token) : Except Reason Frame :=
  if reserved t.chars then .error .outside
  else match assocGet f t.chars with
    | some _ => .error .redeclared
    | none => .ok ((t.chars, t) :: f)

/-- A declaration in the innermost block. -/
def Env.declare (E : Env) (t : Token) : Except Reason Env :=
  match E with
  | [] => .error .outside
  | f :: fs => do
    let f ← f.declare t
    .ok (f :: fs)

/-- Declarations in one block. -/
def Frame.declareAll : Frame → List Token → Except Reason Frame
  | f, [] => .ok f
  | f, t :: ts => do
    let f ← f.declare t
    f.declareAll ts

/-- The block of an arm, with the variables of its pattern. -/
def patFrame (E : Env) : Pat → Except Reason (Meaning × Frame)
  | .int _ | .str _ => .ok ([], [])
  | .bind t => do
    let f ← Frame.declareAll [] [t]
    .ok ([], f)
  | .adtVar t args => do
    let u ← E.use t
    match argVars args with
    | .error _ => .error .outside
    | .ok ts => do
      let f ← Frame.declareAll [] ts
      .ok (u, f)
  | .adtPath comps args => do
    let u ← E.use (comps.headD noTok)
    match argVars args with
    | .error _ => .error .outside
    | .ok ts => do
      let f ← Frame.declareAll [] ts
      .ok (u, f)

/-- The blocks of the arms. -/
def patFrames (E : Env) : List Pat → Except Reason (Meaning × List Frame)
  | [] => .ok ([], [])
  | p :: rest => do
    let (u, f) ← patFrame E p
    let (us, fs) ← patFrames E rest
    .ok (u ++ us, f :: fs)


mutual
/-- The meaning of the names in an expression.  `reached` tells which arms of an `iguala` can be
selected; the others are not looked at.  The first argument of `vec` is a type. -/
def meanE (reached : Token → Nat → Bool) (E : Env) : Expr → Except Reason Meaning
  | .const _ => .ok []
  | .alvo _ => .ok []
  | .fmtStr _ parts => meanEs reached E parts
  | .var t => E.use t
  | .path comps => E.use (comps.headD noTok)
  | .converta _ e _ => meanE reached E e
  | .bin _ a b => do
    let u ← meanE reached E a
    let v ← meanE reached E b
    .ok (u ++ v)
  | .un _ e => meanE reached E e
  | .assign _ l r => do
    let u ← meanE reached E r
    let v ← meanE reached E l
    .ok (u ++ v)
  | .list _ _ es => meanEs reached E es
  | .named _ e => meanE reached E e
  | .get e _ => meanE reached E e
  | .index _ a b => do
    let u ← meanE reached E a
    let v ← meanE reached E b
    .ok (u ++ v)
  | .indexSet _ a b => do
    let u ← meanE reached E a
    let v ← meanE reached E b
    .ok (u ++ v)
  | .set a b => do
    let u ← meanE reached E a
    let v ← meanE reached E b
    .ok (u ++ v)
  | .call c args => do
    let u ← meanCallee reached E c
    let v ← meanArgs reached E (isVec c) args
    .ok (u ++ v)
  | .iguala t target arms => do
    let u ← meanE reached ([] :: E) target
    let (v, fs) ← patFrames ([] :: E) (arms.map armPat)
    let w ← meanArms reached (reached t) ([] :: E) arms 0 fs
    .ok (u ++ v ++ w)
/-- What is called must be a name, a member or a path. -/
def meanCallee (reached : Token → Nat → Bool) (E : Env) : Expr → Except Reason Meaning
  | .var t => E.use t
  | .get e _ => meanE reached E e
  | .path comps => E.use (comps.headD noTok)
  | _ => .error .callee
def meanArgs (reached : Token → Nat → Bool) (E : Env) (vec : Bool) : List Expr → Except Reason Meaning
  | [] => .ok []
  | e :: es => do
    let u ← (if vec then .ok [] else meanE reached E e)
    let v ← meanEs reached E es
    .ok (u ++ v)
def meanEs (reached : Token → Nat → Bool) (E : Env) : List Expr → Except Reason Meaning
  | [] => .ok []
  | e :: es => do
    let u ← meanE reached E e
    let v ← meanEs reached E es
    .ok (u ++ v)
def meanArms (reached : Token → Nat → Bool) (here : Nat → Bool) (E : Env) :
    List Arm → Nat → List Frame → Except Reason Meaning
  | [], _, _ => .ok []
  | .mk _ _ _ body :: rest, k, fs => do
    let u ← (if here k then meanBlock reached (fs.headD [] :: E) body else .ok [])
    let v ← meanArms reached here E rest (k + 1) fs.tail
    .ok (u ++ v)
/-- A statement may add declarations to the innermost block. -/
def meanS (reached : Token → Nat → Bool) (E : Env) : Stmt → Except Reason (Meaning × Env)
  | .expr e => do
    let u ← meanE reached E e
    .ok (u, E)
  | .varDecl _ name _ init => do
    let E ← E.declare name
    match init with
    | none => .ok ([], E)
    | some e =>
      match initTok e with
      | none => .error .outside
      | some r =>
        if r.lexeme = name.lexeme then .error .selfInit
        else do
          let u ← meanE reached E e
          .ok (u, E)
  | .loopCtl _ => .ok ([], E)
  | .retorna _ e =>
    match e with
    | none => .ok ([], E)
    | some e => do
      let u ← meanE reached E e
      .ok (u, E)
  | .produz _ e => do
    let u ← meanE reached E e
    .ok (u, E)
  | .mostra _ e => do
    let u ← meanE reached E e
    .ok (u, E)
  | .se _ c a elsifs d => do
    let u ← meanE reached E c
    let v ← meanBlock reached ([] :: E) a
    let w ← meanElses reached E elsifs
    let x ← (match d with
      | none => .ok []
      | some b => meanBlock reached ([] :: E) b)
    .ok (u ++ v ++ w ++ x, E)
  | .enquanto _ c b => do
    let u ← meanE reached E c
    let v ← meanBlock reached ([] :: E) b
    .ok (u ++ v, E)
  | .escolha _ c cases d => do
    let u ← meanE reached E c
    let w ← meanElses reached E cases
    let x ← (match d with
      | none => .ok []
      | some b => meanBlock reached ([] :: E) b)
    .ok (u ++ w ++ x, E)
  | .para _ name a b inc body => do
    let u ← meanE reached E a
    let v ← meanE reached E b
    let w ← (match inc with
      | none => .ok []
      | some e => meanE reached E e)
    let f ← Frame.declare [] name
    let x ← meanBlock reached (f :: E) body
    .ok (u ++ v ++ w ++ x, E)
  | .func name params _ body native ann =>
    if E.length > 1 then .error .nested
    else do
      let E ← E.declare name
      let f ← Frame.declareAll [] (params.map (·.name))
      match body with
      | none => .ok ([], E)
      | some b =>
        if native || isBuiltin ann then .ok ([], E)
        else do
          let u ← meanBlock reached (f :: E) b
          .ok (u, E)
  | .method _ _ _ _ _ _ _ => .error .outside
  | .registo name _ fields _ => do
    let E ← E.declare name
    let u ← meanBlock reached ([] :: E) fields
    .ok (u, E)
  | .uniao name _ _ _ => do
    let E ← E.declare name
    .ok ([], E)
  | .usa _ _ _ => .error .outside
/-- A block: what it declares is gone at its end. -/
def meanBlock (reached : Token → Nat → Bool) (E : Env) : List Stmt → Except Reason Meaning
  | [] => .ok []
  | x :: xs => do
    let (u, E) ← meanS reached E x
    let v ← meanBlock reached E xs
    .ok (u ++ v)
def meanElses (reached : Token → Nat → Bool) (E : Env) : List ElseIf → Except Reason Meaning
  | [] => .ok []
  | .mk _ c b :: rest => do
    let u ← meanE reached E c
    let v ← meanBlock reached ([] :: E) b
    let w ← meanElses reached E rest
    .ok (u ++ v ++ w)
end

end Amanda.Names

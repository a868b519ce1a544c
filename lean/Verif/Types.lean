import Verif.Lexer

/-!
# Types: amanda/compiler/types/core.py, types/builtins.py, ops.py, symbols/base.py

What a declared type knows about its fields, methods and variants is kept by the checker
(`Check.lean`); here a type is what `==`, `promote_to`, `check_cast`, `binop` and `unaryop` look
at.  All of Python's type objects are true in a boolean context, so `if not x` means `x is None`.
-/

namespace Amanda

/-- `Types` (types/core.py:24-39), restricted to the tags a `Primitive` is ever made with
(builtins.py:12-20). -/
inductive PTag where
  | int | real | bool | texto | indef | vazio | nulo | unknown
  deriving DecidableEq, Repr

/-- `str(tag)` (types/core.py:42-45). -/
def PTag.name : PTag → String
  | .int => "int" | .real => "real" | .bool => "bool" | .texto => "texto" | .indef => "indef"
  | .vazio => "vazio" | .nulo => "nulo" | .unknown => "unknown"

mutual
/-- The classes of types/core.py and `TypeVar` (symbols/base.py:181-232).  A `registo` or `uniao`
is given by the path of the module that declares it and its name.  The `generic_ty` of a
`ConstructedTy` is always a `Registo`: no other class has a `bind` that returns.  A `ModuleTy` is
given by the path of its module, of which there is one object per path (check/core.py:333-346). -/
inductive Ty where
  | prim (t : PTag)
  | vec (el : Ty)
  | registo (mod name : String)
  | uniao (mod name : String)
  | app (mod name : String) (args : TyArgs)
  | tvar (name : String)
  | module (path : String)
/-- `bound_ty_args`: parameter names with types, in order. -/
inductive TyArgs where
  | nil
  | cons (param : String) (arg : Ty) (rest : TyArgs)
end

deriving instance DecidableEq, Repr for Ty, TyArgs

namespace TyArgs

/-- `bound_ty_args.get(param)`. -/
def get (p : String) : TyArgs → Option Ty
  | .nil => none
  | .cons q t rest => if q = p then some t else rest.get p

/-- `bound_ty_args.items()`. -/
def toList : TyArgs → List (String × Ty)
  | .nil => []
  | .cons q t rest => (q, t) :: rest.toList

end TyArgs

/-- `str(Types.TOpcao)` (types/core.py:43-44). -/
def opcaoName : String := "Opcao"

mutual
/-- `__eq__` of the type classes (types/core.py:57-60, 225-226, 308-312, 409-410, 534-535,
571-581, base.py:192-193): `a.eqD false b` is `a == b`, `a.eqD true b` is `b == a`.
`ModuleTy.__eq__` compares its `Module` with a type; Python then asks the other side, which
answers `False` unless it is a `ModuleTy` too. -/
def Ty.eqD : Ty → Bool → Ty → Bool
  | .prim s, _, .prim t => s == t
  | .vec a, flip, .vec b => a.eqD flip b
  | .registo _ n, _, .registo _ m => n == m
  | .uniao _ n, _, .uniao _ m => n == m
  | .app _ n as, flip, .app _ m bs =>
      n == m && (if flip then bs.toList.all fun q => TyArgs.hasEq as q.1 q.2
                 else TyArgs.allEq as bs)
  | .tvar n, _, .tvar m => n == m
  | .module p, _, .module q => p == q
  | _, _, _ => false
/-- The loop of `ConstructedTy.__eq__` over the own arguments (types/core.py:577-580); the
arguments are compared in the form `other_ty_arg != ty_arg`. -/
def TyArgs.allEq : TyArgs → TyArgs → Bool
  | .nil, _ => true
  | .cons p x rest, bs =>
      (match bs.get p with
       | some y => x.eqD true y
       | none => false) && TyArgs.allEq rest bs
/-- One round of the same loop when these are the arguments of the other type. -/
def TyArgs.hasEq : TyArgs → String → Ty → Bool
  | .nil, _, _ => false
  | .cons q x rest, p, y => if q = p then x.eqD false y else TyArgs.hasEq rest p y
end

/-- `a == b`. -/
def Ty.eqv (a b : Ty) : Bool := a.eqD false b

namespace Ty

/-- `Builtins` (builtins.py:12-20). -/
abbrev int : Ty := .prim .int
abbrev real : Ty := .prim .real
abbrev bool : Ty := .prim .bool
abbrev texto : Ty := .prim .texto
abbrev vazio : Ty := .prim .vazio
abbrev indef : Ty := .prim .indef
abbrev nulo : Ty := .prim .nulo
abbrev unknown : Ty := .prim .unknown

/-- `isinstance(ty, Primitive)`. -/
def isPrim : Ty → Bool | .prim _ => true | _ => false

/-- `is_numeric` (types/core.py:62-63, base.py:116-117). -/
def isNumeric : Ty → Bool
  | .prim .int | .prim .real => true
  | _ => false

/-- `is_operable` (types/core.py:82-83, 592-593, base.py:131-132). -/
def isOperable : Ty → Bool
  | .prim .vazio | .prim .indef => false
  | .prim _ => true
  | _ => false

/-- `is_primitive` (types/core.py:185-192). -/
def isPrimitive : Ty → Bool
  | .prim .int | .prim .texto | .prim .bool | .prim .real | .prim .indef => true
  | _ => false

/-- `ty.name` (types/core.py:53, 219, 270, 342, 567). -/
def name : Ty → String
  | .prim t => t.name
  | .vec _ => "vec"
  | .registo _ n | .uniao _ n | .app _ n _ | .tvar n => n
  | .module _ => "Module"

/-- `str(ty)` (types/core.py:79-80, 231-232, 305-306, 412-413, 537-538, 657-661). -/
def str : Ty → String
  | .prim t => t.name
  | .vec el => "[" ++ el.str ++ "]"
  | .registo _ n | .uniao _ n | .tvar n => n
  | .app _ n (.cons _ t _) => if n = opcaoName then t.str ++ "?" else n
  | .app _ n .nil => n
  | .module _ => "Module"

/-- `auto_cast_table` (types/core.py:150-155). -/
def autoCast : PTag → List PTag
  | .int => [.real, .indef]
  | .real | .bool | .texto => [.indef]
  | _ => []

/-- `promotion_to` (types/core.py:143-160, 237-238, 324-327, 383-397, 514-519, 621-624,
base.py:226-227). -/
def promotionTo (a b : Ty) : Option Ty :=
  match a, b with
  | .prim s, .prim t => if t ∈ autoCast s then some b else none
  | .vec _, .prim .indef | .uniao _ _, .prim .indef | .app _ _ _, .prim .indef => some b
  | .registo _ _, .prim .indef => some b
  | .registo _ n, .app _ m _ => if m = opcaoName ∧ n = m then some b else none
  | _, _ => none

mutual
/-- `promote_to` (base.py:155-157) with `promotion_from` (types/core.py:631-646, base.py:143-144). -/
def promote (a : Ty) : Ty → Except PyErr (Option Ty)
  | .app m n args =>
      match promotionTo a (.app m n args) with
      | some t => .ok (some t)
      | none =>
          if !a.isPrim && n != opcaoName then .ok none
          else
            match promoteInner a args with
            | .error e => .error e
            | .ok true => .ok (some (.app m n args))
            | .ok false => .ok none
  | b => .ok (promotionTo a b)
/-- `inner_ty = self.bound_ty_args["T"]` and the condition after it (types/core.py:638-646). -/
def promoteInner (a : Ty) : TyArgs → Except PyErr Bool
  | .nil => .error (.exc "KeyError")
  | .cons p t rest =>
      if p = "T" then
        if t.eqv a then .ok true
        else
          match promote a t with
          | .error e => .error e
          | .ok r => .ok (r.isSome || a == .nulo)
      else promoteInner a rest
end

/-- `types_match` (check/core.py:271-272). -/
def typesMatch (expected received : Ty) : Except PyErr Bool :=
  if expected.eqv received then .ok true else (promote received expected).map Option.isSome

/-- `cast_table` (types/core.py:103-122). -/
def castTable : PTag → List PTag
  | .int | .real | .texto => [.int, .texto, .bool, .real, .indef]
  | .bool => [.texto, .indef]
  | .indef => [.int, .texto, .bool, .real, .indef]
  | _ => []

/-- `cast_to` (types/core.py:88-125, base.py:137-138). -/
def castTo (a b : Ty) : Bool :=
  match a, b with
  | .prim s, .prim t => s == t || decide (t ∈ castTable s)
  | _, _ => false

mutual
/-- `check_cast` (base.py:149-150) with `cast_from` (types/core.py:613-619, base.py:140-141). -/
def checkCast (a : Ty) : Ty → Except PyErr Bool
  | .app m n args =>
      if castTo a (.app m n args) then .ok true
      else if !a.isPrim || n != opcaoName then .ok false
      else castInner a args
  | b => .ok (castTo a b)
/-- `inner_ty = self.bound_ty_args["T"]` and the condition after it (types/core.py:618-619). -/
def castInner (a : Ty) : TyArgs → Except PyErr Bool
  | .nil => .error (.exc "KeyError")
  | .cons p t rest =>
      if p = "T" then (if a == .nulo then .ok true else checkCast a t) else castInner a rest
end

/-- `primitive_binop` (ops.py:10-47); the operand types of the promotions are primitive. -/
def primitiveBinop (lhs : Ty) (op : TT) (rhs : Ty) : Option Ty :=
  if !rhs.isOperable then none
  else if !rhs.isPrim then none
  else
    match op with
    | .plus | .minus | .star | .slash | .doubleslash | .modulo =>
        if lhs.isNumeric && rhs.isNumeric then
          some (if lhs == int && rhs == int && op != .slash then int else real)
        else none
    | .greater | .less | .greatereq | .lesseq =>
        if lhs.isNumeric && rhs.isNumeric then some bool else none
    | .doubleequal | .notequal =>
        if (lhs.isNumeric && rhs.isNumeric) || lhs.eqv rhs || (promotionTo lhs rhs).isSome ||
            (promotionTo rhs lhs).isSome then some bool
        else none
    | .e | .ou => if lhs == bool && rhs == bool then some bool else none
    | _ => none

/-- `rhs.generic_ty if isinstance(rhs, ConstructedTy) else rhs` (types/core.py:626-629). -/
def generic : Ty → Ty
  | .app m n _ => .registo m n
  | t => t

/-- `Registo.binop` (types/core.py:369-378). -/
def registoBinop (name : String) (op : TT) (rhs : Ty) : Option Ty :=
  if op = .doubleequal ∨ op = .notequal then
    match rhs with
    | .registo _ _ => some bool
    | _ => if name = opcaoName then some bool else none
  else none

/-- `binop` (types/core.py:127-130, 246-247, 282-283, 369-378, 508-509, 626-629, base.py:201-202). -/
def binop (lhs : Ty) (op : TT) (rhs : Ty) : Option Ty :=
  match lhs with
  | .prim _ => primitiveBinop lhs op rhs
  | .registo _ n => registoBinop n op rhs
  | .app _ n _ => registoBinop n op rhs.generic
  | _ => none

/-- `unaryop` (types/core.py:132-141, 249-250, 285-286, 380-381, 511-512, 604-605, base.py:204-205). -/
def unaryop (t : Ty) (op : TT) : Option Ty :=
  match t, op with
  | .prim .int, .plus | .prim .int, .minus | .prim .real, .plus | .prim .real, .minus => some t
  | .prim .bool, .nao => some t
  | _, _ => none

/-- `supports_index_get` and `supports_tam` (types/core.py:162-166, 288-295, 595-602). -/
def isIndexable : Ty → Bool
  | .prim .texto | .vec _ => true
  | _ => false

/-- `supports_index_set` (types/core.py:168-169, 291-292, 598-599). -/
def isIndexSettable : Ty → Bool
  | .vec _ => true
  | _ => false

/-- `index_item_ty` (types/core.py:178-183, 302-303); `index_ty` is always `int`. -/
def itemTy : Ty → Option Ty
  | .prim .texto => some texto
  | .vec el => some el
  | _ => none

/-- `is_module` (types/core.py:240-241). -/
def isModule : Ty → Bool
  | .module _ => true
  | _ => false

/-- `zero_initialized` (builtins.py:13-20, base.py:56-63). -/
def zeroInitialized : Ty → Bool
  | .prim .int | .prim .real | .prim .bool | .prim .texto => true
  | _ => false

/-- `ty.is_constructed_from(SrcBuiltins.Opcao)` (types/core.py:583-584, base.py:134-135). -/
def isOption : Ty → Bool
  | .app _ n _ => n == opcaoName
  | _ => false

end Ty

end Amanda

import Verif.Value

/-!
# Native functions: `modules/builtins/embutidos.rs`, `modules/builtins/mat.rs`,
`vec_index_check` (ama_value.rs).
-/

namespace Amanda

/-- What native code can touch besides its arguments: reference-counted storage,
standard output (everything written so far) and standard input (the lines not yet read,
each with its line feed if it has one). -/
structure World (F : Type) where
  heap : Heap F
  out : String
  inp : List String
  deriving DecidableEq, Repr

/-- Build and platform parameters of the VM.
`debug`: compiled with debug assertions (`cargo build` without `--release`,
utils/build.py:24-27).  `graphemes`: `UnicodeSegmentation::graphemes(true)`
(vm.rs:273, embutidos.rs:77). -/
structure Cfg where
  debug : Bool
  graphemes : String → List String

/-- Result of a native call: an error or panic leaves a world behind too. -/
abbrev NM (F : Type) := Except (RErr × World F)

section
variable {F : Type} [FloatOps F]

/-- Attach the current world to a pure result. -/
def Res.at {α : Type} (r : Res α) (w : World F) : NM F α :=
  match r with
  | .ok a => .ok a
  | .error e => .error (e, w)

/-- `Alloc::alloc_ref` (alloc.rs:49-52): a fresh cell. -/
def alloc (heap : Heap F) (c : Cell F) : Heap F × Nat := (heap ++ [c], heap.length)

def msgNegIndex : String :=
  "Erro de índice inválido. Vectores só podem ser indexados com inteiros positivos"

def msgIndex (len : Nat) (idx : Int) : String :=
  "Erro de índice inválido. O tamanho do vector é " ++ toString len ++
    ", mas tentou aceder o índice " ++ toString idx

/-- `vec_index_check` (ama_value.rs:157-176). -/
def vecIndexCheck (heap : Heap F) (v : Val F) (idx : Int) : Res Unit :=
  if idx < 0 then .error (.err msgNegIndex)
  else
    match v with
    | .vector c =>
        match heap[c]? with
        | some (.vec items) =>
            if idx.toNat ≥ items.length then .error (.err (msgIndex items.length idx)) else .ok ()
        | _ => .error .panic
    | _ => .error .panic

/-- `args[i]` in native code. -/
def nArg (args : List (Val F)) (i : Nat) : Res (Val F) :=
  match args[i]? with
  | some v => .ok v
  | none => .error .panic

/-- `escrevaln` (embutidos.rs:13-18). -/
def nEscrevaln (args : List (Val F)) (w : World F) : NM F (Val F × World F) := do
  let v ← (nArg args 0).at w
  let s ← (displayVal w.heap v).at w
  .ok (.none, { w with out := w.out ++ s ++ "\n" })

/-- `escreva` (embutidos.rs:20-26). -/
def nEscreva (args : List (Val F)) (w : World F) : NM F (Val F × World F) := do
  let v ← (nArg args 0).at w
  let s ← (displayVal w.heap v).at w
  .ok (.none, { w with out := w.out ++ s })

/-- `stdin().read_line` (embutidos.rs:33): the next line, `""` at the end of input. -/
def readLine (w : World F) : String × World F :=
  match w.inp with
  | [] => ("", w)
  | l :: ls => (l, { w with inp := ls })

/-- `leia` (embutidos.rs:28-41).  The line feed is removed inside a `debug_assert!`, so
only in debug builds; there an input that does not end in a line feed panics. -/
def nLeia (cfg : Cfg) (args : List (Val F)) (w : World F) : NM F (Val F × World F) := do
  let (_, w) ← nEscreva args w
  let (l, w) := readLine w
  if cfg.debug then
    match l.toList.reverse with
    | '\n' :: cs => .ok (.str (String.ofList cs.reverse), w)
    | _ => .error (.panic, w)
  else .ok (.str l, w)

/-- `leia_int` (embutidos.rs:43-56). -/
def nLeiaInt (cfg : Cfg) (args : List (Val F)) (w : World F) : NM F (Val F × World F) := do
  let (v, w) ← nLeia cfg args w
  let s ← v.takeStr.at w
  match parseI64 s with
  | some n => .ok (.int n, w)
  | none => .error (.err "Valor introduzido não é um inteiro válido", w)

/-- `leia_real` (embutidos.rs:58-71). -/
def nLeiaReal (cfg : Cfg) (args : List (Val F)) (w : World F) : NM F (Val F × World F) := do
  let (v, w) ← nLeia cfg args w
  let s ← v.takeStr.at w
  match (FloatOps.parse s : Option F) with
  | some x => .ok (.f64 x, w)
  | none => .error (.err "Valor introduzido não é um número real válido", w)

/-- A `usize` of 64 bits made an `i64` by `as` (embutidos.rs:77, 79): the same bits. -/
def asI64 (n : Nat) : Int := Int.bmod n (2 ^ 64)

/-- `tam` (embutidos.rs:73-82). -/
def nTam (cfg : Cfg) (args : List (Val F)) (w : World F) : NM F (Val F × World F) := do
  let v ← (nArg args 0).at w
  match v with
  | .str s => .ok (.int (asI64 (cfg.graphemes s).length), w)
  | .vector c =>
      match w.heap[c]? with
      | some (.vec items) => .ok (.int (asI64 items.length), w)
      | _ => .error (.panic, w)
  | _ => .error (.panic, w)

/-- `str::contains` for a text pattern. -/
def containsSub (needle : List Char) : List Char → Bool
  | [] => needle.isEmpty
  | c :: cs => needle.isPrefixOf (c :: cs) || containsSub needle cs

/-- `txt_contem` (embutidos.rs:84-93). -/
def nTxtContem (args : List (Val F)) (w : World F) : NM F (Val F × World F) := do
  let h ← (nArg args 0).at w
  let n ← (nArg args 1).at w
  match h, n with
  | .str h, .str n => .ok (.bool (containsSub n.toList h.toList), w)
  | _, _ => .error (.panic, w)

/-- The innermost case of `build_vec` (embutidos.rs:104-111). -/
def initValue : VTy → Res (Val F)
  | .int => .ok (.int 0)
  | .real => .ok (.f64 FloatOps.zero)
  | .bool => .ok (.bool false)
  | .texto => .ok (.str "")
  | .vector => .error .panic

/-- `resize_with(size, || Vector(alloc_ref(inner.clone())))` (embutidos.rs:117-118):
`size` fresh cells, each with its own copy of the list `inner`. -/
def allocCopies (heap : Heap F) (inner : List (Val F)) : Nat → List (Val F) × Heap F
  | 0 => ([], heap)
  | n + 1 =>
      let (vs, h) := allocCopies (heap ++ [.vec inner]) inner n
      (.vector heap.length :: vs, h)

/-- `build_vec` (embutidos.rs:96-122); the dimensions are the remaining ones.  With no
dimension `n_dims - 1` underflows or `dims[0]` is out of bounds: a panic. -/
def buildVec (elTy : VTy) : List Nat → Heap F → Res (List (Val F) × Heap F)
  | [], _ => .error .panic
  | [size], heap => do
      let v ← initValue elTy
      .ok (List.replicate size v, heap)
  | size :: d :: ds, heap =>
      if size = 0 then .ok ([], heap)
      else do
        let (inner, heap) ← buildVec elTy (d :: ds) heap
        .ok (allocCopies heap inner size)

def msgDims : String :=
  "Dimensões de um vector devem ser especificidas por números inteiros positivos"

/-- The check of the dimensions in `vec` (embutidos.rs:128-135), returning them as sizes. -/
def checkDims : List (Val F) → Res (List Nat)
  | [] => .ok []
  | v :: vs => do
      let n ← v.takeInt
      if n < 0 then .error (.err msgDims)
      else do
        let ns ← checkDims vs
        .ok (n.toNat :: ns)

/-- `vec` (embutidos.rs:124-139). -/
def nVec (args : List (Val F)) (w : World F) : NM F (Val F × World F) := do
  let t ← (nArg args 0).at w
  let elTy ← t.takeType.at w
  let dims ← (checkDims (args.drop 1)).at w
  let (items, heap) ← (buildVec elTy dims w.heap).at w
  let (heap, c) := alloc heap (.vec items)
  .ok (.vector c, { w with heap := heap })

/-- `anexa` (embutidos.rs:141-148). -/
def nAnexa (args : List (Val F)) (w : World F) : NM F (Val F × World F) := do
  let v ← (nArg args 0).at w
  match v with
  | .vector c => do
      let x ← (nArg args 1).at w
      match w.heap[c]? with
      | some (.vec items) =>
          .ok (.none, { w with heap := w.heap.set c (.vec (items ++ [x])) })
      | _ => .error (.panic, w)
  | _ => .error (.panic, w)

/-- `remova` (embutidos.rs:150-158). -/
def nRemova (args : List (Val F)) (w : World F) : NM F (Val F × World F) := do
  let v ← (nArg args 0).at w
  let i ← (nArg args 1).at w
  let idx ← i.takeInt.at w
  (vecIndexCheck w.heap v idx).at w
  match v with
  | .vector c =>
      match w.heap[c]? with
      | some (.vec items) =>
          match items[idx.toNat]? with
          | some x => .ok (x, { w with heap := w.heap.set c (.vec (items.eraseIdx idx.toNat)) })
          | none => .error (.panic, w)
      | _ => .error (.panic, w)
  | _ => .error (.panic, w)

/-- The one- and two-argument functions of mat.rs:7-67. -/
def nMat (name : String) (args : List (Val F)) (w : World F) : NM F (Val F × World F) := do
  let v ← (nArg args 0).at w
  let x ← v.takeFloat.at w
  let second : NM F F := do
    let v ← (nArg args 1).at w
    v.takeFloat.at w
  match name with
  | "abs" => .ok (.f64 (FloatOps.abs x), w)
  | "expoente" => do
      let y ← second
      .ok (.f64 (FloatOps.pow x y), w)
  | "raizqd" => .ok (.f64 (FloatOps.sqrt x), w)
  | "arredonda" => .ok (.int (FloatOps.toInt (FloatOps.round x)), w)
  | "piso" => .ok (.int (FloatOps.toInt (FloatOps.floor x)), w)
  | "teto" => .ok (.int (FloatOps.toInt (FloatOps.ceil x)), w)
  | "sen" => .ok (.f64 (FloatOps.sin x), w)
  | "cos" => .ok (.f64 (FloatOps.cos x), w)
  | "tan" => .ok (.f64 (FloatOps.tan x), w)
  | "log" => do
      let y ← second
      .ok (.f64 (FloatOps.log x y), w)
  | "grausprad" => .ok (.f64 (FloatOps.toRadians x), w)
  | "radpgraus" => .ok (.f64 (FloatOps.toDegrees x), w)
  | _ => .error (.panic, w)

/-- `(native_fn.func)(fn_args, alloc)` (vm.rs:383): the function a `NativeFunc` made by the
`exports!` tables stands for. -/
def callNative (cfg : Cfg) (module name : String) (args : List (Val F)) (w : World F) : NM F (Val F × World F) :=
  if module = "embutidos" then
    match name with
    | "escrevaln" => nEscrevaln args w
    | "escreva" => nEscreva args w
    | "leia" => nLeia cfg args w
    | "leia_int" => nLeiaInt cfg args w
    | "leia_real" => nLeiaReal cfg args w
    | "tam" => nTam cfg args w
    | "vec" => nVec args w
    | "anexa" => nAnexa args w
    | "remova" => nRemova args w
    | "txt_contem" => nTxtContem args w
    | _ => .error (.panic, w)
  else nMat name args w

/-- `exports!` of embutidos.rs:159-176 and mat.rs:69-83, `builtin_defs!` of
builtins/mod.rs:12-15. -/
def builtinDefs : String → Option (List (String × Val F))
  | "embutidos" => some
      ([("int", .type .int), ("real", .type .real), ("bool", .type .bool), ("texto", .type .texto),
        ("PI", .f64 FloatOps.pi)] ++
       (["escrevaln", "escreva", "leia", "leia_int", "leia_real", "tam", "vec", "anexa", "remova",
        "txt_contem"].map fun n => (n, .nativeFn "embutidos" n)))
  | "mat" => some
      (("PI", .f64 FloatOps.pi) ::
       (["abs", "raizqd", "expoente", "arredonda", "piso", "teto", "sen", "cos", "tan", "log",
        "grausprad", "radpgraus"].map fun n => (n, .nativeFn "mat" n)))
  | _ => none

end

end Amanda

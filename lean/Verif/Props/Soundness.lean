import Verif.Library
import Verif.Props.Imports
import Verif.Props.Pipeline
import Verif.FloatModel
import Verif.FragNest

/-!
# Programs the checker accepts keep to the meaning of the language (C55, C56)

A run of a program may end, may end with an error of the language, or may go on for ever; it gets *stuck*
(`Source.Res.stuck`) where the language says nothing: an operator, a condition, a call or a conversion
applied to a value it is not made for, or a variable read before it has a value.  C55 says that accepted
programs never get stuck, C56 that their variables hold values of their declared types.

Both are false of the language (`*_violated`) and are proved for the programs of `Verif.Frag`.
-/

namespace Amanda.Check

open Source Imports Pipeline

/-! ## The library -/

/-- The file of builtin functions is as the fragment needs it, when its tree is `bt`. -/
def LibraryReady (cfg : CCfg) (b : Path) (bt : Tree) (K : Frag) (main : Path) : Prop :=
  Tree.plain bt = true ∧ ∀ r, libState cfg b bt = .ok r → startOk K (pstr b) r = true ∧ importsOk main [(b, true)] r.mods = true

/-- **C55**, for the programs of `Verif.Frag`: no run of a program the checker accepts gets stuck.  Missing: the
parts of the language outside `Verif.Frag` (records, unions, methods, options, `vec` and `valor_ou`, `escolha`,
`iguala`, imports), variables used in their own declaration, and conversions to `real` in the places where the
compiler loses them. -/
theorem accepted_never_stuck_partial {F : Type} [FloatOps F] [LawfulFloatOps F] [ReadsNumerals F] {cfg : CCfg} {py : PyCfg}
    {files : Files} {n : Nat} {main : Path} {t bt : Tree} {P : Prog} {K : Frag}
    (hlib : parseFile (icfg cfg py files) (builtinPath files) = .ok bt)
    (hready : LibraryReady cfg (builtinPath files) bt K main)
    (hk : okTree K t = true) (ha : builtinAnn t.annotations = false)
    (h : checkFile cfg py files n main t = .ok P)
    (vm : Cfg) (hvm : vm.debug = false) (k : Nat) (inp : List String) : P.eval (F := F) vm k inp ≠ .stuck := by
  obtain ⟨m, r, ls', rfl, hr, hv, hP⟩ := accepted_tree hlib hready.1 h
  obtain ⟨hs, hm⟩ := hready.2 r hr
  obtain ⟨T, Δ, hT, -⟩ := tree_typed (F := F) (K := K) (ls := ⟨[(builtinPath files, true)], main, [builtinPath files], r⟩)
    rfl hk ha hs (by simp) hm hv P hP
  exact typed_never_stuck hvm hT k inp

/-- Accepted programs of the strict part of `Verif.Frag` meet the conditions of C47, when no statement stands in more
than nine bodies: below that the internal names of variables can be confused. -/
theorem accepted_ok {F : Type} [FloatOps F] [LawfulFloatOps F] [ReadsNumerals F] {cfg : CCfg} {py : PyCfg}
    {files : Files} {n : Nat} {main : Path} {t bt : Tree} {P : Prog} {K : Frag}
    (hlib : parseFile (icfg cfg py files) (builtinPath files) = .ok bt)
    (hready : LibraryReady cfg (builtinPath files) bt K main)
    (hk : okTree K t = true) (ha : builtinAnn t.annotations = false) (hstrict : K.strict = true)
    (h : checkFile cfg py files n main t = .ok P) (hout : nestSs t.stmts ≤ 9) :
    P.Ok (homeIn P.env []) := by
  obtain ⟨m, r, ls', rfl, hr, hv, hP⟩ := accepted_tree hlib hready.1 h
  obtain ⟨hs, hm⟩ := hready.2 r hr
  obtain ⟨X, Δ, -, -, hfacts, ls1, hX, hvis⟩ := tree_typed (F := F) (K := K) (ls := ⟨[(builtinPath files, true)], main, [builtinPath files], r⟩)
    rfl hk ha hs (by simp) hm hv P hP
  have hn : Shallow X 9 X.sf := by
    rw [hX]
    exact nest_tree F (ls := ⟨[(builtinPath files, true)], main, [builtinPath files], r⟩) rfl hk hs hout hvis
  refine ok_of_facts hfacts hstrict (by rw [hP]; rfl) fun k d hk hd => ?_
  have he : P.env.scopes = X.sf.scopes := congrArg SymEnv.scopes hfacts.lang
  rw [he] at hd
  exact Nat.lt_succ_of_le (hn k d hk hd)

/-- The values that a written type stands for; `heap` is the storage of vectors. -/
def Stands {F : Type} (heap : List (Cell F)) : TyExpr → Val F → Prop
  | .name tok _ _, v =>
      if tok.str = "int" then ∃ n, InI64 n ∧ v = .int n
      else if tok.str = "real" then ∃ x, v = .f64 x
      else if tok.str = "bool" then ∃ b, v = .bool b
      else if tok.str = "texto" then ∃ t, v = .str t
      else False
  | .array el _, v => ∃ c items, v = .vector c ∧ heap[c]? = some (.vec items) ∧ ∀ x ∈ items, Stands heap el x
  | .path .., _ => False

theorem stands_of {F : Type} {C : Cells} {heap : List (Cell F)}
    (hh : ∀ c t, C c = some t → ∃ cell, heap[c]? = some cell ∧ CellOk C t cell) {r : Bool} :
    ∀ {ty : TyExpr} {v : Val F}, plainTy r ty = true → HasTy C (toTy [] (denote ty)) v → Stands heap ty v
  | .name tok false none, v, hp, h => by
      simp only [plainTy, typeWord, Bool.or_eq_true, Bool.and_eq_true, beq_iff_eq] at hp
      rcases hp with ((e | e) | e) | ⟨-, e⟩ <;> simp only [denote, e, toTy] at h <;> simp only [Stands, e]
      · cases h with | int n hn => exact ⟨n, hn, rfl⟩
      · cases h with | bool b => exact ⟨b, rfl⟩
      · cases h with | texto b => exact ⟨b, rfl⟩
      · cases h with | real b => exact ⟨b, rfl⟩
  | .array el false, v, hp, h => by
      simp only [plainTy] at hp
      simp only [denote, toTy] at h
      cases h with
      | vec c t hc =>
          obtain ⟨cell, h1, h2⟩ := hh c _ hc
          cases h2 with
          | vec t items hi => exact ⟨c, items, rfl, h1, fun x hx => stands_of hh hp (hi x hx)⟩
  | .name _ true _, _, hp, _ | .name _ false (some _), _, hp, _ | .array _ true, _, hp, _
  | .path .., _, hp, _ => by simp [plainTy] at hp

theorem okTop_decl {K : Frag} {tok name : Token} {ty : TyExpr} {init : Option Expr}
    (h : okTop K (.varDecl tok name ty init) = true) : plainTy K.reals ty = true := by
  simp only [okTop] at h
  cases init with
  | none => simp only [okS, Bool.and_eq_true] at h; exact h.2
  | some e =>
      cases e with
      | assign tk l r =>
          cases l with
          | var tv => simp only [okS, Bool.and_eq_true] at h; exact h.1.1.1.1.2
          | _ => simp [okS] at h
      | _ => simp [okS] at h

/-- **C56**, for the programs of `Verif.Frag`: when an accepted program ends, every variable declared among its
statements holds a value of the type written in the declaration, down to the elements of vectors.  Missing: as
in `accepted_never_stuck_partial`. -/
theorem variables_keep_types_partial {F : Type} [FloatOps F] [LawfulFloatOps F] [ReadsNumerals F] {cfg : CCfg} {py : PyCfg}
    {files : Files} {n : Nat} {main : Path} {t bt : Tree} {P : Prog} {K : Frag}
    (hlib : parseFile (icfg cfg py files) (builtinPath files) = .ok bt)
    (hready : LibraryReady cfg (builtinPath files) bt K main)
    (hk : okTree K t = true) (ha : builtinAnn t.annotations = false)
    (h : checkFile cfg py files n main t = .ok P)
    (vm : Cfg) (hvm : vm.debug = false) {k : Nat} {inp : List String} {st : St F} (he : P.eval vm k inp = .done () st)
    {tok name : Token} {ty : TyExpr} {init : Option Expr} (hd : .varDecl tok name ty init ∈ t.stmts) :
    ∃ v, st.globals (pstr main) name.str = some v ∧ Stands st.world.heap ty v := by
  obtain ⟨m, r, ls', rfl, hr, hv, hP⟩ := accepted_tree hlib hready.1 h
  obtain ⟨hs, hm⟩ := hready.2 r hr
  obtain ⟨X, Δ, hT, hdecl, -⟩ := tree_typed (F := F) (K := K) (ls := ⟨[(builtinPath files, true)], main, [builtinPath files], r⟩)
    rfl hk ha hs (by simp) hm hv P hP
  have hfine := typed_fine hvm hT k inp
  rw [he] at hfine
  obtain ⟨⟨C, hst⟩, hinit⟩ := hfine
  obtain ⟨i, x, hx, hglob, hmod, hname, hty, hi⟩ := hdecl tok name ty init hd
  obtain ⟨v, hv⟩ := hinit i hi
  have hval : value P.lang st i = st.globals (pstr main) name.str := by
    unfold value
    rw [show P.lang.env.syms[i]? = some x from hx]
    simp only [hglob, if_true, hmod, hname]
  have hp : plainTy K.reals ty = true := by
    simp only [okTree, Bool.and_eq_true, List.all_eq_true] at hk
    exact okTop_decl (hk.1.1.1.1 _ hd)
  exact ⟨v, hval ▸ hv, stands_of hst.heap hp (hst.vars i _ v hty hv)⟩

/-! ## With std/embutidos.ama as it is -/

/-- The names that are there in every program. -/
def libraryNames : List String :=
  ["int", "real", "bool", "texto", "vazio", "indef", "nulo", "leia", "leia_int", "leia_real", "escreva", "escrevaln",
   "vec", "tam", "anexa", "remova", "txt_contem", "Opcao", "valor_ou"]

/-- The functions of the library that programs of the fragment may use. -/
def libraryFns : List String := ["leia", "leia_int", "leia_real", "escreva", "escrevaln", "txt_contem", "anexa", "remova", "tam"]

theorem libSig_names {n : String} (h : (libSig n).isSome = true) : n ∈ libraryFns := by
  unfold libSig at h
  split at h
  all_goals first
    | (cases h; done)
    | decide

theorem okTree_libs {K : Frag} {t : Tree} (h : okTree K t = true) : ∀ n ∈ K.libs, n ∈ libraryFns := by
  simp only [okTree, Bool.and_eq_true, List.all_eq_true] at h
  exact fun n hn => libSig_names (h.1.2 n hn).1

theorem startOk_names {K : Frag} {lp : String} {s : CState} (h : startOk ⟨[], [], libraryFns, false, false⟩ lp s = true)
    (hg : ∀ tab, s.scopes[s.ana.globalScope]? = some tab → ∀ p ∈ tab.symbols, p.1 ∉ K.fns) (hl : ∀ n ∈ K.libs, n ∈ libraryFns) :
    startOk K lp s = true := by
  simp only [startOk, Bool.and_eq_true] at h ⊢
  refine ⟨⟨⟨⟨h.1.1.1.1, ?_⟩, h.1.1.2⟩, h.1.2⟩, List.all_eq_true.mpr fun n hn => List.all_eq_true.mp h.2 n (hl n hn)⟩
  have h9 := h.1.1.1.2
  cases ht : s.scopes[s.ana.globalScope]? with
  | none => rw [ht] at h9; cases h9
  | some tab =>
      rw [ht] at h9
      simp only [Bool.and_eq_true, List.all_eq_true] at h9 ⊢
      refine ⟨h9.1, fun p hp => ⟨?_, (h9.2 p hp).2⟩⟩
      simpa using hg tab ht p hp

/-- The checker's configuration of the examples: the library is in `/std`. -/
def stdCfg : CCfg := ⟨fun _ => true, chars! "/std"⟩

/-- Where the library is. -/
def stdBuiltin : Path := chars! "/std/embutidos.ama"

/-- The state with the library loaded, computed. -/
def libCheck : Bool :=
  match parse samplePy embutidosText with
  | .error _ => false
  | .ok bt =>
      Tree.plain bt && match libState stdCfg stdBuiltin bt with
      | .error _ => false
      | .ok r =>
          startOk ⟨[], [], libraryFns, false, false⟩ (pstr stdBuiltin) r && (match r.scopes[r.ana.globalScope]? with
            | some tab => tab.symbols.all fun p => libraryNames.contains p.1
            | none => false) &&
          (match r.mods.find? (·.path == pstr stdBuiltin) with
            | some m => m.builtin && Codegen.moduleName m.path == "embutidos" && m.body.isEmpty
            | none => false)

set_option maxRecDepth 100000 in
theorem libCheck_ok : libCheck = true := by decide +kernel

theorem std_ready (K : Frag) (main : Path) (hm : pstr stdBuiltin ≠ pstr main) (hK : ∀ f ∈ K.fns, f ∉ libraryNames)
    (hl : ∀ n ∈ K.libs, n ∈ libraryFns) :
    ∃ bt, parse samplePy embutidosText = .ok bt ∧ LibraryReady stdCfg stdBuiltin bt K main := by
  have h := libCheck_ok
  unfold libCheck at h
  cases hp : parse samplePy embutidosText with
  | error e => rw [hp] at h; cases h
  | ok bt =>
  rw [hp] at h
  simp only [Bool.and_eq_true] at h
  refine ⟨bt, rfl, h.1, fun r hr => ?_⟩
  have h2 := h.2
  rw [hr] at h2
  simp only [Bool.and_eq_true] at h2
  obtain ⟨⟨h3, h4⟩, h5⟩ := h2
  refine ⟨startOk_names h3 (fun tab ht p hp hf => hK _ hf ?_) hl, ?_⟩
  · rw [ht] at h4
    simpa using List.all_eq_true.1 h4 p hp
  · simp only [importsOk, List.all_cons, List.all_nil, Bool.and_true, Bool.and_eq_true, bne_iff_ne, ne_eq]
    exact ⟨hm, h5⟩

/-- A directory with the library of the repository and some other files. -/
def stdFiles (l : List (Path × List Char)) : Files := textFiles ((chars! "/std/embutidos.ama", embutidosText) :: l)

theorem stdFiles_builtin (l : List (Path × List Char)) : builtinPath (stdFiles l) = stdBuiltin := by
  show joinPath (chars! "/std") "embutidos.ama".toList = _
  decide

theorem std_read (l : List (Path × List Char)) : parseFile (icfg stdCfg samplePy (stdFiles l)) (builtinPath (stdFiles l)) =
    parse samplePy embutidosText := by
  unfold parseFile
  rw [show (icfg stdCfg samplePy (stdFiles l)).files.read (builtinPath (stdFiles l)) = .ok embutidosText from read_builtin _ l]
  rfl

/-- **C55**, for the programs of `Verif.Frag` with std/embutidos.ama as it is in the repository. -/
theorem accepted_std_partial {F : Type} [FloatOps F] [LawfulFloatOps F] [ReadsNumerals F] {l : List (Path × List Char)}
    {n : Nat} {main : Path} {t : Tree} {P : Prog} {K : Frag} (hm : pstr stdBuiltin ≠ pstr main)
    (hK : ∀ f ∈ K.fns, f ∉ libraryNames) (hk : okTree K t = true) (ha : builtinAnn t.annotations = false)
    (h : checkFile stdCfg samplePy (stdFiles l) n main t = .ok P)
    (vm : Cfg) (hvm : vm.debug = false) (k : Nat) (inp : List String) : P.eval (F := F) vm k inp ≠ .stuck := by
  obtain ⟨bt, hp, hr⟩ := std_ready K main hm hK (okTree_libs hk)
  exact accepted_never_stuck_partial (bt := bt) ((std_read l).trans hp) (by rw [stdFiles_builtin]; exact hr) hk ha h vm hvm k inp

/-- The conditions of C47 for the programs of `Verif.Frag` with std/embutidos.ama as it is in the repository. -/
theorem accepted_std_ok (F : Type) [FloatOps F] [LawfulFloatOps F] [ReadsNumerals F] {l : List (Path × List Char)}
    {n : Nat} {main : Path} {t : Tree} {P : Prog} {K : Frag} (hm : pstr stdBuiltin ≠ pstr main)
    (hK : ∀ f ∈ K.fns, f ∉ libraryNames) (hk : okTree K t = true) (ha : builtinAnn t.annotations = false)
    (hs : K.strict = true) (h : checkFile stdCfg samplePy (stdFiles l) n main t = .ok P)
    (hout : nestSs t.stmts ≤ 9) : P.Ok (homeIn P.env []) := by
  obtain ⟨bt, hp, hr⟩ := std_ready K main hm hK (okTree_libs hk)
  exact accepted_ok (F := F) (bt := bt) ((std_read l).trans hp) (by rw [stdFiles_builtin]; exact hr) hk ha hs h hout

/-! ## A concrete program -/

/-- `WholeFloat` reading all numerals, without what follows the point. -/
def CutFloat : Type := WholeFloat

/-- Numerals of the language are cut at the point. -/
def CutFloat.parse (s : String) : Option WholeFloat :=
  if numeral s.toList = true then some ⟨((parseDigits (s.toList.takeWhile Char.isDigit)).getD 0 : Nat)⟩ else WholeFloat.parse s

instance : DecidableEq CutFloat := inferInstanceAs (DecidableEq WholeFloat)

instance : FloatOps CutFloat := { (inferInstance : FloatOps WholeFloat) with parse := CutFloat.parse }

instance : LawfulFloatOps CutFloat where
  ofInt_zero := LawfulFloatOps.ofInt_zero (F := WholeFloat)
  toInt_zero := LawfulFloatOps.toInt_zero (F := WholeFloat)
  toInt_range := LawfulFloatOps.toInt_range (F := WholeFloat)
  parse_quoted s h := by
    show CutFloat.parse s = none
    unfold CutFloat.parse
    split
    · rename_i hn
      obtain ⟨c, rest, e, hd⟩ := numeral_head hn
      rw [e] at h
      rcases h with h | h <;> (simp only [List.head?_cons, Option.some.injEq] at h; subst h; simp [Char.isDigit] at hd)
    · exact WholeFloat.parse_quoted s h

instance : ReadsNumerals CutFloat where
  parse_numeral s h := by
    show (CutFloat.parse s).isSome = true
    simp [CutFloat.parse, h]

/-- A program with functions, loops, vectors and real numbers. -/
def meanText : List Char := chars! "func media(v : [real], n : int) : real\n  soma : real = 0.5\n  para i de 0..n faca\n    soma = soma + v[i]\n  fim\n  se n == 0 entao\n    retorna soma\n  senao\n    retorna soma / n\n  fim\nfim\nv : [real] = [real: 1.5, 2, 3]\nn : int = 0\nenquanto n < 3 faca\n  v[n] = 2.5\n  n = n + 1\nfim\nmostra media(v, n)\n"

/-- Its names. -/
def meanNames : Frag := ⟨["v", "n", "soma", "i"], ["media"], [], true, true⟩

/-- The tree of a text. -/
def treeOf (text : List Char) : Tree := (parse samplePy text).toOption.getD ⟨[], []⟩

/-- The program of a text, beside the library. -/
def programOf (text : List Char) : Option Prog :=
  (checkFile stdCfg samplePy (stdFiles []) 2 (chars! "/m.ama") (treeOf text)).toOption

set_option maxRecDepth 100000 in
theorem mean_ok : (programOf meanText).isSome = true ∧ okTree meanNames (treeOf meanText) = true ∧
    builtinAnn (treeOf meanText).annotations = false := by decide +kernel

theorem programOf_some {text : List Char} {P : Prog} (h : programOf text = some P) :
    checkFile stdCfg samplePy (stdFiles []) 2 (chars! "/m.ama") (treeOf text) = .ok P := by
  unfold programOf at h
  cases hc : checkFile stdCfg samplePy (stdFiles []) 2 (chars! "/m.ama") (treeOf text) with
  | error e => rw [hc] at h; cases h
  | ok Q => rw [hc] at h; cases h; rfl

/-- The hypotheses of `accepted_std_partial` are met by `meanText`. -/
example : ∃ P, programOf meanText = some P ∧ ∀ k inp, P.eval (F := CutFloat) plainCfg k inp ≠ .stuck := by
  obtain ⟨P, hP⟩ := Option.isSome_iff_exists.1 mean_ok.1
  exact ⟨P, hP, accepted_std_partial (K := meanNames) (by decide) (by decide) mean_ok.2.1 mean_ok.2.2 (programOf_some hP) plainCfg rfl⟩

/-- A program that reads numbers, with functions of the library. -/
def readingText : List Char := chars! "func leitura(v : [real], pergunta : texto) : bool\n  n : int = leia_int(pergunta)\n  anexa(v, n * 2)\n  anexa(v, leia_real(\"?\"))\n  escreva(remova(v, tam(v) - tam(\"abc\")))\n  escrevaln(v)\n  retorna txt_contem(leia(\"nome\"), \"a\")\nfim\nv : [real] = [real: 1.5]\nsim : bool = leitura(v, \"n\")\nmostra sim\nanexa(v, 2)\n"

/-- Its names. -/
def readingNames : Frag :=
  ⟨["v", "n", "pergunta", "sim"], ["leitura"], ["leia", "leia_int", "leia_real", "escreva", "escrevaln", "txt_contem", "anexa", "remova", "tam"], true, true⟩

set_option maxRecDepth 100000 in
theorem reading_ok : (programOf readingText).isSome = true ∧ okTree readingNames (treeOf readingText) = true ∧
    builtinAnn (treeOf readingText).annotations = false := by decide +kernel

/-- The hypotheses of `accepted_std_partial` are met by `readingText`, whatever it reads. -/
example : ∃ P, programOf readingText = some P ∧ ∀ k inp, P.eval (F := CutFloat) plainCfg k inp ≠ .stuck := by
  obtain ⟨P, hP⟩ := Option.isSome_iff_exists.1 reading_ok.1
  exact ⟨P, hP, accepted_std_partial (K := readingNames) (by decide) (by decide) reading_ok.2.1 reading_ok.2.2 (programOf_some hP) plainCfg rfl⟩

/-- `variables_keep_types_partial` speaks about the variables of `meanText`. -/
example : ∃ tok name ty init, Stmt.varDecl tok name ty init ∈ (treeOf meanText).stmts ∧ name.str = "v" := by
  have h : ((treeOf meanText).stmts.any fun s => match s with
    | .varDecl _ name _ _ => name.str == "v"
    | _ => false) = true := by decide +kernel
  obtain ⟨s, hs, hv⟩ := List.any_eq_true.1 h
  cases s with
  | varDecl tok name ty init => exact ⟨tok, name, ty, init, hs, by simpa using hv⟩
  | _ => simp at hv

/-! ## Where the claims fail

Every program below is read, checked, compiled and run by the model, with std/embutidos.ama as it is. -/

/-- The files around a program. -/
def stdEnv (text : List Char) : Env where
  py := samplePy
  files := stdFiles [(chars! "/m.ama", text)]
  relPath := id
  vm := plainCfg
  input := []

/-- The end of the process that runs a program. -/
def runText (text : List Char) : Ended :=
  runMain CutFloat (stdEnv text) (checkFile stdCfg samplePy (stdFiles [(chars! "/m.ama", text)]) 2) 3000 (chars! "/m.ama")

/-- Whether a program is accepted and gets stuck. -/
def getsStuck (text : List Char) : Bool :=
  match programOf text with
  | none => false
  | some P => match P.eval (F := CutFloat) plainCfg 60 [] with
    | .stuck => true
    | _ => false

theorem getsStuck_iff {text : List Char} (h : getsStuck text = true) :
    ∃ P, programOf text = some P ∧ P.eval (F := CutFloat) plainCfg 60 [] = .stuck := by
  unfold getsStuck at h
  cases hp : programOf text with
  | none => rw [hp] at h; cases h
  | some P =>
      rw [hp] at h
      refine ⟨P, rfl, ?_⟩
      cases he : P.eval (F := CutFloat) plainCfg 60 [] with
      | stuck => rfl
      | fuel => simp [he] at h
      | leave c st => simp [he] at h
      | fail m w => simp [he] at h
      | done a st => simp [he] at h

/-- A variable used in its own declaration. -/
def ownText : List Char := chars! "x : int = 1 + x\n"

/-- An element of a vector of `int` in a variable of type `real` (codegen.py:924-928 does not convert it). -/
def elementText : List Char := chars! "v : [int] = [int: 1, 2]\nx : real = v[0]\nmostra x :> int\n"

/-- An `int` in a `real?` (check/core.py:1031 finds nothing to convert to). -/
def optionText : List Char := chars! "x : real? = 4\ny : real = x.valor\nmostra y :> int\n"

/-- `//` between real numbers, which the VM turns into an `int` (ama_value.rs:210). -/
def floorText : List Char := chars! "a : real = 7.0 // 2.0\nmostra a :> int\n"

/-- Two methods of the same name, for `int` and for `bool`. -/
def methodText : List Char := chars! "met int::oposto(alvo) : int\n  retorna -alvo\nfim\nmet bool::oposto(alvo) : bool\n  retorna nao alvo\nfim\nx : int = 4\ny : bool = falso\nmostra y.oposto()\nmostra x.oposto()\n"

set_option maxRecDepth 100000 in
/-- **C55 is violated**: accepted programs that get stuck, and on which the VM aborts. -/
theorem accepted_stuck_violated :
    (getsStuck ownText = true ∧ runText ownText = .aborted "") ∧
    (getsStuck elementText = true ∧ runText elementText = .aborted "") ∧
    (getsStuck optionText = true ∧ runText optionText = .aborted "") ∧
    (getsStuck floorText = true ∧ runText floorText = .aborted "") ∧
    runText methodText = .aborted "verdadeiro\n" := by decide +kernel

/-- Hence the claim as stated is false. -/
theorem never_stuck_violated : ¬ ∀ text P, programOf text = some P →
    ∀ k, P.eval (F := CutFloat) plainCfg k [] ≠ .stuck := by
  intro h
  obtain ⟨P, hP, he⟩ := getsStuck_iff accepted_stuck_violated.1.1
  exact h _ P hP 60 he

/-- The value of a global variable in the end. -/
def finally? (text : List Char) (name : String) : Option (Val CutFloat) :=
  match programOf text with
  | none => none
  | some P => match P.eval (F := CutFloat) plainCfg 60 [] with
    | .done _ st => st.globals "/m.ama" name
    | _ => none

/-- `x : real = v[0]` without the conversion that makes it fail. -/
def heldText : List Char := chars! "v : [int] = [int: 1, 2]\nx : real = v[0]\n"

set_option maxRecDepth 100000 in
/-- **C56 is violated**: a variable declared `real` holds an `int`. -/
theorem variable_type_violated : finally? heldText "x" = some (.int 1) := by decide +kernel

end Amanda.Check

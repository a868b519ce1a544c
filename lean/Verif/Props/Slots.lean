import Verif.GenDense
import Verif.Props.Names
import Verif.Props.Limits

/-!
# C40: locals visible at the same time are stored apart

A local variable is stored in the slot the code generator gave to its `out_id` (codegen.py:478-494,
549-563), so the claim is about the `out_id`s of the variables in the scopes around a place in the
program.
-/

namespace Amanda.Names

open Source Codegen Compiled

/-- `Around scopes i n j`: going out `n` times from the scope `i` leads to the scope `j`. -/
inductive Around (scopes : List NScope) (i : Nat) : Nat → Nat → Prop
  | here : Around scopes i 0 i
  | out {n j p : Nat} {sc : NScope} : Around scopes i n j → scopes[j]? = some sc → sc.parent = some p →
      Around scopes i (n + 1) p

/-- The scope `j` declares the local variable `y` under the name `n`, which is neither `alvo` nor one
kept for the compiler. -/
structure Local (scopes : List NScope) (j : Nat) (n : List Char) (y : NSym) : Prop where
  plain : Plain n
  entry : ∃ sc, scopes[j]? = some sc ∧ assocGet sc.symbols n = some y
  isVar : y.isVar = true
  isLocal : y.isGlobal = false

theorem ChainOk.around {scopes : List NScope} {d i : Nat} (h : ChainOk scopes d i) {n j : Nat} (ha : Around scopes i n j) :
    n ≤ d ∧ ChainOk scopes (d - n) j := by
  induction ha with
  | here => exact ⟨Nat.zero_le _, h⟩
  | out _ hj hp ih =>
    obtain ⟨h1, h2⟩ := ih
    rename_i n j p sc _
    cases hd : d - n with
    | zero =>
      rw [hd] at h2
      obtain ⟨sc', e1, e2, -⟩ := h2
      rw [hj] at e1; cases e1
      rw [hp] at e2; cases e2
    | succ k =>
      rw [hd] at h2
      obtain ⟨sc', p', e1, e2, -, -, e5⟩ := h2
      rw [hj] at e1; cases e1
      rw [hp] at e2; cases e2
      exact ⟨by omega, by rw [show d - (n + 1) = k by omega]; exact e5⟩

/-- There are as many scopes around as the depth says. -/
theorem ChainOk.reach {scopes : List NScope} {i0 n0 : Nat} : ∀ {d i : Nat}, ChainOk scopes d i → Around scopes i0 n0 i →
    ∃ j, Around scopes i0 (n0 + d) j
  | 0, i, _, ha => ⟨i, ha⟩
  | d + 1, i, ⟨sc, p, e1, e2, _, _, e5⟩, ha => by
    obtain ⟨j, hj⟩ := ChainOk.reach e5 (ha.out e1 e2)
    exact ⟨j, by rw [show n0 + (d + 1) = n0 + 1 + d by omega]; exact hj⟩

theorem Around.unique {scopes : List NScope} {i n : Nat} : ∀ {j k : Nat}, Around scopes i n j → Around scopes i n k → j = k := by
  induction n with
  | zero => intro j k h h'; cases h; cases h'; rfl
  | succ n ih =>
    intro j k h h'
    cases h with
    | out a1 a2 a3 =>
      cases h' with
      | out b1 b2 b3 =>
        have := ih a1 b1
        subst this
        rw [a2] at b2; cases b2
        rw [a3] at b3; cases b3
        rfl

/-- Two local variables of the scopes around one place have different `out_id`s. -/
theorem chain_apart {scopes : List NScope} {d i : Nat} (h : ChainOk scopes d i) (hd : d ≤ 9) {n j n' j' : Nat}
    (ha : Around scopes i n j) (ha' : Around scopes i n' j') {a b : List Char} {y z : NSym} (hy : Local scopes j a y)
    (hz : Local scopes j' b z) (hne : (n, a) ≠ (n', b)) (hown : ¬(a = b ∧ y.outId = a ∧ z.outId = b)) : y.outId ≠ z.outId := by
  obtain ⟨l1, c1⟩ := h.around ha
  obtain ⟨l2, c2⟩ := h.around ha'
  have form : ∀ {e j : Nat} {a : List Char} {y : NSym}, ChainOk scopes e j → Local scopes j a y →
      1 ≤ e ∧ ∃ sc, scopes[j]? = some sc ∧ LocalOk e sc ∧ assocGet sc.symbols a = some y := by
    intro e j a y hc hl
    obtain ⟨sc, e1, e2⟩ := hl.entry
    cases e with
    | zero =>
      obtain ⟨sc', f1, f2, f3⟩ := hc
      rw [e1] at f1; cases f1
      have := f3 a y e2 hl.isVar
      rw [hl.isLocal] at this; cases this
    | succ e =>
      obtain ⟨sc', p, f1, f2, f3, f4, f5⟩ := hc
      rw [e1] at f1; cases f1
      exact ⟨by omega, sc, e1, f4, e2⟩
  obtain ⟨d1, sc1, e1, o1, g1⟩ := form c1 hy
  obtain ⟨d2, sc2, e2, o2, g2⟩ := form c2 hz
  by_cases hn : n = n'
  · subst hn
    have := Around.unique ha ha'
    subst this
    rw [e1] at e2; cases e2
    exact o1.apart a b y z g1 g2 hy.plain hz.plain hy.isVar hz.isVar fun e => hne (by rw [e])
  · rcases o1.form a y g1 hy.plain hy.isVar with h1 | ⟨k, -, h1⟩ <;> rcases o2.form b z g2 hz.plain hz.isVar with h2 | ⟨k', -, h2⟩
    · rw [h1, h2]; exact fun e => hown ⟨e, h1, h2⟩
    · rw [h1, h2]; exact plain_ne_local hy.plain _ _
    · rw [h1, h2]; exact Ne.symm (plain_ne_local hz.plain _ _)
    · rw [h1, h2]
      intro e
      have := localName_inj (by omega) (by omega) e
      omega

/-- **C40.** At every use of a name in every program the checker accepts, with at most nine blocks around
it: two different local variables declared in the blocks around it, visible or hidden by another of the
same name, are kept in different slots, for every table of slots in which the slots are numbered one by
one.

What is missing: the tables that are not of this kind, which `declare_local` makes when a function has
two `iguala`s (`iguala_slots_violated`); ten and more blocks (`digits_violated`); two variables of the same
name that are both bound by arms of `iguala`s (`arm_names_violated`, the last hypothesis); `alvo`, and
the variables of the compiler (`hidden_name_violated`). -/
theorem locals_separate_partial (cfg : NCfg) (g : List (List Char × NSym))
    (hg : ∀ n y, assocGet g n = some y → y.isVar = true → y.isGlobal = true) (prog : List Stmt) {t : NState}
    (h : visitSs cfg prog (start g) = .ok t) {u : NUse} (hu : u ∈ t.uses)
    (hdeep : ∀ n j, Around u.scopes u.cur n j → n ≤ 9)
    {n j n' j' : Nat} (ha : Around u.scopes u.cur n j) (ha' : Around u.scopes u.cur n' j')
    {a b : List Char} {y z : NSym} (hy : Local u.scopes j a y) (hz : Local u.scopes j' b z) (hne : (n, a) ≠ (n', b))
    (hown : ¬(a = b ∧ y.outId = a ∧ z.outId = b))
    {slots : List (String × Nat)} (hs : Codegen.Dense slots) {k k' : Nat}
    (hk : Codegen.lookup slots (String.ofList y.outId) = some k) (hk' : Codegen.lookup slots (String.ofList z.outId) = some k') :
    k ≠ k' := by
  have hok : (start g).Ok := ⟨_, rfl, rfl, hg⟩
  rcases (visitSs_fine cfg prog hok t h).2.2 u hu with h0 | ⟨d, hd⟩
  · cases h0
  · obtain ⟨r, hr⟩ := hd.reach Around.here
    rw [Nat.zero_add] at hr
    have := chain_apart hd (hdeep d r hr) ha ha' hy hz hne hown
    rintro rfl
    exact this (String.ofList_injective (Codegen.lookup_inj hs hk hk'))

/-! ## The tables of the code generator -/

theorem dn_genGlobals (ctx : GenCtx) : ∀ l, Dn (genGlobals ctx l)
  | [] => by unfold genGlobals; exact dn_pure _
  | (name, id) :: rest => by
    have := dn_genGlobals ctx rest
    unfold genGlobals
    repeat dn

/-- **C40.** The slots of every table the code generator makes are numbered one by one, the hypothesis
of `locals_separate_partial`, and a name has only one slot: in every module in which no case of an `iguala`
takes the parts out of a variant and no function has two parameters of the same `out_id`.

What is missing: the cases with parts, for which it is false (`iguala_slots_violated`). -/
theorem tables_dense_partial (ctx : GenCtx) (m : ModuleIn) (hm : slimSs ctx.env m.body = true) {fin : Gen}
    (h : genModule ctx m {} = .ok ((), fin)) : Dense fin.funcLocals ∧ ∀ t ∈ fin.finished, Dense t := by
  have hs := dn_genStmts ctx m.body hm
  have hg := fun l => dn_genGlobals ctx l
  have : Dn (genModule ctx m) := by
    unfold genModule
    repeat first | dn | exact hg _
  exact this _ _ _ h ⟨rfl, by simp⟩

/-- Two locals with different `out_id`s have different slots in these tables. -/
theorem slots_apart {ctx : GenCtx} {m : ModuleIn} (hm : slimSs ctx.env m.body = true) {fin : Gen}
    (h : genModule ctx m {} = .ok ((), fin)) {t : List (String × Nat)} (ht : t = fin.funcLocals ∨ t ∈ fin.finished)
    {a b : String} {k : Nat} (ha : Codegen.lookup t a = some k) (hb : Codegen.lookup t b = some k) : a = b := by
  have hd := tables_dense_partial ctx m hm h
  rcases ht with rfl | ht
  · exact lookup_inj hd.1 ha hb
  · exact lookup_inj (hd.2 t ht) ha hb

/-- `tables_dense_partial` gives the part of `SlotsFit`, the hypothesis of `compiled_program_correct`, that
is not about the number of locals and records. -/
theorem slots_fit {P : Prog} (hm : ∀ m ∈ P.modules, m.builtin = false → slimSs P.env m.body = true)
    (hl : ∀ m ∈ P.modules, m.builtin = false → ∀ fin, genModule (P.ctx m) m {} = .ok ((), fin) →
      fin.funcLocals.length ≤ 256 ∧ (∀ t ∈ fin.finished, t.length ≤ 65536) ∧ fin.registos.length ≤ 65536) : SlotsFit P where
  tables := fun m hmem hb fin h =>
    have hd := tables_dense_partial (P.ctx m) m (hm m hmem hb) h
    have hn := hl m hmem hb fin h
    { finished := fun t ht => ⟨hd.2 t ht, hn.2.1 t ht⟩, locals := ⟨hd.1, by omega⟩, registos := hn.2.2 }
  start := fun m hmem hb fin h => (hl m hmem hb fin h).1

/-- The module of `paraProg`, whose loops have locals, is one of those of `tables_dense_partial`. -/
example : slimSs paraProg.env paraProg.main.body = true ∧
    (match genModule (paraProg.ctx paraProg.main) paraProg.main {} with
     | .ok (_, fin) => !fin.funcLocals.isEmpty
     | .error _ => false) = true := by
  decide +kernel

/-! ## A case of `locals_separate_partial` -/

/-- The scopes around `i`, from the inside out. -/
def chain (scopes : List NScope) : Nat → Nat → List Nat
  | 0, _ => []
  | fuel + 1, i =>
    i :: match scopes[i]? with
      | some sc => match sc.parent with
        | some p => chain scopes fuel p
        | none => []
      | none => []

/-- For each use in a text: the name, and the locals declared around it with their `out_id`s. -/
def localsOf (cfg : NCfg) (text : String) : Option (List (String × List (String × String))) :=
  match parse samplePy text.toList with
  | .error _ => none
  | .ok t =>
    match visitSs cfg t.stmts (start []) with
    | .error _ => none
    | .ok s => some (s.uses.map fun u => (String.ofList u.tok.chars,
        (chain u.scopes u.scopes.length u.cur).flatMap fun j =>
          match u.scopes[j]? with
          | some sc => (sc.symbols.filter fun p => p.2.isVar && !p.2.isGlobal).map fun p =>
              (String.ofList p.1, String.ofList p.2.outId)
          | none => []))

def twoText : String := "func f(x : int, y : int) : int
  se x > 0 entao
    x : int = 5
    mostra x + y
  fim
  retorna x
fim
"

/-- In the `mostra` three locals are around, two of them called `x`, with different `out_id`s. -/
example : localsOf sampleCfg twoText = some [
    ("x", [("x", "_r10_"), ("y", "_r11_")]),
    ("x", [("x", "_r20_"), ("x", "_r10_"), ("y", "_r11_")]),
    ("x", [("x", "_r20_"), ("x", "_r10_"), ("y", "_r11_")]),
    ("y", [("x", "_r20_"), ("x", "_r10_"), ("y", "_r11_")]),
    ("x", [("x", "_r10_"), ("y", "_r11_")])] := by
  decide +kernel

/-! ## Where the claim fails -/

def par : VariantRef := ⟨"Dois::Par", 2⟩

/-- `iguala x: caso Dois::Par(a, b): produz a - b fim`; `h0` and `h1` are the hidden variables. -/
def diff (line : Nat) (h0 h1 a b : SymId) (sc : ScopeId) : TExpr :=
  .iguala line (.switch 0 [.mk (.variant par) [h0, h1]
    (.success [("a", h0), ("b", h1)] line sc [.produz line (op2 .minus (vr "a" a) (vr "b" b))])] none)

/-- The same `iguala` twice, with `x = Dois::Par(5, 2)`. -/
def twoProg : Prog := only
  [glob "/m.ama" "x" .var, loc "/m.ama" "_r0_" "_r0_", loc "/m.ama" "_r1_" "_r1_", loc "/m.ama" "a" "a",
   loc "/m.ama" "b" "b", loc "/m.ama" "_r0_" "_r0_", loc "/m.ama" "_r1_" "_r1_", loc "/m.ama" "a" "a",
   loc "/m.ama" "b" "b", glob "/m.ama" "Par" .variant]
  [⟨[("x", 0)], none⟩, ⟨[("_r0_", 1), ("_r1_", 2)], some 0⟩, ⟨[("a", 3), ("b", 4)], some 1⟩,
   ⟨[("_r0_", 5), ("_r1_", 6)], some 0⟩, ⟨[("a", 7), ("b", 8)], some 3⟩]
  [.uniao 1 "Dois" [par],
   .varDecl 2 "x" .unknown (some (.mk 0 (.call 2 (.path 2 (some par)) [lit "5", lit "2"] 9 .unknown))),
   .mostra 3 (diff 3 1 2 3 4 2), .mostra 6 (diff 6 5 6 7 8 4)]

/-- The slots of the statements of the main module. -/
def mainSlots (P : Prog) : Option (List (String × Nat)) :=
  match genModule (P.ctx P.main) P.main {} with
  | .ok (_, fin) => some fin.funcLocals
  | .error _ => none

/-- **C40 is violated.** The hidden variables of the second `iguala` have the names of those of the first
(symbols/core.py:167-170), and `declare_local` gives a name that has a slot the next free one without using
it up (codegen.py:560-563, 784-797): both parts of the pair get slot 4, and `a - b` is 0. -/
theorem iguala_slots_violated :
    mainSlots twoProg = some [("_r0_", 4), ("_r1_", 4), ("a", 2), ("b", 3)] ∧
    sourceEnd twoProg 100 = some (none, "3\n3\n") ∧ machineEnd twoProg 1000 = some (.exited 0 "3\n0\n" "") := by
  decide +kernel

/-- A function with a parameter and ten variables, and a variable in the tenth block inside it. -/
def deepText : String :=
  "func f(p : int) : int\n" ++
  String.join ((List.range 10).map fun i => "v" ++ String.ofList (Nat.toDigits 10 i) ++ " : int = 1\n") ++
  String.join (List.replicate 10 "se p > 0 entao\n") ++ "w : int = 2\nmostra v9 + w\n" ++
  String.join (List.replicate 10 "fim\n") ++ "retorna p\nfim\n"

/-- **C40 is violated.** The `out_id` of a local is its depth and its number written one after the other
(check/core.py:176): number 10 at depth 1 and number 0 at depth 11 are both `_r110_`.  The two operands of
`v9 + w` are different variables, declared in lines 11 and 22, with the same `out_id`, hence in every
table in the same slot. -/
theorem digits_violated :
    ((linesOf deepText).map fun l => l.drop 21 |>.take 2) = some [("v9", 23, 11), ("w", 23, 22)] ∧
    ((localsOf sampleCfg deepText).map fun l => (l.drop 21 |>.take 2).map fun u =>
      u.2.filter fun p => p.1 == "v9" || p.1 == "w") =
      some [[("w", "_r110_"), ("v9", "_r110_")], [("w", "_r110_"), ("v9", "_r110_")]] := by
  decide +kernel

def um : VariantRef := ⟨"Caixa::Um", 1⟩

/-- ```
x : Caixa = Caixa::Um(5)
y : Caixa = Caixa::Um(7)
mostra iguala x:
  caso Caixa::Um(a):
    iguala y: caso Caixa::Um(a): produz 1 fim
    produz a
fim
``` -/
def nestProg : Prog := only
  [glob "/m.ama" "x" .var, glob "/m.ama" "y" .var, glob "/m.ama" "Um" .variant,
   loc "/m.ama" "_r0_" "_r0_", loc "/m.ama" "a" "a", loc "/m.ama" "_r0_" "_r0_", loc "/m.ama" "a" "a"]
  [⟨[("x", 0), ("y", 1)], none⟩, ⟨[("_r0_", 3)], some 0⟩, ⟨[("a", 4)], some 1⟩,
   ⟨[("_r0_", 5)], some 2⟩, ⟨[("a", 6)], some 3⟩]
  [.uniao 1 "Caixa" [um],
   .varDecl 2 "x" .unknown (some (.mk 0 (.call 2 (.path 2 (some um)) [lit "5"] 2 .unknown))),
   .varDecl 3 "y" .unknown (some (.mk 1 (.call 2 (.path 2 (some um)) [lit "7"] 2 .unknown))),
   .mostra 4 (.iguala 4 (.switch 0 [.mk (.variant um) [3] (.success [("a", 3)] 5 2 [
       .expr (.iguala 5 (.switch 1 [.mk (.variant um) [5] (.success [("a", 5)] 6 4 [.produz 6 (lit "1")])] none)),
       .produz 7 (vr "a" 4)])] none))]

/-- **C40 is violated.** `declare_block_symbols` (check/exhaustiveness.py) makes the variables of an arm
anew with their name as `out_id`, so the `a` of the inner arm overwrites the `a` of the outer one. -/
theorem arm_names_violated :
    sourceEnd nestProg 100 = some (none, "5\n") ∧ machineEnd nestProg 1000 = some (.exited 0 "7\n" "") := by
  decide +kernel

def onze : VariantRef := ⟨"Muitos::Onze", 11⟩

/-- A function of `p` and `x` that returns `iguala x: caso Muitos::Onze(..): produz p fim`, where the
variant has eleven parts; `out` is the `out_id` of `p`. -/
def manyProg (out : String) : Prog := only
  ([glob "/m.ama" "f" .func [1, 2], loc "/m.ama" "p" out, loc "/m.ama" "x" "_r11_", glob "/m.ama" "Onze" .variant] ++
    (List.range 11).map fun i => loc "/m.ama" (String.ofList (hiddenName i)) (String.ofList (hiddenName i)))
  [⟨[("f", 0)], none⟩, ⟨[("p", 1), ("x", 2)], some 0⟩,
   ⟨(List.range 11).map fun i => (String.ofList (hiddenName i), 4 + i), some 1⟩, ⟨[], some 2⟩]
  [.uniao 1 "Muitos" [onze],
   .func 2 0 (.mk 1 [.retorna 3 (some (.iguala 3 (.switch 2
     [.mk (.variant onze) ((List.range 11).map (4 + ·)) (.success [] 4 3 [.produz 4 (vr "p" 1)])] none)))]),
   .mostra 5 (cl "f" 0 [lit "7", .call 5 (.path 5 (some onze))
     ((List.range 11).map fun i => lit (String.ofList (Nat.toDigits 10 i))) 3 .unknown])]

/-- **C40 is violated.** The eleventh hidden variable of an `iguala` is called `_r10_`, which is also
the `out_id` of the first parameter of a function: the parameter is read from the slot of the hidden
variable, outside the frame, and the machine stops with a panic.  With another `out_id` for the
parameter the program shows 7. -/
theorem hidden_name_violated :
    hiddenName 10 = localName 1 0 ∧
    sourceEnd (manyProg (String.ofList (localName 1 0))) 100 = some (none, "7\n") ∧
    machineEnd (manyProg (String.ofList (localName 1 0))) 1000 = some (.panicked "") ∧
    machineEnd (manyProg "_rp_") 1000 = some (.exited 0 "7\n" "") := by
  decide +kernel

end Amanda.Names

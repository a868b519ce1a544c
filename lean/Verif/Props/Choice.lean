import Verif.Transform
import Verif.SourceMono
import Verif.Props.Limits

/-!
# C45: `escolha`
-/

namespace Amanda

open Source

variable {F : Type} [FloatOps F]

/-- The block that is to run: that of the first pair whose value is `v`, else `d`. -/
inductive FirstEqual (v : Val F) (d : Option TBlock) : List (Val F × TBlock) → Option TBlock → Prop where
  | default : FirstEqual v d [] d
  | hit (b rest) : FirstEqual v d ((v, b) :: rest) (some b)
  | miss {w b rest r} (h : w ≠ v) (hr : FirstEqual v d rest r) : FirstEqual v d ((w, b) :: rest) r

/-- `e` has the value `v` in the state `st`, and evaluating it changes nothing. -/
def Settled (cfg : Cfg) (L : Lang) (pos : Pos) (st : St F) (e : TExpr) (v : Val F) : Prop :=
  ∃ n, evalE cfg L n pos e st = .done v st

/-- Values of the types `escolha` is for (core.py:1111): two integers or two texts. -/
def Choosable (v w : Val F) : Prop := (∃ a b, v = .int a ∧ w = .int b) ∨ (∃ a b, v = .str a ∧ w = .str b)

/-- The outcome of `m` for some amount of fuel. -/
def Ends {α : Type} (m : Nat → M F α) (st : St F) (o : Out F α) : Prop := o.Ended ∧ ∃ n, m n st = o

theorem settled_cases {cfg : Cfg} {L : Lang} {pos : Pos} {st : St F} {e : TExpr} {v : Val F}
    (h : Settled cfg L pos st e v) (k : Nat) :
    (∃ r, evalE cfg L k pos e st = .fuel r) ∨ evalE cfg L k pos e st = .done v st := by
  obtain ⟨n, hn⟩ := h
  rcases (mono cfg L (Nat.le_max_left k n)).e pos e st with h1 | h1
  · exact .inl h1
  · rcases (mono cfg L (Nat.le_max_right k n)).e pos e st with ⟨_, h2⟩ | h2
    · rw [hn] at h2; cases h2
    · exact .inr (by rw [h1, ← h2, hn])

theorem settled_from {cfg : Cfg} {L : Lang} {pos : Pos} {st : St F} {e : TExpr} {v : Val F}
    (h : Settled cfg L pos st e v) : ∃ n, ∀ k, n ≤ k → evalE cfg L k pos e st = .done v st := by
  obtain ⟨n, hn⟩ := h
  refine ⟨n, fun k hk => ?_⟩
  rcases (mono cfg L hk).e pos e st with ⟨_, h1⟩ | h1
  · rw [hn] at h1; cases h1
  · rw [← h1, hn]

theorem eq_choosable {v w : Val F} (h : Choosable w v) : (w = v → binop w .opEq v = .ok (.bool true)) ∧
    (w ≠ v → binop w .opEq v = .ok (.bool false)) := by
  rcases h with ⟨a, b, rfl, rfl⟩ | ⟨a, b, rfl, rfl⟩
  · have key : binop (Val.int a : Val F) .opEq (.int b) = .ok (.bool ((a == b) != false)) := rfl
    rw [key]
    exact ⟨fun h => by cases h; simp, fun h => by simpa using fun e => h (by rw [e])⟩
  · have key : binop (Val.str a : Val F) .opEq (.str b) = .ok (.bool ((a == b) != false)) := rfl
    rw [key]
    exact ⟨fun h => by cases h; simp, fun h => by simpa using fun e => h (by rw [e])⟩

section
variable {cfg : Cfg} {L : Lang} {pos : Pos} {st : St F} {e : TEscolha} {v : Val F}

/-- The test of a case is settled if its parts are. -/
theorem settled_test {c : TCase} {w : Val F} {b : Bool} (hs : Settled cfg L pos st e.sel v)
    (hc : Settled cfg L pos st c.value w) (hty : c.ty ≠ .nulo) (hsty : e.selTy ≠ .nulo)
    (hb : binop w .opEq v = .ok (.bool b)) : Settled cfg L pos st (e.test c) (.bool b) := by
  obtain ⟨n, hn⟩ := settled_from hs
  obtain ⟨m, hm⟩ := settled_from hc
  refine ⟨max n m + 1, ?_⟩
  simp only [TEscolha.test, evalE, nuloTest, hty, hsty, false_and, ↓reduceIte]
  show Out.next (evalE cfg L (max n m) pos c.value st) _ = _
  rw [hm _ (Nat.le_max_right n m)]
  show Out.next (evalE cfg L (max n m) pos e.sel st) _ = _
  rw [hn _ (Nat.le_max_left n m)]
  simp only [Out.next, operator, M.need]
  show Out.next (M.res (binop w .opEq v) st) _ = _
  rw [hb]
  rfl

/-- What is to run, and how it ends. -/
def RunsBlock (cfg : Cfg) (L : Lang) (pos : Pos) (st : St F) : Option TBlock → Out F (Option (Val F)) → Prop
  | none, o => o = .done none st
  | some b, o => Ends (fun n => evalB cfg L n pos b) st o

theorem test_then {t : TExpr} {b : Bool} (ht : Settled cfg L pos st t (.bool b)) (k : Nat)
    (yes no : M F (Option (Val F))) :
    let m : M F (Option (Val F)) := (do
      let c ← evalE cfg L k pos t
      let b ← truth c
      if b then yes else no)
    (∃ r, m st = .fuel r) ∨ m st = if b then yes st else no st := by
  intro m
  rcases settled_cases ht k with ⟨r, h⟩ | h
  · refine .inl ⟨r, ?_⟩
    show Out.next (evalE cfg L k pos t st) _ = _
    rw [h]; rfl
  · refine .inr ?_
    show Out.next (evalE cfg L k pos t st) _ = _
    rw [h]
    cases b <;> rfl

theorem test_sure {t : TExpr} {b : Bool} (ht : Settled cfg L pos st t (.bool b)) :
    ∃ n, ∀ k, n ≤ k → ∀ yes no : M F (Option (Val F)),
    (do let c ← evalE cfg L k pos t
        let b ← truth c
        if b then yes else no : M F (Option (Val F))) st = if b then yes st else no st := by
  obtain ⟨n, hn⟩ := settled_from ht
  refine ⟨n, fun k hk yes no => ?_⟩
  show Out.next (evalE cfg L k pos t st) _ = _
  rw [hn k hk]
  cases b <;> rfl

theorem ends_b {b : TBlock} {n : Nat} {o : Out F (Option (Val F))} (h : evalB cfg L n pos b st = o) (ho : o.Ended) :
    ∀ k, n ≤ k → evalB cfg L k pos b st = o := by
  intro k hk
  rcases (mono cfg L hk).b pos b st with ⟨r, h1⟩ | h1
  · exact absurd (h.symm.trans h1) (ho r)
  · rw [← h1, h]

theorem elses_choose (cs : List TCase) {vals : TCase → Val F} {d r : Option TBlock}
    (hs : Settled cfg L pos st e.sel v) (hsty : e.selTy ≠ .nulo)
    (hc : ∀ c ∈ cs, Settled cfg L pos st c.value (vals c) ∧ c.ty ≠ .nulo ∧ Choosable (vals c) v)
    (hf : FirstEqual v d (cs.map fun c => (vals c, c.block)) r) (o : Out F (Option (Val F))) :
    Ends (fun n => evalElses cfg L n pos (cs.map fun c => .mk (e.test c) c.block) d) st o ↔
      RunsBlock cfg L pos st r o := by
  induction cs generalizing r with
  | nil =>
      cases hf
      cases d with
      | none =>
          constructor
          · rintro ⟨ho, n, h⟩
            cases n with
            | zero => exact absurd h.symm (ho 0)
            | succ n => exact h.symm
          · rintro rfl
            exact ⟨fun _ => by simp, 1, rfl⟩
      | some b =>
          constructor
          · rintro ⟨ho, n, h⟩
            cases n with
            | zero => exact absurd h.symm (ho 0)
            | succ n => exact ⟨ho, n, h⟩
          · rintro ⟨ho, n, h⟩
            exact ⟨ho, n + 1, h⟩
  | cons c cs ih =>
      obtain ⟨hcv, hct, hcc⟩ := hc c (by simp)
      have ih := fun r h => ih (r := r) (fun c' h' => hc c' (List.mem_cons_of_mem _ h')) h
      have he := eq_choosable hcc
      generalize hw : vals c = w at *
      simp only [List.map_cons, hw] at hf
      cases hf with
      | hit =>
          have ht := settled_test hs hcv hct hsty (he.1 rfl)
          constructor
          · rintro ⟨ho, n, h⟩
            cases n with
            | zero => exact absurd h.symm (ho 0)
            | succ n =>
                simp only [List.map_cons, evalElses] at h
                rcases test_then ht n (evalB cfg L n pos c.block) _ with ⟨r, h'⟩ | h'
                · exact absurd (h.symm.trans h') (ho r)
                · exact ⟨ho, n, (h'.symm.trans h)⟩
          · rintro ⟨ho, n, h⟩
            obtain ⟨m, hm⟩ := test_sure ht
            refine ⟨ho, max n m + 1, ?_⟩
            simp only [List.map_cons, evalElses]
            rw [hm _ (Nat.le_max_right n m)]
            exact ends_b h ho _ (Nat.le_max_left n m)
      | miss hne hr =>
          have ht := settled_test hs hcv hct hsty (he.2 hne)
          rw [← ih _ hr]
          constructor
          · rintro ⟨ho, n, h⟩
            cases n with
            | zero => exact absurd h.symm (ho 0)
            | succ n =>
                simp only [List.map_cons, evalElses] at h
                rcases test_then ht n (evalB cfg L n pos c.block) _ with ⟨r, h'⟩ | h'
                · exact absurd (h.symm.trans h') (ho r)
                · exact ⟨ho, n, (h'.symm.trans h)⟩
          · rintro ⟨ho, n, h⟩
            obtain ⟨m, hm⟩ := test_sure ht
            refine ⟨ho, max n m + 1, ?_⟩
            simp only [List.map_cons, evalElses]
            rw [hm _ (Nat.le_max_right n m)]
            rcases (mono cfg L (Nat.le_max_left n m)).elses pos (cs.map fun c => .mk (e.test c) c.block) d st with ⟨r, h1⟩ | h1
            · exact absurd (h.symm.trans h1) (ho r)
            · exact h1.symm.trans h

/-- **C45**, when evaluating the selector and the values of the cases changes nothing: of the code
that replaces an `escolha`, exactly the block of the first case whose value is that of the selector is
run, in the state the `escolha` is reached in, or the default block if there is no such case.  (Missing:
the selector is evaluated again for every case, so the claim is false for selectors that change
something, see `escolha_first_match_violated`.) -/
theorem escolha_first_match_partial {vals : TCase → Val F} {r : Option TBlock}
    (hs : Settled cfg L pos st e.sel v) (hsty : e.selTy ≠ .nulo)
    (hc : ∀ c ∈ e.cases, Settled cfg L pos st c.value (vals c) ∧ c.ty ≠ .nulo ∧ Choosable (vals c) v)
    (hf : FirstEqual v e.default (e.cases.map fun c => (vals c, c.block)) r) (o : Out F (Option (Val F))) :
    Ends (fun n => evalS cfg L n pos (transformEscolha e)) st o ↔ RunsBlock cfg L pos st r o := by
  obtain ⟨line, sel, selTy, cases, d⟩ := e
  rw [← elses_choose cases hs hsty hc hf o]
  cases cases with
  | nil =>
      cases d with
      | none =>
          constructor
          · rintro ⟨ho, n, h⟩
            cases n with
            | zero => exact absurd h.symm (ho 0)
            | succ n => exact ⟨ho, 1, h⟩
          · rintro ⟨ho, n, h⟩
            cases n with
            | zero => exact absurd h.symm (ho 0)
            | succ n => exact ⟨ho, 1, h⟩
      | some b =>
          have ht : Settled cfg L pos st (.const line "verdadeiro" .unknown) (.bool true) := ⟨1, rfl⟩
          constructor
          · rintro ⟨ho, n, h⟩
            cases n with
            | zero => exact absurd h.symm (ho 0)
            | succ n =>
                simp only [transformEscolha, evalS] at h
                rcases test_then ht n (evalB cfg L n pos b) _ with ⟨r, h'⟩ | h'
                · exact absurd (h.symm.trans h') (ho r)
                · exact ⟨ho, n + 1, (h'.symm.trans h)⟩
          · rintro ⟨ho, n, h⟩
            cases n with
            | zero => exact absurd h.symm (ho 0)
            | succ n =>
                obtain ⟨m, hm⟩ := test_sure ht
                refine ⟨ho, max n m + 1, ?_⟩
                simp only [transformEscolha, evalS]
                rw [hm _ (Nat.le_max_right n m)]
                exact ends_b h ho _ (Nat.le_max_left n m)
  | cons c cs =>
      -- the tests, the blocks and the default are those of the chain of `senaose`
      constructor <;>
      · rintro ⟨ho, n, h⟩
        cases n with
        | zero => exact absurd h.symm (ho 0)
        | succ n => exact ⟨ho, n + 1, h⟩

end

omit [FloatOps F] in
/-- There is always exactly one block to run. -/
theorem firstEqual_unique {v : Val F} {d : Option TBlock} : ∀ (l : List (Val F × TBlock)),
    ∃ r, FirstEqual v d l r ∧ ∀ r', FirstEqual v d l r' → r' = r
  | [] => ⟨d, .default, fun _ h => by cases h; rfl⟩
  | (w, b) :: rest => by
      by_cases h : w = v
      · subst h
        refine ⟨some b, .hit b rest, fun r' h' => ?_⟩
        cases h' with
        | hit => rfl
        | miss hne => exact absurd rfl hne
      · obtain ⟨r, hr, hu⟩ := firstEqual_unique (v := v) (d := d) rest
        refine ⟨r, .miss h hr, fun r' h' => ?_⟩
        cases h' with
        | hit => exact absurd rfl h
        | miss _ hr' => exact hu _ hr'

/-- Literals are settled. -/
theorem settled_lit {cfg : Cfg} {L : Lang} {pos : Pos} {st : St F} {line : Nat} {x : String} {v : Val F}
    (h : literal x = some v) : Settled cfg L pos st (.const line x .unknown) v := by
  refine ⟨1, ?_⟩
  simp only [evalE, h, M.need]
  rfl

/-- Variables with a value are settled. -/
theorem settled_var {cfg : Cfg} {L : Lang} {pos : Pos} {st : St F} {line : Nat} {x : String} {id : SymId} {v : Val F}
    (h : readVar L id st = .done v st) : Settled cfg L pos st (.var line x (some id) .unknown) v := by
  refine ⟨1, ?_⟩
  simp only [evalE, nameSym]
  show Out.next (readVar L id st) _ = _
  rw [h]
  rfl

/-! ## Instances -/

/-- `escolha n: caso 1: mostra 10 caso 2: mostra 20 caso 2: mostra 30 senao: mostra 40 fim`. -/
def pick (n : TExpr) : TEscolha where
  line := 2
  sel := n
  selTy := .int
  cases := [⟨lit "1", .int, .mk 1 [.mostra 3 (lit "10")]⟩, ⟨lit "2", .int, .mk 2 [.mostra 4 (lit "20")]⟩,
    ⟨lit "2", .int, .mk 3 [.mostra 5 (lit "30")]⟩]
  default := some (.mk 4 [.mostra 6 (lit "40")])

/-- The hypotheses of `escolha_first_match_partial` for a variable that is 2: the second block is the
one to run. -/
example (cfg : Cfg) (L : Lang) (pos : Pos) (st : St F) (h : readVar L 0 st = .done (.int 2) st) :
    let vals : TCase → Val F := fun c => (match c.value with
      | .const _ x _ => ((literal x : Option (Val F)).getD .none)
      | _ => .none)
    Settled cfg L pos st (pick (vr "n" 0)).sel (.int 2) ∧
    (∀ c ∈ (pick (vr "n" 0)).cases, Settled cfg L pos st c.value (vals c) ∧ c.ty ≠ .nulo ∧ Choosable (vals c) (.int 2)) ∧
    FirstEqual (.int 2) (pick (vr "n" 0)).default ((pick (vr "n" 0)).cases.map fun c => (vals c, c.block))
      (some (.mk 2 [.mostra 4 (lit "20")])) := by
  have h1 : literal (F := F) "1" = some (.int 1) := rfl
  have h2 : literal (F := F) "2" = some (.int 2) := rfl
  refine ⟨settled_var h, fun c hc => ?_, ?_⟩
  · simp only [pick, List.mem_cons, List.not_mem_nil, or_false] at hc
    rcases hc with rfl | rfl | rfl
    · exact ⟨settled_lit h1, by decide, .inl ⟨1, 2, by simp [lit, h1], rfl⟩⟩
    · exact ⟨settled_lit h2, by decide, .inl ⟨2, 2, by simp [lit, h2], rfl⟩⟩
    · exact ⟨settled_lit h2, by decide, .inl ⟨2, 2, by simp [lit, h2], rfl⟩⟩
  · simp only [pick, lit, List.map_cons, h1, h2, Option.getD_some]
    exact .miss (by simp) (.hit _ _)

/-- The program, from source to machine. -/
def pickProg (n : String) : Prog := only [glob "/m.ama" "n" .var]
  [⟨[("n", 0)], none⟩, ⟨[], some 0⟩, ⟨[], some 0⟩, ⟨[], some 0⟩, ⟨[], some 0⟩]
  [.varDecl 1 "n" .int (some (.mk 0 (lit n))), transformEscolha (pick (vr "n" 0))]

example : machineEnd (pickProg "2") 1000 = some (.exited 0 "20\n" "") ∧
    machineEnd (pickProg "7") 1000 = some (.exited 0 "40\n" "") := by decide +kernel

/-! ## Violations -/

/-- `escolha sel: caso 5: mostra 10 caso 2: mostra 20 senao: mostra 40 fim`. -/
def pickTwo (sel : TExpr) : TStmt := transformEscolha
  { line := 4, sel := sel, selTy := .int
    cases := [⟨lit "5", .int, .mk 1 [.mostra 5 (lit "10")]⟩, ⟨lit "2", .int, .mk 2 [.mostra 6 (lit "20")]⟩]
    default := some (.mk 3 [.mostra 7 (lit "40")]) }

/-- ```
var n : int = 0
func f(): int  n = n + 1  retorna n fim
body
mostra n
``` -/
def effectProg (body : List TStmt) : Prog :=
  only [glob "/m.ama" "n" .var, glob "/m.ama" "f" .func, glob "/m.ama" "k" .var]
  [⟨[("n", 0), ("f", 1), ("k", 2)], none⟩, ⟨[], some 0⟩, ⟨[], some 0⟩, ⟨[], some 0⟩, ⟨[], some 0⟩]
  ([.varDecl 1 "n" .int (some (.mk 0 (lit "0"))),
    .func 2 1 (.mk 4 [.expr (.assign 2 0 (op2 .plus (vr "n" 0) (lit "1"))), .retorna 2 (some (vr "n" 0))])] ++
   body ++ [.mostra 9 (vr "n" 0)])

/-- **C45 is violated.** The selector is evaluated once for every case tried (transform.py:86-104): with
the selector `f()`, which is 1 and counts its calls, the default block has to run, as it does when the
value is first put in a variable; but the case 2 is taken, because `f()` is 2 when it is compared. -/
theorem escolha_first_match_violated :
    machineEnd (effectProg [.varDecl 3 "k" .int (some (.mk 2 (cl "f" 1 []))), pickTwo (vr "k" 2)]) 2000 =
      some (.exited 0 "40\n1\n" "") ∧
    machineEnd (effectProg [pickTwo (cl "f" 1 [])]) 2000 = some (.exited 0 "20\n2\n" "") ∧
    sourceEnd (effectProg [pickTwo (cl "f" 1 [])]) 200 = some (none, "20\n2\n") := by
  decide +kernel

/-- ```
registo P fim
metodo P::dobro(alvo): int  retorna 2 fim
var p : P = P()
body
``` -/
def methodProg (body : List TStmt) : Prog :=
  only [glob "/m.ama" "P" .type, glob "/m.ama" "dobro" .method [3], glob "/m.ama" "p" .var, loc "/m.ama" "alvo" "_r10_"]
  [⟨[("P", 0), ("dobro", 1), ("p", 2)], none⟩, ⟨[], some 0⟩, ⟨[("alvo", 3)], some 0⟩]
  ([.registo 1 "P" [],
    .func 2 1 (.mk 2 [.retorna 2 (some (lit "2"))]),
    .varDecl 3 "p" .unknown (some (.mk 2 (cl "P" 0 [])))] ++ body)

/-- `escolha 1: caso 1: mostra e fim`. -/
def pickOne (e : TExpr) : TStmt := transformEscolha
  { line := 4, sel := lit "1", selTy := .int, cases := [⟨lit "1", .int, .mk 1 [.mostra 5 e]⟩], default := none }

/-- **C45 is violated** in a second way: `transform_escolha` does not transform the parts of the node
(transform.py:65-105 has no call of `transform`), so a call `p.dobro()` in a block of an `escolha` is left as
the checker has it, with a `Get` as callee.  Its code takes a field `dobro` from `p` and the machine panics;
the call that `transform_call` makes of it shows 2. -/
theorem escolha_blocks_violated :
    machineEnd (methodProg [pickOne (.call 5 (.get 5 (vr "p" 2) "dobro" false) [] 1 .unknown)]) 1000 =
      some (.panicked "") ∧
    machineEnd (methodProg [pickOne (cl "dobro" 1 [vr "p" 2])]) 1000 = some (.exited 0 "2\n" "") := by
  decide +kernel

end Amanda

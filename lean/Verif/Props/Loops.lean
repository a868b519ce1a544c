import Verif.SourceKeeps
import Verif.Sim
import Verif.FloatModel

/-!
# Loops (C38, C49)

`Iterates` says what a `para` over a list of numbers does, without fuel, comparisons or increments.
-/

namespace Amanda

open Source Codegen Compiled

section
variable {F : Type} [FloatOps F]

/-- `a, a+s, a+2s, …` below `b`. -/
def paraRange (a b s : Int) : List Int :=
  (List.range ((b - a + s - 1) / s).toNat).map fun (k : Nat) => a + (k : Int) * s

theorem paraRange_nil {a b s : Int} (hs : 0 < s) (h : ¬ a < b) : paraRange a b s = [] := by
  have : (b - a + s - 1) / s ≤ 0 := by
    have : (b - a + s - 1) / s < 1 := Int.ediv_lt_of_lt_mul hs (by omega)
    omega
  have h0 : ((b - a + s - 1) / s).toNat = 0 := by omega
  simp [paraRange, h0]

theorem paraRange_cons {a b s : Int} (hs : 0 < s) (h : a < b) :
    paraRange a b s = a :: paraRange (a + s) b s := by
  have e : (b - a + s - 1) / s = (b - (a + s) + s - 1) / s + 1 := by
    have : b - a + s - 1 = (b - (a + s) + s - 1) + 1 * s := by omega
    rw [this, Int.add_mul_ediv_right _ _ (by omega)]
  have hpos : 0 ≤ (b - (a + s) + s - 1) / s := Int.ediv_nonneg (by omega) (by omega)
  have e2 : ((b - a + s - 1) / s).toNat = ((b - (a + s) + s - 1) / s).toNat + 1 := by omega
  unfold paraRange
  rw [e2, List.range_succ_eq_map, List.map_cons, List.map_map]
  congr 1
  · simp
  · apply List.map_congr_left
    intro k _
    simp only [Function.comp, Nat.succ_eq_add_one]
    push_cast
    rw [Int.add_mul]
    omega

/-- The numbers of the range: those reached from `a` by steps of `s` that are below `b`. -/
theorem mem_paraRange {a b s x : Int} (hs : 0 < s) :
    x ∈ paraRange a b s ↔ ∃ k : Nat, x = a + k * s ∧ x < b := by
  unfold paraRange
  simp only [List.mem_map, List.mem_range]
  constructor
  · rintro ⟨k, hk, rfl⟩
    refine ⟨k, rfl, ?_⟩
    have h1 : (k : Int) < (b - a + s - 1) / s := by omega
    have h2 : ((k : Int) + 1) * s ≤ b - a + s - 1 := (Int.le_ediv_iff_mul_le hs).1 (by omega)
    rw [Int.add_mul] at h2
    omega
  · rintro ⟨k, rfl, hk⟩
    refine ⟨k, ?_, rfl⟩
    have h1 : ((k : Int) + 1) ≤ (b - a + s - 1) / s := by
      apply (Int.le_ediv_iff_mul_le hs).2
      rw [Int.add_mul]
      omega
    omega

/-- With step 1 there are `max 0 (b - a)` of them. -/
theorem length_paraRange (a b : Int) : (paraRange a b 1).length = (b - a).toNat := by
  simp [paraRange]

/-- The value of the variable `id`. -/
def Holds (L : Lang) (id : SymId) (st : St F) (v : Val F) : Prop := readVar L id st = .done v st

/-- Running the body once for each number of the list, with the variable `id` at that number; after
each round but the last the next one is `s` larger.  `run st o`: from `st` the body ends with `o`. -/
inductive Iterates (run : St F → Out F (Option (Val F)) → Prop) (L : Lang) (id : SymId) (s : Int) :
    List Int → St F → Out F (Option (Val F)) → Prop
  | stop {st} : Iterates run L id s [] st (.done none st)
  | round {j js st st1 st2 o} : Holds L id st (.int j) →
      (run st (.done none st1) ∨ run st (.leave .continua st1)) → InI64 (j + s) →
      writeVar L id (some (.int (j + s))) st1 = .done () st2 → Iterates run L id s js st2 o →
      Iterates run L id s (j :: js) st o
  | quebra {j js st st1} : Holds L id st (.int j) → run st (.leave .quebra st1) →
      Iterates run L id s (j :: js) st (.done none st1)
  | retorna {j js st st1 v} : Holds L id st (.int j) → run st (.leave (.retorna v) st1) →
      Iterates run L id s (j :: js) st (.leave (.retorna v) st1)
  | fail {j js st msg w} : Holds L id st (.int j) → run st (.fail msg w) →
      Iterates run L id s (j :: js) st (.fail msg w)
  /-- after the last round the variable cannot hold the next number -/
  | overflow {j st st1} : Holds L id st (.int j) →
      (run st (.done none st1) ∨ run st (.leave .continua st1)) → ¬ InI64 (j + s) →
      Iterates run L id s [j] st (.fail msgOverflow st1.world)

/-- What `para` needs to know about its parts: in states where `Inv` holds the bound is `b` and the
increment `s`, and the body keeps `Inv` and the control variable. -/
structure ParaParts (cfg : Cfg) (L : Lang) (pos : Pos) (id : SymId) (stop : TExpr) (inc : Option TExpr)
    (body : List TStmt) (b s : Int) (Inv : St F → Prop) : Prop where
  stop : ∃ m, ∀ st, Inv st → evalE cfg L m pos stop st = .done (.int b) st
  inc : ∃ m, ∀ st, Inv st → evalInc cfg L m pos inc st = .done (.int s) st
  keep : ∀ m st st1 v, Inv st →
    (evalSs cfg L m pos body st = .done none st1 ∨ evalSs cfg L m pos body st = .leave .continua st1) →
    Inv st1 ∧ (Holds L id st v → Holds L id st1 v)
  write : ∀ st st1 v, Inv st → writeVar L id (some v) st = .done () st1 → Inv st1

theorem binop_less_int (i b : Int) : (binop (.int i) .opLess (.int b) : Res (Val F)) = .ok (.bool (decide (i < b))) := rfl

theorem binop_add_int (s i : Int) : (binop (.int s) .opAdd (.int i) : Res (Val F)) =
    if InI64 (i + s) then .ok (.int (i + s)) else .error (.err msgOverflow) := by
  show (match checked (s + i) with
    | some n => .ok (.int n)
    | none => .error (.err msgOverflow) : Res (Val F)) = _
  rw [Int.add_comm, checked]
  by_cases h : InI64 (i + s)
  · rw [if_pos h, if_pos h]
  · rw [if_neg h, if_neg h]

omit [FloatOps F] in
theorem writeVar_cases {L : Lang} {id : SymId} {st : St F} {w v : Val F} (h : Holds L id st w) :
    ∃ st1, writeVar L id (some v) st = .done () st1 ∧ Holds L id st1 v := by
  unfold Holds readVar at *
  unfold writeVar
  cases hs : L.env.syms[id]? with
  | none => rw [hs] at h; cases h
  | some s =>
      simp only
      split
      · rename_i hg
        exact ⟨_, rfl, by simp [M.need, pure]⟩
      · rename_i hg
        exact ⟨_, rfl, by simp [M.need, pure]⟩

/-- Evaluation that ends does so with more fuel too. -/
theorem evalSs_more {cfg : Cfg} {L : Lang} {pos : Pos} {body : List TStmt} {st : St F} {o : Out F (Option (Val F))}
    {n m : Nat} (h : n ≤ m) (e : evalSs cfg L n pos body st = o) (ho : o.Ended) :
    evalSs cfg L m pos body st = o := by
  rcases (mono cfg L h).ss pos body st with ⟨k, e'⟩ | e'
  · exact absurd (e.symm.trans e') (ho k)
  · rw [← e', e]

section
variable {cfg : Cfg} {L : Lang} {pos : Pos} {id : SymId} {stop : TExpr} {inc : Option TExpr} {body : List TStmt}
  {b s : Int} {Inv : St F → Prop}

theorem ParaParts.stop_at (H : ParaParts cfg L pos id stop inc body b s Inv) (n : Nat) {st : St F} (hi : Inv st) :
    (∃ k, evalE cfg L n pos stop st = .fuel k) ∨ evalE cfg L n pos stop st = .done (.int b) st := by
  obtain ⟨m, hm⟩ := H.stop
  rcases Nat.le_total n m with h | h
  · rcases (mono cfg L h).e pos stop st with e | e
    · exact .inl e
    · exact .inr (e.trans (hm st hi))
  · rcases (mono cfg L h).e pos stop st with ⟨k, e⟩ | e
    · rw [hm st hi] at e; cases e
    · exact .inr (e.symm.trans (hm st hi))

theorem ParaParts.inc_at (H : ParaParts cfg L pos id stop inc body b s Inv) (n : Nat) {st : St F} (hi : Inv st) :
    (∃ k, evalInc cfg L n pos inc st = .fuel k) ∨ evalInc cfg L n pos inc st = .done (.int s) st := by
  obtain ⟨m, hm⟩ := H.inc
  rcases Nat.le_total n m with h | h
  · rcases (mono cfg L h).inc pos inc st with e | e
    · exact .inl e
    · exact .inr (e.trans (hm st hi))
  · rcases (mono cfg L h).inc pos inc st with ⟨k, e⟩ | e
    · rw [hm st hi] at e; cases e
    · exact .inr (e.symm.trans (hm st hi))

/-- The end of a round, in terms of its parts. -/
theorem paraStep_at (H : ParaParts cfg L pos id stop inc body b s Inv) {n : Nat} {st : St F} {j : Int} (hi : Inv st)
    (hj : Holds L id st (.int j)) (e : evalInc cfg L n pos inc st = .done (.int s) st) :
    (InI64 (j + s) ∧ ∃ st1, writeVar L id (some (.int (j + s))) st = .done () st1 ∧
      Holds L id st1 (.int (j + s)) ∧ Inv st1 ∧
      evalParaStep cfg L (n + 1) pos id stop inc body st = evalPara cfg L n pos id stop inc body st1) ∨
    (¬ InI64 (j + s) ∧ evalParaStep cfg L (n + 1) pos id stop inc body st = .fail msgOverflow st.world) := by
  simp only [evalParaStep]
  change (_ ∧ ∃ st1, _ ∧ _ ∧ _ ∧ Out.next (evalInc cfg L n pos inc st) _ = _) ∨
    (_ ∧ Out.next (evalInc cfg L n pos inc st) _ = _)
  rw [e]
  change (_ ∧ ∃ st1, _ ∧ _ ∧ _ ∧ Out.next (readVar L id st) _ = _) ∨ (_ ∧ Out.next (readVar L id st) _ = _)
  rw [hj]
  change (_ ∧ ∃ st1, _ ∧ _ ∧ _ ∧ Out.next (M.res (binop _ .opAdd _) st) _ = _) ∨ (_ ∧ Out.next (M.res (binop _ .opAdd _) st) _ = _)
  rw [binop_add_int]
  by_cases hf : InI64 (j + s)
  · rw [if_pos hf]
    obtain ⟨st1, hw, hh⟩ := writeVar_cases (v := .int (j + s)) hj
    refine .inl ⟨hf, st1, hw, hh, H.write st st1 _ hi hw, ?_⟩
    change Out.next (writeVar L id _ st) _ = _
    rw [hw]
    rfl
  · rw [if_neg hf]
    exact .inr ⟨hf, rfl⟩

theorem paraStep_fuel {n k : Nat} {st : St F} (e : evalInc cfg L n pos inc st = .fuel k) :
    evalParaStep cfg L (n + 1) pos id stop inc body st = .fuel k := by
  simp only [evalParaStep]
  change Out.next (evalInc cfg L n pos inc st) _ = _
  rw [e]; rfl

/-- A round, in terms of its parts. -/
theorem para_at {n : Nat} {st : St F} {j : Int} (hj : Holds L id st (.int j))
    (e : evalE cfg L n pos stop st = .done (.int b) st) :
    evalPara cfg L (n + 1) pos id stop inc body st =
      if j < b then (endRound (evalParaStep cfg L n pos id stop inc body) (evalSs cfg L n pos body st)).tick
      else .done none st := by
  simp only [evalPara]
  change Out.next (readVar L id st) _ = _
  rw [hj]
  change Out.next (evalE cfg L n pos stop st) _ = _
  rw [e]
  by_cases h : j < b <;> simp [Out.next, bind, binop_less_int, M.res, pure, truth, h]

theorem para_fuel {n k : Nat} {st : St F} {j : Int} (hj : Holds L id st (.int j))
    (e : evalE cfg L n pos stop st = .fuel k) : evalPara cfg L (n + 1) pos id stop inc body st = .fuel k := by
  simp only [evalPara]
  change Out.next (readVar L id st) _ = _
  rw [hj]
  change Out.next (evalE cfg L n pos stop st) _ = _
  rw [e]; rfl

/-- What `para` does is a run over the range. -/
theorem para_iterates (H : ParaParts cfg L pos id stop inc body b s Inv) (hs : 0 < s) (hb : InI64 b) :
    ∀ (n : Nat) (st : St F) (a : Int), InI64 a → Inv st → Holds L id st (.int a) →
      ∀ o, evalPara cfg L n pos id stop inc body st = o → o.Ended → o ≠ .stuck →
      Iterates (fun st o => ∃ m, evalSs cfg L m pos body st = o) L id s (paraRange a b s) st o := by
  intro n
  induction n using Nat.strongRecOn with
  | ind n ih =>
    intro st a ha hi hh o ho hne hns
    cases n with
    | zero => exact absurd ho.symm (hne 0)
    | succ n =>
      rcases H.stop_at n hi with ⟨k, hb'⟩ | hb'
      · exact absurd (ho.symm.trans (para_fuel hh hb')) (hne k)
      · have e := para_at (inc := inc) (body := body) hh hb'
        rw [ho] at e
        by_cases h : a < b
        · rw [if_pos h] at e
          have e := e.trans (Out.Ended.of_tick (e ▸ hne)).tick
          rw [paraRange_cons hs h]
          have step : ∀ st1, (evalSs cfg L n pos body st = .done none st1 ∨ evalSs cfg L n pos body st = .leave .continua st1) →
              o = evalParaStep cfg L n pos id stop inc body st1 →
              Iterates (fun st o => ∃ m, evalSs cfg L m pos body st = o) L id s (a :: paraRange (a + s) b s) st o := by
            intro st1 hb1 he
            obtain ⟨hi1, hk⟩ := H.keep n st st1 (.int a) hi hb1
            have hh1 := hk hh
            have hb1' : (∃ m, evalSs cfg L m pos body st = .done none st1) ∨
                (∃ m, evalSs cfg L m pos body st = .leave .continua st1) :=
              hb1.imp (fun h => ⟨n, h⟩) (fun h => ⟨n, h⟩)
            cases n with
            | zero => exact absurd he (hne 0)
            | succ k =>
              rcases H.inc_at k hi1 with ⟨r, hinc⟩ | hinc
              · exact absurd (he.trans (paraStep_fuel hinc)) (hne r)
              rcases paraStep_at H hi1 hh1 hinc with ⟨hf, st2, hw, hh2, hi2, e2⟩ | ⟨hf, e2⟩
              · exact .round hh hb1' hf hw (ih k (by omega) st2 (a + s) hf hi2 hh2 o (by rw [he, e2]) hne hns)
              · have hnil : paraRange (a + s) b s = [] := by
                  refine paraRange_nil hs ?_
                  unfold InI64 at hf hb ha
                  omega
                rw [hnil, he, e2]
                exact .overflow hh hb1' hf
          cases hev : evalSs cfg L n pos body st with
          | stuck => rw [hev] at e; exact absurd e hns
          | fuel r => rw [hev] at e; exact absurd e (hne r)
          | fail msg w => rw [hev] at e; rw [e]; exact .fail hh ⟨n, hev⟩
          | leave c st1 =>
              rw [hev] at e
              cases c with
              | quebra => rw [e]; exact .quebra hh ⟨n, hev⟩
              | continua => exact step st1 (.inr hev) e
              | retorna v => rw [e]; exact .retorna hh ⟨n, hev⟩
          | done v st1 =>
              rw [hev] at e
              cases v with
              | none => exact step st1 (.inl hev) e
              | some v => exact absurd e hns
        · rw [if_neg h] at e
          rw [paraRange_nil hs h, e]
          exact .stop

theorem ParaParts.stop_more (H : ParaParts cfg L pos id stop inc body b s Inv) :
    ∃ m, ∀ n, m ≤ n → ∀ st, Inv st → evalE cfg L n pos stop st = .done (.int b) st := by
  obtain ⟨m, hm⟩ := H.stop
  refine ⟨m, fun n h st hi => ?_⟩
  rcases (mono cfg L h).e pos stop st with ⟨k, e⟩ | e
  · rw [hm st hi] at e; cases e
  · rw [← e, hm st hi]

theorem ParaParts.inc_more (H : ParaParts cfg L pos id stop inc body b s Inv) :
    ∃ m, ∀ n, m ≤ n → ∀ st, Inv st → evalInc cfg L n pos inc st = .done (.int s) st := by
  obtain ⟨m, hm⟩ := H.inc
  refine ⟨m, fun n h st hi => ?_⟩
  rcases (mono cfg L h).inc pos inc st with ⟨k, e⟩ | e
  · rw [hm st hi] at e; cases e
  · rw [← e, hm st hi]

/-- A run over the range is what `para` does. -/
theorem iterates_para (H : ParaParts cfg L pos id stop inc body b s Inv) (hs : 0 < s) {js : List Int} {st : St F}
    {o : Out F (Option (Val F))} (h : Iterates (fun st o => ∃ m, evalSs cfg L m pos body st = o) L id s js st o) :
    ∀ a, js = paraRange a b s → Inv st → Holds L id st (.int a) →
      ∃ n, evalPara cfg L n pos id stop inc body st = o ∧ o.Ended ∧ o ≠ .stuck := by
  obtain ⟨ms, hms⟩ := H.stop_more
  obtain ⟨mi, hmi⟩ := H.inc_more
  -- the first number of the range
  have first : ∀ a j (js : List Int), j :: js = paraRange a b s → a < b ∧ j = a ∧ js = paraRange (a + s) b s := by
    intro a j js he
    by_cases hab : a < b
    · rw [paraRange_cons hs hab] at he
      exact ⟨hab, (List.cons.inj he).1, (List.cons.inj he).2⟩
    · rw [paraRange_nil hs hab] at he; cases he
  -- a round that ends the loop
  have last : ∀ (st : St F) (a : Int) (o1 : Out F (Option (Val F))) (m : Nat), Inv st → Holds L id st (.int a) → a < b →
      evalSs cfg L m pos body st = o1 → o1.Ended →
      evalPara cfg L (ms + m + 1) pos id stop inc body st =
        (endRound (evalParaStep cfg L (ms + m) pos id stop inc body) o1).tick := by
    intro st a o1 m hi hh hab he hne
    rw [para_at hh (hms (ms + m) (by omega) st hi), if_pos hab, evalSs_more (by omega) he hne]
  -- the end of a round
  have goOn : ∀ (st st1 : St F) (a : Int), Inv st → Holds L id st (.int a) → a < b →
      ((∃ m, evalSs cfg L m pos body st = .done none st1) ∨ (∃ m, evalSs cfg L m pos body st = .leave .continua st1)) →
      Inv st1 ∧ Holds L id st1 (.int a) ∧ ∃ m, ∀ n, m ≤ n → evalPara cfg L (n + 1) pos id stop inc body st =
        (evalParaStep cfg L n pos id stop inc body st1).tick := by
    intro st st1 a hi hh hab hr
    rcases hr with ⟨m, hm⟩ | ⟨m, hm⟩
    · obtain ⟨hi1, hk⟩ := H.keep m st st1 (.int a) hi (.inl hm)
      refine ⟨hi1, hk hh, ms + m, fun n hn => ?_⟩
      rw [para_at hh (hms n (by omega) st hi), if_pos hab, evalSs_more (by omega) hm (fun _ => by simp)]
      rfl
    · obtain ⟨hi1, hk⟩ := H.keep m st st1 (.int a) hi (.inr hm)
      refine ⟨hi1, hk hh, ms + m, fun n hn => ?_⟩
      rw [para_at hh (hms n (by omega) st hi), if_pos hab, evalSs_more (by omega) hm (fun _ => by simp)]
      rfl
  induction h with
  | @stop st =>
      intro a hr hi hh
      by_cases hab : a < b
      · rw [paraRange_cons hs hab] at hr; cases hr
      · exact ⟨ms + 1, by rw [para_at hh (hms ms (by omega) st hi), if_neg hab], (fun _ => by simp), by simp⟩
  | @round j js st st1 st2 o hj hr hf hw _ ih =>
      intro a he hi hh
      obtain ⟨hab, rfl, rfl⟩ := first a j js he
      obtain ⟨hi1, hh1, m, hm⟩ := goOn st st1 j hi hh hab hr
      rcases paraStep_at H (n := mi) hi1 hh1 (hmi mi (by omega) st1 hi1) with ⟨-, st2', hw', hh2, hi2, -⟩ | ⟨hf', -⟩
      · rw [hw] at hw'
        cases hw'
        obtain ⟨n2, h2, hne, hns⟩ := ih (j + s) rfl hi2 hh2
        refine ⟨m + mi + n2 + 1 + 1, ?_, hne, hns⟩
        rw [hm _ (by omega)]
        rcases paraStep_at H (n := m + mi + n2) hi1 hh1 (hmi _ (by omega) st1 hi1) with ⟨-, st2', hw', -, -, e2⟩ | ⟨hf', -⟩
        · rw [hw] at hw'
          cases hw'
          rw [e2]
          rcases (mono cfg L (show n2 ≤ m + mi + n2 by omega)).para pos id stop inc body st2 with ⟨k, e⟩ | e
          · exact absurd (h2.symm.trans e) (hne k)
          · rw [← e, h2, hne.tick]
        · exact absurd hf hf'
      · exact absurd hf hf'
  | @quebra j js st st1 hj hr =>
      intro a he hi hh
      obtain ⟨hab, rfl, rfl⟩ := first a j js he
      obtain ⟨m, hm⟩ := hr
      exact ⟨_, last st j _ m hi hh hab hm (fun _ => by simp), (fun _ => by simp [endRound, Out.tick]), by simp [endRound, Out.tick]⟩
  | @retorna j js st st1 v hj hr =>
      intro a he hi hh
      obtain ⟨hab, rfl, rfl⟩ := first a j js he
      obtain ⟨m, hm⟩ := hr
      exact ⟨_, last st j _ m hi hh hab hm (fun _ => by simp), (fun _ => by simp [endRound, Out.tick]), by simp [endRound, Out.tick]⟩
  | @fail j js st msg w hj hr =>
      intro a he hi hh
      obtain ⟨hab, rfl, rfl⟩ := first a j js he
      obtain ⟨m, hm⟩ := hr
      exact ⟨_, last st j _ m hi hh hab hm (fun _ => by simp), (fun _ => by simp [endRound, Out.tick]), by simp [endRound, Out.tick]⟩
  | @overflow j st st1 hj hr hf =>
      intro a he hi hh
      obtain ⟨hab, rfl, -⟩ := first a j [] he
      obtain ⟨hi1, hh1, m, hm⟩ := goOn st st1 j hi hh hab hr
      refine ⟨m + mi + 1 + 1, ?_, (fun _ => by simp), by simp⟩
      rw [hm _ (by omega)]
      rcases paraStep_at H (n := m + mi) hi1 hh1 (hmi _ (by omega) st1 hi1) with ⟨hf', -⟩ | ⟨-, e2⟩
      · exact absurd hf' hf
      · rw [e2]; rfl

/-! ## `para` -/

/-- **C49.** `para i de a ate b inc s` ends with `o` exactly if running the body for `a, a+s, …` below
`b`, in this order and for no other number, ends with `o`.  The last number plus `s` may be too large
for an integer: that is reported after the last round. -/
theorem para_runs_range {line : Nat} {name : String} {start : TExpr} {scope : ScopeId} {a : Int} {m0 : Nat}
    {st st0 st1 : St F} {p : Pos}
    (H : ParaParts cfg L { p with scope := some scope } id stop inc body b s Inv) (hs : 0 < s) (ha : InI64 a) (hb : InI64 b)
    (hstart : evalE cfg L m0 { p with scope := some scope } start (st.entered L scope) = .done (.int a) st0)
    (hid : L.env.resolve (some scope) name = some id)
    (hw : writeVar L id (some (.int a)) st0 = .done () st1) (hi : Inv st1) (o : Out F (Option (Val F))) :
    (∃ n, evalS cfg L n p (.para line name start stop inc (.mk scope body)) st = o ∧ o.Ended ∧ o ≠ .stuck) ↔
      Iterates (fun st o => ∃ m, evalSs cfg L m { p with scope := some scope } body st = o) L id s
        (paraRange a b s) st1 o := by
  have hh : Holds L id st1 (.int a) := by
    unfold writeVar at hw
    unfold Holds readVar
    cases hsym : L.env.syms[id]? with
    | none => rw [hsym] at hw; cases hw
    | some sy =>
        rw [hsym] at hw
        simp only at hw
        split at hw
        · rename_i hg
          cases hw
          simp [hg, M.need, pure]
        · rename_i hg
          cases hw
          simp [hg, M.need, pure]
  have key : ∀ n, evalE cfg L n { p with scope := some scope } start (st.entered L scope) = .done (.int a) st0 →
      evalS cfg L (n + 1) p (.para line name start stop inc (.mk scope body)) st =
        evalPara cfg L n { p with scope := some scope } id stop inc body st1 := by
    intro n hn
    simp only [evalS]
    change Out.next (evalE cfg L n { p with scope := some scope } start (st.entered L scope)) _ = _
    rw [hn]
    change Out.next (M.need (L.env.resolve (some scope) name) st0) _ = _
    rw [hid]
    change Out.next (writeVar L id (some (.int a)) st0) _ = _
    rw [hw]
    rfl
  constructor
  · rintro ⟨n, hn, hne⟩
    cases n with
    | zero => exact absurd hn.symm (hne.1 0)
    | succ n =>
        have he : evalE cfg L n { p with scope := some scope } start (st.entered L scope) = .done (.int a) st0 := by
          rcases Nat.le_total n m0 with h | h
          · rcases (mono cfg L h).e { p with scope := some scope } start (st.entered L scope) with ⟨k, e⟩ | e
            · exfalso
              apply hne.1 k
              rw [← hn]
              simp only [evalS]
              change Out.next (evalE cfg L n { p with scope := some scope } start (st.entered L scope)) _ = _
              rw [e]
              rfl
            · exact e.trans hstart
          · rcases (mono cfg L h).e { p with scope := some scope } start (st.entered L scope) with ⟨k, e⟩ | e
            · rw [hstart] at e; cases e
            · exact e.symm.trans hstart
        rw [key n he] at hn
        exact para_iterates H hs hb n st1 a ha hi hh o hn hne.1 hne.2
  · intro h
    obtain ⟨n, hn, hne⟩ := iterates_para H hs h a rfl hi hh
    refine ⟨m0 + n + 1, ?_, hne⟩
    rw [key]
    · rcases (mono cfg L (show n ≤ m0 + n by omega)).para { p with scope := some scope } id stop inc body st1 with ⟨k, e⟩ | e
      · exact absurd (hn.symm.trans e) (hne.1 k)
      · rw [← e, hn]
    · rcases (mono cfg L (show m0 ≤ m0 + n by omega)).e { p with scope := some scope } start (st.entered L scope) with ⟨k, e⟩ | e
      · rw [hstart] at e; cases e
      · rw [← e, hstart]

end

/-! ### Bodies that do not assign the control variable -/

section
variable {cfg : Cfg} {L : Lang} {pos : Pos} {id : SymId} {stop : TExpr} {inc : Option TExpr} {body : List TStmt}
  {b s : Int} {sy : Sym}

omit [FloatOps F] in
theorem holds_local (hs : L.env.syms[id]? = some sy) (hl : sy.isGlobal = false) (st : St F) (v : Val F) :
    Holds L id st v ↔ st.locals id = some v := by
  unfold Holds readVar
  rw [hs]
  simp only [hl, Bool.false_eq_true, if_false]
  cases st.locals id with
  | none => simp [M.need, M.stuck]
  | some w => simp [M.need, pure]

/-- What the body does not set is the same after a round. -/
theorem body_keeps {i : SymId} (hb : setsSs L.env i pos.scope body = false) {m : Nat} {st st1 : St F}
    (h : evalSs cfg L m pos body st = .done none st1 ∨ evalSs cfg L m pos body st = .leave .continua st1) :
    st1.locals i = st.locals i := by
  have := (keeps_all cfg L i m).ss pos body hb st
  rcases h with e | e
  · rw [e] at this; exact this
  · rw [e] at this; exact this

/-- Bound and increment are the same in all states, and the body contains no assignment to the control
variable, which is a local one. -/
theorem paraParts_const (hs : L.env.syms[id]? = some sy) (hl : sy.isGlobal = false)
    (hb : setsSs L.env id pos.scope body = false)
    (hstop : ∃ m, ∀ st : St F, evalE cfg L m pos stop st = .done (.int b) st)
    (hinc : ∃ m, ∀ st : St F, evalInc cfg L m pos inc st = .done (.int s) st) :
    ParaParts cfg L pos id stop inc body b s (fun _ : St F => True) where
  stop := hstop.imp fun _ h st _ => h st
  inc := hinc.imp fun _ h st _ => h st
  keep m st st1 v _ h := by
    refine ⟨trivial, fun hh => ?_⟩
    rw [holds_local hs hl] at hh ⊢
    rw [body_keeps hb h, hh]
  write _ _ _ _ _ := trivial

/-- The bound is another local variable, which the body does not assign either. -/
theorem paraParts_var {line : Nat} {name : String} {i : SymId} {si : Sym} (hs : L.env.syms[id]? = some sy)
    (hl : sy.isGlobal = false) (hb : setsSs L.env id pos.scope body = false)
    (hsi : L.env.syms[i]? = some si) (hli : si.isGlobal = false) (hne : i ≠ id)
    (hbi : setsSs L.env i pos.scope body = false)
    (hinc : ∃ m, ∀ st : St F, evalInc cfg L m pos inc st = .done (.int s) st) :
    ParaParts cfg L pos id (.var line name (some i) .unknown) inc body b s
      (fun st : St F => st.locals i = some (.int b)) where
  stop := by
    refine ⟨1, fun st h => ?_⟩
    simp only [evalE]
    change Out.next (readVar L i st) _ = _
    rw [(holds_local hsi hli st _).2 h]
    rfl
  inc := hinc.imp fun _ h st _ => h st
  keep m st st1 v hi h := by
    refine ⟨by rw [body_keeps hbi h]; exact hi, fun hh => ?_⟩
    rw [holds_local hs hl] at hh ⊢
    rw [body_keeps hb h, hh]
  write st st1 v hi h := by
    unfold writeVar at h
    rw [hs] at h
    simp only [hl, Bool.false_eq_true, if_false] at h
    cases h
    simp [hne, hi]

end

/-! ## `quebra` and `continua` -/

section
variable {cfg : Cfg} {L : Lang} {pos : Pos} {line : Nat} {cond : TExpr} {scope : ScopeId} {body : List TStmt} {n : Nat}
  {st st1 st2 : St F}

theorem while_round (hc : evalE cfg L n { pos with scope := some scope } cond (st.entered L scope) = .done (.bool true) st1) :
    evalS cfg L (n + 2) pos (.enquanto line cond (.mk scope body)) st =
      (endRound (evalWhile cfg L n { pos with scope := some scope } cond body)
        (evalSs cfg L n { pos with scope := some scope } body st1)).tick := by
  simp only [evalS, evalWhile]
  change Out.next (evalE cfg L n { pos with scope := some scope } cond (st.entered L scope)) _ = _
  rw [hc]
  rfl

/-- **C38, meaning.** `quebra` in the body ends this loop, and what follows it goes on. -/
theorem quebra_ends_loop (hc : evalE cfg L n { pos with scope := some scope } cond (st.entered L scope) = .done (.bool true) st1)
    (hb : evalSs cfg L n { pos with scope := some scope } body st1 = .leave .quebra st2) (rest : List TStmt) :
    evalS cfg L (n + 2) pos (.enquanto line cond (.mk scope body)) st = .done none st2 ∧
    evalSs cfg L (n + 3) pos (.enquanto line cond (.mk scope body) :: rest) st = evalSs cfg L (n + 2) pos rest st2 := by
  have h1 : evalS cfg L (n + 2) pos (.enquanto line cond (.mk scope body)) st = .done none st2 := by
    rw [while_round hc, hb]; rfl
  refine ⟨h1, ?_⟩
  rw [evalSs]
  change Out.next (evalS cfg L (n + 2) pos (.enquanto line cond (.mk scope body)) st) _ = _
  rw [h1]
  rfl

/-- **C38, meaning.** `continua` in the body goes back to the condition of this loop.  (`tick` only
counts this round for runs that are out of fuel.) -/
theorem continua_restarts_loop (hc : evalE cfg L n { pos with scope := some scope } cond (st.entered L scope) = .done (.bool true) st1)
    (hb : evalSs cfg L n { pos with scope := some scope } body st1 = .leave .continua st2) :
    evalS cfg L (n + 2) pos (.enquanto line cond (.mk scope body)) st =
      (evalWhile cfg L n { pos with scope := some scope } cond body st2).tick := by
  rw [while_round hc, hb]; rfl

end

/-! ## The code of loops -/

section
variable {K : Link F} {a : Act F} {W : Wf} {lp : Loop} {s s' : Gen} {st st1 st2 : St F} {vm : VM F} {k : List (Val F)}
  {line : Nat} {scope : ScopeId} {body : List TStmt} {n : Nat}

theorem code_done (hK : LinkOk K) {c : TStmt} (C : Code K a W lp s s') (hok : okS W c = true)
    (hg : genStmt a.cm.ctx c s = .ok ((), s')) (hh : Here K a st vm s.ip k)
    (he : evalS K.cfg K.L n (pos a W) c st = .done none st1) :
    ∃ vm' j, Runs K vm vm' ∧ Here K a st1 vm' s'.ip (k ++ j) := by
  have := (simulates hK n).s (m := .any) C hok trivial hg hh
  rw [he] at this
  obtain ⟨vm', j, -, hr, hp, -⟩ := this
  exact ⟨vm', j, hr, by simpa using hp⟩

/-- **C38, code of `enquanto`.**  If the body of an `enquanto` is left by `quebra` in state `st2`, the
machine comes to the instruction after this loop, in that state.  The condition `okS` excludes a
`quebra` or `continua` in a `para` inside the `enquanto`; see `quebra_innermost_violated`. -/
theorem quebra_code_partial (hK : LinkOk K) {cond : TExpr} (C : Code K a W lp s s')
    (hok : okS W (.enquanto line cond (.mk scope body)) = true)
    (hg : genStmt a.cm.ctx (.enquanto line cond (.mk scope body)) s = .ok ((), s')) (hh : Here K a st vm s.ip k)
    (hc : evalE K.cfg K.L n { pos a W with scope := some scope } cond (st.entered K.L scope) = .done (.bool true) st1)
    (hb : evalSs K.cfg K.L n { pos a W with scope := some scope } body st1 = .leave .quebra st2) :
    ∃ vm' j, Runs K vm vm' ∧ Here K a st2 vm' s'.ip (k ++ j) :=
  code_done hK C hok hg hh (quebra_ends_loop hc hb []).1

/-- **C38, code of `enquanto`.**  If the body is left by `continua` in state `st2` and the loop goes on
from there to end in state `st3`, the machine comes to the instruction after the loop in state `st3`. -/
theorem continua_code_partial (hK : LinkOk K) {cond : TExpr} {st3 : St F} (C : Code K a W lp s s')
    (hok : okS W (.enquanto line cond (.mk scope body)) = true)
    (hg : genStmt a.cm.ctx (.enquanto line cond (.mk scope body)) s = .ok ((), s')) (hh : Here K a st vm s.ip k)
    (hc : evalE K.cfg K.L n { pos a W with scope := some scope } cond (st.entered K.L scope) = .done (.bool true) st1)
    (hb : evalSs K.cfg K.L n { pos a W with scope := some scope } body st1 = .leave .continua st2)
    (hr : evalWhile K.cfg K.L n { pos a W with scope := some scope } cond body st2 = .done none st3) :
    ∃ vm' j, Runs K vm vm' ∧ Here K a st3 vm' s'.ip (k ++ j) :=
  code_done hK C hok hg hh ((continua_restarts_loop hc hb).trans (by rw [hr]; rfl))

/-- **C49, code.**  The machine runs the code of `para i de a ate b inc s` like running the body for
`a, a+s, …` below `b`. -/
theorem para_code_runs_range (hK : LinkOk K) {name : String} {start stop : TExpr} {inc : Option TExpr} {id : SymId}
    {x b i : Int} {Inv : St F → Prop} {m0 : Nat} {st0 : St F} (C : Code K a W lp s s')
    (hok : okS W (.para line name start stop inc (.mk scope body)) = true)
    (hg : genStmt a.cm.ctx (.para line name start stop inc (.mk scope body)) s = .ok ((), s'))
    (hh : Here K a st vm s.ip k)
    (H : ParaParts K.cfg K.L { pos a W with scope := some scope } id stop inc body b i Inv) (hi : 0 < i)
    (hx : InI64 x) (hb : InI64 b)
    (hstart : evalE K.cfg K.L m0 { pos a W with scope := some scope } start (st.entered K.L scope) = .done (.int x) st0)
    (hid : K.L.env.resolve (some scope) name = some id)
    (hw : writeVar K.L id (some (.int x)) st0 = .done () st1) (hinv : Inv st1) :
    (∀ st2, Iterates (fun st o => ∃ m, evalSs K.cfg K.L m { pos a W with scope := some scope } body st = o) K.L id i
        (paraRange x b i) st1 (.done none st2) → ∃ vm' j, Runs K vm vm' ∧ Here K a st2 vm' s'.ip (k ++ j)) ∧
    (∀ msg w, Iterates (fun st o => ∃ m, evalSs K.cfg K.L m { pos a W with scope := some scope } body st = o) K.L id i
        (paraRange x b i) st1 (.fail msg w) → RunsErr K vm msg w) := by
  constructor
  · intro st2 hit
    obtain ⟨n, hn, -⟩ := (para_runs_range (line := line) H hi hx hb hstart hid hw hinv _).2 hit
    exact code_done hK C hok hg hh hn
  · intro msg w hit
    obtain ⟨n, hn, -⟩ := (para_runs_range (line := line) H hi hx hb hstart hid hw hinv _).2 hit
    have := (simulates hK n).s (m := .any) C hok trivial hg hh
    rw [hn] at this
    exact this

end

end

/-! ## Examples -/

example : paraRange 2 7 2 = [2, 4, 6] ∧ paraRange 3 3 1 = [] ∧ paraRange (-1) 2 1 = [-1, 0, 1] := by decide

end Amanda

import Verif.SourceMono

/-!
# Running out of fuel takes many calls and rounds

A run that is out of fuel has only the text of the program and the calls and rounds of loops it is
inside to spend it on.  So a program that is out of fuel for every amount of it goes through any number
of calls and rounds.
-/

namespace Amanda

namespace Source

variable {F : Type} [FloatOps F]

/-- A step that does not take fuel. -/
def M.Free {α : Type} (m : M F α) : Prop := ∀ st k, m st ≠ .fuel k

/-- When `m` is out of the fuel `n`, then `s` of it was spent outside of calls and rounds of loops, and
at most `B` in each of these. -/
def M.Spends {α : Type} (B n s : Nat) (m : M F α) : Prop := ∀ st k, m st = .fuel k → n ≤ s + k * B

omit [FloatOps F] in
theorem M.Free.spends {α : Type} {m : M F α} (h : m.Free) (B n s : Nat) : m.Spends B n s :=
  fun st k e => absurd e (h st k)

omit [FloatOps F] in
theorem M.Spends.zero {α : Type} (m : M F α) (B s : Nat) : m.Spends B 0 s := fun _ _ _ => Nat.zero_le _

omit [FloatOps F] in
theorem M.Spends.up {α : Type} {m : M F α} {B n s s' : Nat} (h : m.Spends B n s) (hs : s < s') :
    m.Spends B (n + 1) s' := fun st k e => by have := h st k e; omega

omit [FloatOps F] in
theorem M.Free.bind {α β : Type} {m : M F α} {f : α → M F β} (h : m.Free) (hf : ∀ a, (f a).Free) :
    (m >>= f).Free := by
  intro st k
  show (m st).next f ≠ _
  cases e : m st with
  | fuel j => exact absurd e (h st j)
  | done a st' => exact hf a st' k
  | _ => simp [Out.next]

omit [FloatOps F] in
theorem M.Spends.bind {α β : Type} {B n s : Nat} {m : M F α} {f : α → M F β} (h : m.Spends B n s)
    (hf : ∀ a, (f a).Spends B n s) : (m >>= f).Spends B n s := by
  intro st k
  show (m st).next f = _ → _
  cases e : m st with
  | fuel j => intro e'; cases e'; exact h st k e
  | done a st' => exact hf a st' k
  | _ => simp [Out.next]

omit [FloatOps F] in
theorem M.Spends.round {B n s s1 s2 : Nat} {m again : M F (Option (Val F))} (h : m.Spends B n s1)
    (ha : again.Spends B n s2) (h1 : s1 < s + B) (h2 : s2 < s + B) :
    M.Spends B (n + 1) s (fun st => (endRound again (m st)).tick) := by
  have key : ∀ o : Out F (Option (Val F)), (∀ k, o = .fuel k → n + 1 ≤ s + B + k * B) →
      ∀ k, o.tick = .fuel k → n + 1 ≤ s + k * B := by
    intro o ho k e
    cases o with
    | fuel j => cases e; have := ho j rfl; rw [Nat.add_mul]; omega
    | _ => cases e
  intro st
  refine key _ fun k e => ?_
  cases e' : m st with
  | fuel j => rw [e'] at e; cases e; have := h st k e'; omega
  | stuck => rw [e'] at e; cases e
  | fail msg w => rw [e'] at e; cases e
  | leave c st' =>
      rw [e'] at e
      cases c with
      | continua => have := ha st' k e; omega
      | _ => cases e
  | done a st' =>
      rw [e'] at e
      cases a with
      | none => have := ha st' k e; omega
      | some v => cases e

section
variable {F : Type}

theorem free_pure {α : Type} (a : α) : (pure a : M F α).Free := fun _ _ e => by cases e
theorem free_stuck {α : Type} : (M.stuck : M F α).Free := fun _ _ e => by cases e
theorem free_fail {α : Type} (msg : String) : (M.fail msg : M F α).Free := fun _ _ e => by cases e
theorem free_need {α : Type} (o : Option α) : (M.need o : M F α).Free := by
  cases o <;> intro _ _ e <;> cases e
theorem free_res {α : Type} (r : Res α) : (M.res r : M F α).Free := by
  rcases r with e | a
  · cases e <;> intro _ _ e <;> cases e
  · intro _ _ e; cases e
theorem free_heap : (M.heap : M F _).Free := fun _ _ e => by cases e
theorem free_alloc (c : Cell F) : (M.alloc c).Free := fun _ _ e => by cases e
theorem free_setHeap (h : Heap F) : (M.setHeap h).Free := fun _ _ e => by cases e
theorem free_clear (L : Lang) (k : ScopeId) : (clear L k : M F _).Free := fun _ _ e => by cases e
theorem free_leave {α : Type} (c : Ctl F) : M.Free (α := α) (fun st => .leave c st) := fun _ _ e => by cases e

theorem free_out {α : Type} (a : α) (f : St F → St F) : M.Free (fun st => .done a (f st)) := fun _ _ e => by cases e

theorem free_readVar (L : Lang) (id : SymId) : (readVar L id : M F _).Free := by
  intro st k
  unfold readVar
  split
  · simp
  · exact free_need _ st k

theorem free_writeVar (L : Lang) (id : SymId) (v : Option (Val F)) : (writeVar L id v).Free := by
  intro st k
  unfold writeVar
  split
  · simp
  · split <;> simp

theorem free_nameSym (L : Lang) (pos : Pos) (name : String) (id : Option SymId) : (nameSym L pos name id : M F _).Free :=
  free_need _

theorem free_truth (v : Val F) : (truth v).Free := by
  cases v <;> first | exact free_pure _ | exact free_stuck

theorem free_writeAll (L : Lang) : ∀ l : List (SymId × Val F), (writeAll L l).Free
  | [] => free_pure _
  | (_, _) :: rest => (free_writeVar L _ _).bind fun _ => free_writeAll L rest

theorem free_bindNames (L : Lang) (scope : ScopeId) : ∀ l, (bindNames L scope l : M F _).Free
  | [] => free_pure _
  | (_, _) :: rest => (free_readVar L _).bind fun _ => (free_need _).bind fun _ =>
      (free_writeVar L _ _).bind fun _ => free_bindNames L scope rest

end

theorem free_asIndex (v : Val F) : (asIndex v).Free := free_res _

/-- Steps that do not take fuel. -/
macro "free_leaf" : tactic => `(tactic|
  first
    | exact free_pure _
    | exact free_stuck
    | exact free_fail _
    | exact free_need _
    | exact free_res _
    | exact free_heap
    | exact free_alloc _
    | exact free_setHeap _
    | exact free_clear _ _
    | exact free_leave _
    | exact free_readVar _ _
    | exact free_writeVar _ _ _
    | exact free_nameSym _ _ _ _
    | exact free_truth _
    | exact free_asIndex _
    | exact free_writeAll _ _
    | exact free_bindNames _ _ _)

/-- One step of a proof that a step does not take fuel. -/
macro "free_step" : tactic => `(tactic|
  first
    | free_leaf
    | refine M.Free.bind ?_ (fun _ => ?_)
    | split)

theorem free_promote (t : Ty) (v : Val F) : (promote t v).Free := by
  unfold promote; repeat' free_step

theorem free_convert (a b : Ty) (v : Val F) : (convert a b v).Free := by
  unfold convert; repeat' free_step

omit [FloatOps F] in
theorem free_readField (o : Val F) (k : String) : (readField o k).Free := by
  unfold readField; repeat' free_step

omit [FloatOps F] in
theorem free_writeField (o : Val F) (k : String) (v : Val F) : (writeField o k v).Free := by
  unfold writeField; repeat' free_step

theorem free_fits (L : Lang) (pos : Pos) (c : ConsRef) (v : Val F) : (fits L pos c v).Free := by
  unfold fits; repeat' free_step

omit [FloatOps F] in
theorem free_bindParts (L : Lang) (c : ConsRef) (args : List SymId) (v : Val F) : (bindParts L c args v).Free := by
  unfold bindParts; repeat' free_step

omit [FloatOps F] in
theorem free_makeVariant (L : Lang) (pos : Pos) (v : VariantRef) (vs : List (Val F)) :
    (makeVariant L pos v vs).Free := by
  unfold makeVariant; repeat' free_step

omit [FloatOps F] in
theorem free_makeRecord (L : Lang) (pos : Pos) (name : String) (id : Option SymId) (fs : List (String × Val F)) :
    (makeRecord L pos name id fs).Free := by
  unfold makeRecord; repeat' free_step

theorem free_callLibrary (cfg : Cfg) (f : Val F) (args : List (Val F)) : (callLibrary cfg f args).Free := by
  intro st k
  unfold callLibrary
  split
  · split <;> simp
  · simp

omit [FloatOps F] in
theorem M.Spends.invoke {B n s : Nat} {depth : Nat} {d : FunDecl} {m : M F (Option (Val F))} (args : List (Val F))
    (h : m.Spends B n s) (hs : s < B) (s' : Nat) : (invoke depth d m args).Spends B (n + 1) s' := by
  intro st k
  unfold Source.invoke
  split
  · simp
  · split
    · simp
    · split
      case h_4 j e =>
        intro e'
        cases e'
        have := h _ j e
        rw [Nat.add_mul]; omega
      all_goals simp

theorem M.Spends.apply {B n s' : Nat} {cfg : Cfg} {L : Lang} {pos : Pos}
    {run : Pos → List TStmt → M F (Option (Val F))} (hB : ∀ m x d, L.funs m x = some d → sizeOf d.body < B)
    (h : ∀ p ss, (run p ss).Spends B n (sizeOf ss)) (name : String) (id : Option SymId) (vs : List (Val F)) :
    (apply cfg L pos run name id vs).Spends B (n + 1) s' := by
  unfold Source.apply
  refine .bind ((free_nameSym L pos name id).spends _ _ _) fun i => .bind ((free_need _).spends _ _ _) fun f => ?_
  split
  · next d e => exact .invoke vs (h _ _) (hB _ _ d e) _
  · exact .bind ((free_readVar L i).spends _ _ _) fun g => (free_callLibrary cfg g vs).spends _ _ _

/-- What evaluation spends its fuel on. -/
structure Spending (cfg : Cfg) (L : Lang) (B n : Nat) : Prop where
  e : ∀ pos e, M.Spends B n (sizeOf e) (evalE (F := F) cfg L n pos e)
  es : ∀ pos es, M.Spends B n (sizeOf es) (evalEs (F := F) cfg L n pos es)
  fields : ∀ pos es, M.Spends B n (sizeOf es) (evalFields (F := F) cfg L n pos es)
  d : ∀ pos d, M.Spends B n (sizeOf d) (evalD (F := F) cfg L n pos d)
  cases : ∀ pos id cs, M.Spends B n (sizeOf cs) (evalCases (F := F) cfg L n pos id cs)
  s : ∀ pos s, M.Spends B n (sizeOf s) (evalS (F := F) cfg L n pos s)
  ss : ∀ pos ss, M.Spends B n (sizeOf ss) (evalSs (F := F) cfg L n pos ss)
  b : ∀ pos b, M.Spends B n (sizeOf b) (evalB (F := F) cfg L n pos b)
  elses : ∀ pos es b, M.Spends B n (sizeOf es + sizeOf b) (evalElses (F := F) cfg L n pos es b)
  while' : ∀ pos c b, M.Spends B n (1 + sizeOf c + sizeOf b) (evalWhile (F := F) cfg L n pos c b)
  para : ∀ pos id s i b, M.Spends B n (1 + sizeOf s + sizeOf i + sizeOf b) (evalPara (F := F) cfg L n pos id s i b)
  paraStep : ∀ pos id s i b,
    M.Spends B n (2 + sizeOf s + sizeOf i + sizeOf b) (evalParaStep (F := F) cfg L n pos id s i b)
  inc : ∀ pos i, M.Spends B n (sizeOf i) (evalInc (F := F) cfg L n pos i)

macro "fuel_size" : tactic => `(tactic| first | omega | (simp; done) | (simp; omega))

/-- One step of a proof about what evaluation spends its fuel on. -/
macro "fuel_step" ih:ident hB:ident : tactic => `(tactic|
  first
    | (with_reducible refine M.Spends.up (($ih).e _ _) ?_; fuel_size)
    | (with_reducible refine M.Spends.up (($ih).es _ _) ?_; fuel_size)
    | (with_reducible refine M.Spends.up (($ih).fields _ _) ?_; fuel_size)
    | (with_reducible refine M.Spends.up (($ih).d _ _) ?_; fuel_size)
    | (with_reducible refine M.Spends.up (($ih).cases _ _ _) ?_; fuel_size)
    | (with_reducible refine M.Spends.up (($ih).s _ _) ?_; fuel_size)
    | (with_reducible refine M.Spends.up (($ih).ss _ _) ?_; fuel_size)
    | (with_reducible refine M.Spends.up (($ih).b _ _) ?_; fuel_size)
    | (with_reducible refine M.Spends.up (($ih).elses _ _ _) ?_; fuel_size)
    | (with_reducible refine M.Spends.up (($ih).while' _ _ _) ?_; fuel_size)
    | (with_reducible refine M.Spends.up (($ih).para _ _ _ _ _) ?_; fuel_size)
    | (with_reducible refine M.Spends.up (($ih).paraStep _ _ _ _ _) ?_; fuel_size)
    | (with_reducible refine M.Spends.up (($ih).inc _ _) ?_; fuel_size)
    | with_reducible exact M.Spends.apply $hB ($ih).ss _ _ _
    | exact M.Spends.round (($ih).ss _ _) (($ih).while' _ _ _) (by omega) (by omega)
    | exact M.Spends.round (($ih).ss _ _) (($ih).paraStep _ _ _ _ _) (by omega) (by omega)
    | with_reducible exact M.Free.spends (free_out _ _) _ _ _
    | with_reducible exact M.Free.spends (free_promote _ _) _ _ _
    | with_reducible exact M.Free.spends (free_convert _ _ _) _ _ _
    | with_reducible exact M.Free.spends (free_readField _ _) _ _ _
    | with_reducible exact M.Free.spends (free_writeField _ _ _) _ _ _
    | with_reducible exact M.Free.spends (free_fits _ _ _ _) _ _ _
    | with_reducible exact M.Free.spends (free_bindParts _ _ _ _) _ _ _
    | with_reducible exact M.Free.spends (free_makeVariant _ _ _ _) _ _ _
    | with_reducible exact M.Free.spends (free_makeRecord _ _ _ _ _) _ _ _
    | with_reducible exact M.Free.spends (by free_leaf) _ _ _
    | with_reducible refine M.Spends.bind ?_ (fun _ => ?_)
    | split)

set_option maxHeartbeats 2000000 in
theorem spending (cfg : Cfg) (L : Lang) {B : Nat} (h2 : 2 ≤ B)
    (hB : ∀ m x d, L.funs m x = some d → sizeOf d.body < B) : ∀ n, Spending (F := F) cfg L B n
  | 0 => by
      constructor <;> intros <;> exact M.Spends.zero _ _ _
  | n + 1 => by
      have ih := spending cfg L h2 hB n
      constructor
      · intro pos e
        cases e with
        | set l t v => cases t <;> simp only [evalE] <;> repeat' fuel_step ih hB
        | unwrap l o d => cases d <;> simp only [evalE] <;> repeat' fuel_step ih hB
        | path l v => cases v <;> simp only [evalE] <;> repeat' fuel_step ih hB
        | bin l op a b lt rt p =>
            simp only [evalE]
            split
            · next r neg _ => cases r <;> simp only [if_true, if_false, Bool.false_eq_true] <;> repeat' fuel_step ih hB
            · repeat' fuel_step ih hB
        | _ => simp only [evalE] <;> repeat' fuel_step ih hB
      · intro pos es
        cases es <;> simp only [evalEs] <;> repeat' fuel_step ih hB
      · intro pos es
        cases es with
        | nil => exact (free_pure _).spends _ _ _
        | cons e es => cases e <;> simp only [evalFields] <;> repeat' fuel_step ih hB
      · intro pos d
        cases d <;> simp only [evalD] <;> repeat' fuel_step ih hB
      · intro pos id cs
        rcases cs with _ | ⟨⟨⟩, _⟩ <;> simp only [evalCases] <;> repeat' fuel_step ih hB
      · intro pos s
        cases s with
        | expr e => cases e <;> simp only [evalS] <;> repeat' fuel_step ih hB
        | varDecl l n t o => rcases o with _ | ⟨⟨⟩⟩ <;> simp only [evalS] <;> repeat' fuel_step ih hB
        | retorna l o => cases o <;> simp only [evalS] <;> repeat' fuel_step ih hB
        | enquanto l c b => cases b; simp only [evalS]; repeat' fuel_step ih hB
        | para l n a z i b => cases b; simp only [evalS]; repeat' fuel_step ih hB
        | _ => simp only [evalS] <;> repeat' fuel_step ih hB
      · intro pos ss
        cases ss <;> simp only [evalSs] <;> repeat' fuel_step ih hB
      · intro pos b
        cases b; simp only [evalB]; repeat' fuel_step ih hB
      · intro pos es b
        rcases es with _ | ⟨⟨⟩, _⟩ <;> cases b <;> simp only [evalElses] <;> repeat' fuel_step ih hB
      · intro pos c b
        simp only [evalWhile]; repeat' fuel_step ih hB
      · intro pos id s i b
        simp only [evalPara]; repeat' fuel_step ih hB
      · intro pos id s i b
        simp only [evalParaStep]; repeat' fuel_step ih hB
      · intro pos i
        cases i <;> simp only [evalInc] <;> repeat' fuel_step ih hB

/-! ## Programs -/

theorem funcDecls_size : ∀ (ss : List TStmt) (d : SymId × ScopeId × List TStmt), d ∈ funcDecls ss →
    sizeOf d.2.2 ≤ sizeOf ss
  | [], d, h => by simp [funcDecls] at h
  | s :: rest, d, h => by
      have ih := funcDecls_size rest d
      cases s with
      | func l sym b =>
          obtain ⟨scope, body⟩ := b
          rcases List.mem_cons.1 h with rfl | h
          · simp; omega
          · have := ih h; simp; omega
      | _ => have := ih h; simp; omega

/-- The size of the statements of modules. -/
noncomputable def bodies : List Codegen.ModuleIn → Nat
  | [] => 0
  | m :: ms => sizeOf m.body + bodies ms

theorem bodies_mem {m : Codegen.ModuleIn} : ∀ {ms : List Codegen.ModuleIn}, m ∈ ms → sizeOf m.body ≤ bodies ms
  | x :: ms, h => by
      unfold bodies
      rcases List.mem_cons.1 h with rfl | h
      · omega
      · have := bodies_mem h; omega

theorem Prog.funs_size (P : Prog) (p x : String) (d : FunDecl) (h : P.funs p x = some d) :
    sizeOf d.body < bodies P.modules + 2 := by
  unfold Prog.funs Prog.find at h
  cases hf : P.modules.find? fun m => decide (m.path = p) with
  | none => rw [hf] at h; cases h
  | some m =>
      rw [hf] at h
      simp only at h
      split at h
      · cases h
      · obtain ⟨e, he, hd⟩ := List.exists_of_findSome?_eq_some h
        have h1 := funcDecls_size _ _ he
        have h2 := bodies_mem (List.mem_of_find?_eq_some hf)
        unfold declOf at hd
        split at hd
        · split at hd
          · cases hd; show sizeOf e.2.2 < _; omega
          · cases hd
        · cases hd

theorem Prog.evalModules_spends (cfg : Cfg) (P : Prog) {S B : Nat} (h2 : 2 ≤ B)
    (hB : ∀ m x d, P.funs m x = some d → sizeOf d.body < B) (n : Nat) :
    ∀ ms, (∀ m ∈ ms, sizeOf m.body ≤ S) → ∀ (st : St F) k, P.evalModules cfg n ms st = .fuel k → n ≤ S + k * B
  | [], _, st, k, h => by cases h
  | m :: ms, hm, st, k, h => by
      unfold Prog.evalModules at h
      cases e : P.evalModule cfg n m st with
      | done u st' =>
          rw [e] at h
          exact Prog.evalModules_spends cfg P h2 hB n ms (fun m h => hm m (List.mem_cons_of_mem _ h)) st' k h
      | fuel j =>
          rw [e] at h
          cases h
          unfold Prog.evalModule at e
          split at e
          · split at e <;> cases e
          · split at e
            case h_3 j e' =>
              cases e
              have h1 := (spending (F := F) cfg P.lang h2 hB n).ss _ _ _ _ e'
              have := hm m (by simp)
              omega
            all_goals cases e
      | _ => rw [e] at h; cases h

/-- A program that is out of fuel has used it up in calls and rounds of loops: besides a fixed amount,
each of these takes at most a fixed amount. -/
theorem Prog.eval_spends (cfg : Cfg) (P : Prog) (n : Nat) (inp : List String) (k : Nat)
    (h : (P.eval cfg n inp : Out F Unit) = .fuel k) : n ≤ bodies P.modules + k * (bodies P.modules + 2) :=
  P.evalModules_spends (F := F) cfg (by omega) P.funs_size n _ (fun _ => bodies_mem) _ k h

/-- A program that is out of fuel for any amount of it goes through any number of calls and rounds. -/
theorem Prog.eval_rounds (cfg : Cfg) (P : Prog) (inp : List String)
    (h : ∀ n, ∃ k, (P.eval cfg n inp : Out F Unit) = .fuel k) (r : Nat) :
    ∃ n k, (P.eval cfg n inp : Out F Unit) = .fuel k ∧ r ≤ k := by
  obtain ⟨k, hk⟩ := h (bodies P.modules + r * (bodies P.modules + 2))
  refine ⟨_, k, hk, ?_⟩
  have := P.eval_spends cfg _ inp k hk
  exact Nat.le_of_mul_le_mul_right (show r * (bodies P.modules + 2) ≤ k * (bodies P.modules + 2) by omega) (by omega)

end Source

end Amanda

import Verif.SourceProg

/-!
# More fuel does not change what a program means

The fuel of `Verif.Source` only makes the definitions total: once a run ends, it ends the same way with
any larger amount of fuel.
-/

namespace Amanda

namespace Source

variable {F : Type} [FloatOps F]

/-- Evaluation did not run out of fuel. -/
def Out.Ended {α : Type} (o : Out F α) : Prop := ∀ k, o ≠ .fuel k

omit [FloatOps F] in
theorem Out.Ended.tick {α : Type} {o : Out F α} (h : o.Ended) : o.tick = o := by
  cases o with
  | fuel k => exact absurd rfl (h k)
  | _ => rfl

omit [FloatOps F] in
theorem Out.tick_fuel {α : Type} {o : Out F α} {k : Nat} (h : o = .fuel k) : ∃ k, o.tick = .fuel k := by
  rw [h]; exact ⟨_, rfl⟩

omit [FloatOps F] in
theorem Out.Ended.of_tick {α : Type} {o : Out F α} (h : o.tick.Ended) : o.Ended :=
  fun k e => by obtain ⟨j, hj⟩ := Out.tick_fuel e; exact h j hj

/-- The second run ends like the first one, if the first one ends. -/
def M.Le {α : Type} (m m' : M F α) : Prop := ∀ st, (∃ k, m st = .fuel k) ∨ m st = m' st

omit [FloatOps F] in
theorem M.Le.refl {α : Type} (m : M F α) : m.Le m := fun _ => .inr rfl

omit [FloatOps F] in
theorem M.Le.fuel {α : Type} (m : M F α) : (M.fuel : M F α).Le m := fun _ => .inl ⟨0, rfl⟩

omit [FloatOps F] in
theorem M.Le.bind {α β : Type} {m m' : M F α} {f f' : α → M F β} (h : m.Le m') (k : ∀ a, (f a).Le (f' a)) :
    (m >>= f).Le (m' >>= f') := by
  intro st
  show (∃ k, (m st).next f = .fuel k) ∨ (m st).next f = (m' st).next f'
  rcases h st with ⟨k, e⟩ | e
  · rw [e]; exact .inl ⟨_, rfl⟩
  · rw [← e]
    cases m st with
    | stuck => exact .inr rfl
    | fuel n => exact .inl ⟨_, rfl⟩
    | fail msg w => exact .inr rfl
    | leave c st' => exact .inr rfl
    | done a st' => exact k a st'

omit [FloatOps F] in
theorem M.Le.tick {α : Type} {m m' : M F α} (h : m.Le m') : M.Le (fun st => (m st).tick) (fun st => (m' st).tick) := by
  intro st
  show (∃ k, (m st).tick = .fuel k) ∨ (m st).tick = (m' st).tick
  rcases h st with ⟨k, e⟩ | e
  · rw [e]; exact .inl ⟨_, rfl⟩
  · rw [e]; exact .inr rfl

omit [FloatOps F] in
theorem M.Le.round {m m' again again' : M F (Option (Val F))} (h : m.Le m') (k : again.Le again') :
    M.Le (fun st => (endRound again (m st)).tick) (fun st => (endRound again' (m' st)).tick) := by
  intro st
  show (∃ k, (endRound again (m st)).tick = .fuel k) ∨ (endRound again (m st)).tick = (endRound again' (m' st)).tick
  rcases h st with ⟨k, e⟩ | e
  · rw [e]; exact .inl ⟨_, rfl⟩
  · rw [← e]
    cases m st with
    | stuck => exact .inr rfl
    | fuel n => exact .inl ⟨_, rfl⟩
    | fail msg w => exact .inr rfl
    | leave c st' =>
        cases c with
        | quebra => exact .inr rfl
        | continua => exact k.tick st'
        | retorna v => exact .inr rfl
    | done a st' =>
        cases a with
        | none => exact k.tick st'
        | some v => exact .inr rfl

omit [FloatOps F] in
theorem M.Le.invoke {depth : Nat} {d : FunDecl} {m m' : M F (Option (Val F))} (h : m.Le m') (args : List (Val F)) :
    M.Le (invoke depth d m args) (invoke depth d m' args) := by
  intro st
  unfold Source.invoke
  split
  · exact .inr rfl
  · split
    · exact .inr rfl
    · rcases h { st with locals := fun i => assocGet (d.params.zip args) i } with ⟨k, e⟩ | e
      · rw [e]; exact .inl ⟨_, rfl⟩
      · rw [← e]; exact .inr rfl

theorem M.Le.apply {cfg : Cfg} {L : Lang} {pos : Pos} {run run' : Pos → List TStmt → M F (Option (Val F))}
    (h : ∀ p ss, (run p ss).Le (run' p ss)) (name : String) (id : Option SymId) (vs : List (Val F)) :
    M.Le (apply cfg L pos run name id vs) (apply cfg L pos run' name id vs) := by
  unfold Source.apply
  refine .bind (.refl _) fun i => .bind (.refl _) fun f => ?_
  split
  · exact .invoke (h _ _) _
  · exact .refl _

/-- Evaluation with fuel `n` ends like evaluation with fuel `m`, if it ends. -/
structure Mono (cfg : Cfg) (L : Lang) (n m : Nat) : Prop where
  e : ∀ pos e, M.Le (evalE (F := F) cfg L n pos e) (evalE cfg L m pos e)
  es : ∀ pos es, M.Le (evalEs (F := F) cfg L n pos es) (evalEs cfg L m pos es)
  fields : ∀ pos es, M.Le (evalFields (F := F) cfg L n pos es) (evalFields cfg L m pos es)
  d : ∀ pos d, M.Le (evalD (F := F) cfg L n pos d) (evalD cfg L m pos d)
  cases : ∀ pos id cs, M.Le (evalCases (F := F) cfg L n pos id cs) (evalCases cfg L m pos id cs)
  s : ∀ pos s, M.Le (evalS (F := F) cfg L n pos s) (evalS cfg L m pos s)
  ss : ∀ pos ss, M.Le (evalSs (F := F) cfg L n pos ss) (evalSs cfg L m pos ss)
  b : ∀ pos b, M.Le (evalB (F := F) cfg L n pos b) (evalB cfg L m pos b)
  elses : ∀ pos es b, M.Le (evalElses (F := F) cfg L n pos es b) (evalElses cfg L m pos es b)
  while' : ∀ pos c b, M.Le (evalWhile (F := F) cfg L n pos c b) (evalWhile cfg L m pos c b)
  para : ∀ pos id s i b, M.Le (evalPara (F := F) cfg L n pos id s i b) (evalPara cfg L m pos id s i b)
  paraStep : ∀ pos id s i b, M.Le (evalParaStep (F := F) cfg L n pos id s i b) (evalParaStep cfg L m pos id s i b)
  inc : ∀ pos i, M.Le (evalInc (F := F) cfg L n pos i) (evalInc cfg L m pos i)

/-- One step of a proof that a run ends like another one. -/
macro "mono_step" ih:ident : tactic => `(tactic|
  first
    | exact M.Le.refl _
    | exact ($ih).e _ _
    | exact ($ih).es _ _
    | exact ($ih).fields _ _
    | exact ($ih).d _ _
    | exact ($ih).cases _ _ _
    | exact ($ih).s _ _
    | exact ($ih).ss _ _
    | exact ($ih).b _ _
    | exact ($ih).elses _ _ _
    | exact ($ih).while' _ _ _
    | exact ($ih).para _ _ _ _ _
    | exact ($ih).paraStep _ _ _ _ _
    | exact ($ih).inc _ _
    | exact M.Le.apply ($ih).ss _ _ _
    | refine M.Le.round (($ih).ss _ _) ?_
    | refine M.Le.bind ?_ (fun _ => ?_)
    | split)

theorem mono_succ (cfg : Cfg) (L : Lang) : ∀ n, Mono (F := F) cfg L n (n + 1)
  | 0 => by
      constructor <;> intros <;> exact M.Le.fuel _
  | n + 1 => by
      have ih := mono_succ cfg L n
      constructor
      · intro pos e
        cases e with
        | set l t v => cases t <;> simp only [evalE] <;> repeat' mono_step ih
        | unwrap l o d => cases d <;> simp only [evalE] <;> repeat' mono_step ih
        | path l v => cases v <;> simp only [evalE] <;> repeat' mono_step ih
        | _ => simp only [evalE] <;> repeat' mono_step ih
      · intro pos es
        cases es <;> simp only [evalEs] <;> repeat' mono_step ih
      · intro pos es
        cases es with
        | nil => exact .refl _
        | cons e es => cases e <;> simp only [evalFields] <;> repeat' mono_step ih
      · intro pos d
        cases d <;> simp only [evalD] <;> repeat' mono_step ih
      · intro pos id cs
        rcases cs with _ | ⟨⟨⟩, _⟩ <;> simp only [evalCases] <;> repeat' mono_step ih
      · intro pos s
        cases s with
        | expr e => cases e <;> simp only [evalS] <;> repeat' mono_step ih
        | varDecl l n t o => rcases o with _ | ⟨⟨⟩⟩ <;> simp only [evalS] <;> repeat' mono_step ih
        | retorna l o => cases o <;> simp only [evalS] <;> repeat' mono_step ih
        | enquanto l c b => cases b; simp only [evalS]; repeat' mono_step ih
        | para l n a z i b => cases b; simp only [evalS]; repeat' mono_step ih
        | _ => simp only [evalS] <;> repeat' mono_step ih
      · intro pos ss
        cases ss <;> simp only [evalSs] <;> repeat' mono_step ih
      · intro pos b
        cases b; simp only [evalB]; repeat' mono_step ih
      · intro pos es b
        rcases es with _ | ⟨⟨⟩, _⟩ <;> cases b <;> simp only [evalElses] <;> repeat' mono_step ih
      · intro pos c b
        simp only [evalWhile]; repeat' mono_step ih
      · intro pos id s i b
        simp only [evalPara]; repeat' mono_step ih
      · intro pos id s i b
        simp only [evalParaStep]; repeat' mono_step ih
      · intro pos i
        cases i <;> simp only [evalInc] <;> repeat' mono_step ih

omit [FloatOps F] in
theorem M.Le.trans {α : Type} {a b c : M F α} (h : a.Le b) (k : b.Le c) : a.Le c := by
  intro st
  rcases h st with e | e
  · exact .inl e
  · rw [e]; exact k st

theorem mono (cfg : Cfg) (L : Lang) {n m : Nat} (h : n ≤ m) : Mono (F := F) cfg L n m := by
  induction h with
  | refl => constructor <;> intros <;> exact .refl _
  | step _ ih =>
      have k := mono_succ (F := F) cfg L
      constructor
      · exact fun p e => (ih.e p e).trans ((k _).e p e)
      · exact fun p e => (ih.es p e).trans ((k _).es p e)
      · exact fun p e => (ih.fields p e).trans ((k _).fields p e)
      · exact fun p e => (ih.d p e).trans ((k _).d p e)
      · exact fun p i e => (ih.cases p i e).trans ((k _).cases p i e)
      · exact fun p e => (ih.s p e).trans ((k _).s p e)
      · exact fun p e => (ih.ss p e).trans ((k _).ss p e)
      · exact fun p e => (ih.b p e).trans ((k _).b p e)
      · exact fun p e b => (ih.elses p e b).trans ((k _).elses p e b)
      · exact fun p e b => (ih.while' p e b).trans ((k _).while' p e b)
      · exact fun p i a z b => (ih.para p i a z b).trans ((k _).para p i a z b)
      · exact fun p i a z b => (ih.paraStep p i a z b).trans ((k _).paraStep p i a z b)
      · exact fun p e => (ih.inc p e).trans ((k _).inc p e)

theorem Prog.evalModule_mono (cfg : Cfg) (P : Prog) {n m : Nat} (h : n ≤ m) (mo : Codegen.ModuleIn) :
    M.Le (F := F) (P.evalModule cfg n mo) (P.evalModule cfg m mo) := by
  intro st
  unfold Prog.evalModule
  split
  · exact .inr rfl
  · rcases (mono cfg P.lang h).ss ⟨mo.path, some mo.scope, 1⟩ mo.body (st.begin mo.path []) with ⟨k, e⟩ | e
    · rw [e]; exact .inl ⟨_, rfl⟩
    · rw [← e]; exact .inr rfl

theorem Prog.evalModules_mono (cfg : Cfg) (P : Prog) {n m : Nat} (h : n ≤ m) :
    ∀ ms, M.Le (F := F) (P.evalModules cfg n ms) (P.evalModules cfg m ms)
  | [] => .refl _
  | mo :: ms => by
      intro st
      show (∃ k, P.evalModules cfg n (mo :: ms) st = .fuel k) ∨ P.evalModules cfg n (mo :: ms) st = P.evalModules cfg m (mo :: ms) st
      unfold Prog.evalModules
      rcases P.evalModule_mono (F := F) cfg h mo st with ⟨k, e⟩ | e
      · rw [e]; exact .inl ⟨_, rfl⟩
      · rw [← e]
        cases P.evalModule cfg n mo st with
        | done u st' => exact Prog.evalModules_mono cfg P h ms st'
        | _ => exact .inr rfl

/-- More fuel does not change how a program ends. -/
theorem Prog.eval_mono (cfg : Cfg) (P : Prog) (inp : List String) {n m : Nat} (h : n ≤ m) :
    (∃ k, (P.eval cfg n inp : Out F Unit) = .fuel k) ∨ (P.eval cfg n inp : Out F Unit) = P.eval cfg m inp :=
  P.evalModules_mono cfg h _ _

end Source

end Amanda

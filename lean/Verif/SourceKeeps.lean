import Verif.SourceMono

/-!
# Variables a piece of program does not set

`setsE`, `setsSs` and the others say whether a piece of program contains an assignment to a variable, a
declaration of it, a block it belongs in or a pattern that gives it a value.  If it does not, the variable keeps its value, if
it is a local one: calls have locals of their own.
-/

namespace Amanda

namespace Source

/-- The variable a name stands for. -/
def isName (env : SymEnv) (sc : Option ScopeId) (id : SymId) (name : String) : Bool :=
  decide (env.resolve sc name = some id)

mutual
/-- Whether an expression may set the variable `id`. -/
def setsE (env : SymEnv) (id : SymId) (sc : Option ScopeId) : TExpr → Bool
  | .const _ _ _ => false
  | .fmtStr _ parts => setsEs env id sc parts
  | .var _ _ _ _ => false
  | .converta _ e _ _ => setsE env id sc e
  | .alvo _ _ => false
  | .bin _ _ l r _ _ _ => setsE env id sc l || setsE env id sc r
  | .un _ _ e _ => setsE env id sc e
  | .assign _ sym r => decide (sym = id) || setsE env id sc r
  | .iguala _ d => setsD env id sc d
  | .call _ _ args _ _ => setsEs env id sc args
  | .list _ es => setsEs env id sc es
  | .named _ _ e => setsE env id sc e
  | .get _ t _ _ => setsE env id sc t
  | .index _ t i => setsE env id sc t || setsE env id sc i
  | .indexSet _ t i v => setsE env id sc t || setsE env id sc i || setsE env id sc v
  | .set _ t v => setsE env id sc t || setsE env id sc v
  | .unwrap _ o none => setsE env id sc o
  | .unwrap _ o (some d) => setsE env id sc o || setsE env id sc d
  | .path _ _ => false
def setsEs (env : SymEnv) (id : SymId) (sc : Option ScopeId) : List TExpr → Bool
  | [] => false
  | e :: es => setsE env id sc e || setsEs env id sc es
def setsD (env : SymEnv) (id : SymId) (sc : Option ScopeId) : Decision → Bool
  | .fail => false
  | .success bindings _ scope body =>
      decide (id ∈ env.ids scope) || bindings.any (fun p => isName env (some scope) id p.1) || setsSs env id (some scope) body
  | .switch _ cases _ => setsCases env id sc cases
def setsCases (env : SymEnv) (id : SymId) (sc : Option ScopeId) : List DCase → Bool
  | [] => false
  | .mk _ args body :: rest => decide (id ∈ args) || setsD env id sc body || setsCases env id sc rest
/-- Whether a statement may set the variable `id`. -/
def setsS (env : SymEnv) (id : SymId) (sc : Option ScopeId) : TStmt → Bool
  | .expr e => setsE env id sc e
  | .varDecl _ _ _ (some (.mk sym r)) => decide (sym = id) || setsE env id sc r
  | .varDecl _ name _ none => isName env sc id name
  | .loopCtl _ _ => false
  | .retorna _ none => false
  | .retorna _ (some e) => setsE env id sc e
  | .produz _ e => setsE env id sc e
  | .mostra _ e => setsE env id sc e
  | .se _ c t es e => setsE env id sc c || setsB env id t || setsElses env id sc es || setsOptB env id e
  | .enquanto _ c (.mk scope body) =>
      decide (id ∈ env.ids scope) || setsE env id (some scope) c || setsSs env id (some scope) body
  | .para _ name s t none (.mk scope body) =>
      decide (id ∈ env.ids scope) || isName env (some scope) id name || setsE env id (some scope) s || setsE env id (some scope) t ||
        setsSs env id (some scope) body
  | .para _ name s t (some i) (.mk scope body) =>
      decide (id ∈ env.ids scope) || isName env (some scope) id name || setsE env id (some scope) s || setsE env id (some scope) t ||
        setsE env id (some scope) i || setsSs env id (some scope) body
  | .func _ _ _ => false
  | .registo _ name _ => isName env sc id name
  | .uniao _ _ _ => false
  | .noop _ => false
def setsSs (env : SymEnv) (id : SymId) (sc : Option ScopeId) : List TStmt → Bool
  | [] => false
  | s :: ss => setsS env id sc s || setsSs env id sc ss
def setsB (env : SymEnv) (id : SymId) : TBlock → Bool
  | .mk scope body => decide (id ∈ env.ids scope) || setsSs env id (some scope) body
def setsOptB (env : SymEnv) (id : SymId) : Option TBlock → Bool
  | none => false
  | some b => setsB env id b
def setsElses (env : SymEnv) (id : SymId) (sc : Option ScopeId) : List TElse → Bool
  | [] => false
  | .mk c b :: rest => setsE env id sc c || setsB env id b || setsElses env id sc rest
end

/-- An increment. -/
def setsInc (env : SymEnv) (id : SymId) (sc : Option ScopeId) : Option TExpr → Bool
  | none => false
  | some e => setsE env id sc e

variable {F : Type} [FloatOps F]

/-- The local variable `id` is as in `st`. -/
def Out.Same {α : Type} (id : SymId) (st : St F) : Out F α → Prop
  | .done _ st' => st'.locals id = st.locals id
  | .leave _ st' => st'.locals id = st.locals id
  | _ => True

/-- The local variable `id` is as before, however this ends. -/
def M.Keeps {α : Type} (id : SymId) (m : M F α) : Prop := ∀ st, (m st).Same id st

section
variable {α β : Type} {id : SymId}

omit [FloatOps F] in
theorem M.Keeps.bind {m : M F α} {f : α → M F β} (h : m.Keeps id) (k : ∀ a, (f a).Keeps id) : (m >>= f).Keeps id := by
  intro st
  have h := h st
  change ((m st).next f).Same id st
  cases e : m st with
  | stuck => trivial
  | fuel n => trivial
  | fail msg w => trivial
  | leave c st' => rw [e] at h; exact h
  | done a st' =>
      rw [e] at h
      have k := k a st'
      simp only [Out.next]
      cases e2 : f a st' with
      | stuck => trivial
      | fuel n => trivial
      | fail msg w => trivial
      | leave c st2 => rw [e2] at k; exact k.trans h
      | done b st2 => rw [e2] at k; exact k.trans h

omit [FloatOps F] in
theorem M.Keeps.pure (a : α) : (pure a : M F α).Keeps id := fun _ => rfl
omit [FloatOps F] in
theorem M.Keeps.stuck : (M.stuck : M F α).Keeps id := fun _ => trivial

omit [FloatOps F] in
theorem M.Keeps.fuel : (M.fuel : M F α).Keeps id := fun _ => trivial
omit [FloatOps F] in
theorem M.Keeps.fail (msg : String) : (M.fail msg : M F α).Keeps id := fun _ => trivial
omit [FloatOps F] in
theorem M.Keeps.need (o : Option α) : (M.need o : M F α).Keeps id := by
  cases o with
  | none => exact .stuck
  | some a => exact .pure a
omit [FloatOps F] in
theorem M.Keeps.needThen {o : Option α} {f : α → M F β} (h : ∀ a, o = some a → (f a).Keeps id) :
    (M.need o >>= f).Keeps id := by
  cases o with
  | none => exact fun _ => trivial
  | some a => exact h a rfl
omit [FloatOps F] in
theorem M.Keeps.res (r : Res α) : (M.res r : M F α).Keeps id := by
  match r with
  | .ok a => exact .pure a
  | .error (.err msg) => exact .fail msg
  | .error .panic => exact .stuck
omit [FloatOps F] in
theorem M.Keeps.heap : (M.heap : M F (Heap F)).Keeps id := fun _ => rfl
omit [FloatOps F] in
theorem M.Keeps.alloc (c : Cell F) : (M.alloc c).Keeps id := fun _ => rfl
omit [FloatOps F] in
theorem M.Keeps.setHeap (h : Heap F) : (M.setHeap h).Keeps id := fun _ => rfl

omit [FloatOps F] in
theorem keeps_readVar (L : Lang) (i : SymId) : (readVar (F := F) L i).Keeps id := by
  intro st
  unfold readVar
  cases L.env.syms[i]? with
  | none => trivial
  | some s => exact M.Keeps.need _ st

omit [FloatOps F] in
theorem keeps_writeVar (L : Lang) {i : SymId} (v : Option (Val F)) (h : i ≠ id) : (writeVar L i v).Keeps id := by
  intro st
  unfold writeVar
  cases L.env.syms[i]? with
  | none => trivial
  | some s =>
      by_cases hg : s.isGlobal = true
      · simp only [hg, if_true]; rfl
      · have hne : id ≠ i := fun e => h e.symm
        simp only [hg, Out.Same, hne, if_false, Bool.false_eq_true]

omit [FloatOps F] in
theorem keeps_writeAll (L : Lang) : ∀ (l : List (SymId × Val F)), (∀ p ∈ l, p.1 ≠ id) → (writeAll L l).Keeps id
  | [], _ => .pure ()
  | (i, v) :: rest, h => .bind (keeps_writeVar L _ (h (i, v) (by simp)))
      fun _ => keeps_writeAll L rest fun p hp => h p (by simp [hp])

omit [FloatOps F] in
theorem keeps_bindParts (L : Lang) (c : ConsRef) {args : List SymId} (v : Val F) (h : id ∉ args) :
    (bindParts L c args v).Keeps id := by
  unfold bindParts
  split
  · split
    · exact .pure _
    · split
      · refine .bind .heap fun hp => ?_
        split
        · split
          · refine keeps_writeAll L _ fun p hp e => h ?_
            rw [← e]
            exact (List.of_mem_zip (a := p.1) (b := p.2) hp).1
          · exact .stuck
        · exact .stuck
      · exact .stuck
  · exact .pure _

omit [FloatOps F] in
theorem keeps_bindNames (L : Lang) (scope : ScopeId) : ∀ (l : List (String × SymId)),
    (l.any fun p => isName L.env (some scope) id p.1) = false → (bindNames (F := F) L scope l).Keeps id
  | [], _ => .pure ()
  | (name, i) :: rest, h => by
      simp only [List.any_cons, Bool.or_eq_false_iff] at h
      refine .bind (keeps_readVar L i) fun v => ?_
      refine .needThen fun b hb => .bind (keeps_writeVar L _ ?_) fun _ => keeps_bindNames L scope rest h.2
      rintro rfl
      simp [isName, hb] at h


theorem keeps_promote (prom : Ty) (v : Val F) : (promote prom v).Keeps id := by
  unfold promote
  split
  · exact .bind .heap fun _ => .res _
  · exact .pure _

theorem keeps_convert (a b : Ty) (v : Val F) : (convert a b v).Keeps id := by
  unfold convert
  split
  · exact .pure _
  · refine .bind (.need _) fun t => ?_
    split
    · refine .bind (.res _) fun _ => ?_
      split
      · exact .pure _
      · exact .fail _
    · exact .bind .heap fun _ => .res _

omit [FloatOps F] in
theorem keeps_nameSym (L : Lang) (pos : Pos) (name : String) (sym : Option SymId) :
    (nameSym (F := F) L pos name sym).Keeps id := .need _

omit [FloatOps F] in
theorem keeps_readField (o : Val F) (k : String) : (readField o k).Keeps id := by
  unfold readField
  split
  · refine .bind .heap fun _ => ?_
    split
    · exact .need _
    · exact .stuck
  · exact .stuck

omit [FloatOps F] in
theorem keeps_writeField (o : Val F) (k : String) (v : Val F) : (writeField o k v).Keeps id := by
  unfold writeField
  split
  · refine .bind .heap fun _ => ?_
    split
    · exact .setHeap _
    · exact .stuck
  · exact .stuck

theorem keeps_callLibrary (cfg : Cfg) (f : Val F) (args : List (Val F)) : (callLibrary cfg f args).Keeps id := by
  intro st
  unfold callLibrary
  cases f with
  | nativeFn module name =>
      simp only
      match callNative cfg module name args st.world with
      | .ok (v, w) => rfl
      | .error (.err msg, w) => trivial
      | .error (.panic, _) => trivial
  | _ => trivial

omit [FloatOps F] in
theorem keeps_invoke (depth : Nat) (d : FunDecl) (body : M F (Option (Val F))) (args : List (Val F)) :
    (invoke depth d body args).Keeps id := by
  intro st
  unfold invoke
  by_cases h1 : args.length ≠ d.params.length
  · rw [if_pos h1]; trivial
  · rw [if_neg h1]
    by_cases h2 : depth = recursionLimit
    · rw [if_pos h2]; trivial
    · rw [if_neg h2]
      match body { st with locals := fun i => assocGet (d.params.zip args) i } with
      | .done none st' => rfl
      | .done (some _) st' => trivial
      | .leave (.retorna v) st' => rfl
      | .leave .quebra st' => trivial
      | .leave .continua st' => trivial
      | .fail msg w => trivial
      | .stuck => trivial
      | .fuel _ => trivial

theorem keeps_fits (L : Lang) (pos : Pos) (c : ConsRef) (v : Val F) : (fits L pos c v).Keeps id := by
  unfold fits
  split
  · exact .bind (.res _) fun _ => .need _
  · exact .bind (.need _) fun _ => .bind (.res _) fun _ => .need _
  · exact .bind (.need _) fun _ => .bind (.need _) fun _ => .pure _
  · exact .stuck

omit [FloatOps F] in
theorem keeps_truth (v : Val F) : (truth v).Keeps id := by
  unfold truth
  split
  · exact .pure _
  · exact .stuck

theorem keeps_asIndex (v : Val F) : (asIndex v).Keeps id := .res _

omit [FloatOps F] in
theorem keeps_makeVariant (L : Lang) (pos : Pos) (v : VariantRef) (vs : List (Val F)) : (makeVariant L pos v vs).Keeps id := by
  unfold makeVariant
  refine .bind (.need _) fun _ => ?_
  split
  · exact .pure _
  · exact .bind (.alloc _) fun _ => .pure _

omit [FloatOps F] in
theorem keeps_makeRecord (L : Lang) (pos : Pos) (name : String) (i : Option SymId) (fs : List (String × Val F)) :
    (makeRecord L pos name i fs).Keeps id := by
  unfold makeRecord
  refine .bind (.need _) fun _ => .bind (keeps_readVar L _) fun _ => ?_
  split
  · exact .bind (.alloc _) fun _ => .pure _
  · exact .stuck

theorem keeps_apply (cfg : Cfg) (L : Lang) (pos : Pos) (run : Pos → List TStmt → M F (Option (Val F)))
    (name : String) (i : Option SymId) (vs : List (Val F)) : (apply cfg L pos run name i vs).Keeps id := by
  unfold apply
  refine .bind (.need _) fun _ => .bind (.need _) fun f => ?_
  split
  · exact keeps_invoke _ _ _ _
  · exact .bind (keeps_readVar L _) fun _ => keeps_callLibrary _ _ _

omit [FloatOps F] in
theorem M.Keeps.round {m again : M F (Option (Val F))} (h : m.Keeps id) (k : again.Keeps id) :
    M.Keeps id (fun st => (endRound again (m st)).tick) := by
  intro st
  have h := h st
  show (endRound again (m st)).tick.Same id st
  have go : ∀ st1, st1.locals id = st.locals id → (again st1).tick.Same id st := by
    intro st1 h1
    have := k st1
    cases e : again st1 with
    | stuck => trivial
    | fuel n => trivial
    | fail msg w => trivial
    | leave c st2 => rw [e] at this; exact this.trans h1
    | done a st2 => rw [e] at this; exact this.trans h1
  match e : m st with
  | .stuck => trivial
  | .fuel _ => trivial
  | .fail msg w => trivial
  | .leave .quebra st' => rw [e] at h; exact h
  | .leave .continua st' => rw [e] at h; exact go st' h
  | .leave (.retorna v) st' => rw [e] at h; exact h
  | .done none st' => rw [e] at h; exact go st' h
  | .done (some v) st' => trivial

end

/-- What does not set the variable `id` keeps it. -/
structure KeepsAll (cfg : Cfg) (L : Lang) (id : SymId) (n : Nat) : Prop where
  e : ∀ pos e, setsE L.env id pos.scope e = false → (evalE (F := F) cfg L n pos e).Keeps id
  es : ∀ pos es, setsEs L.env id pos.scope es = false → (evalEs (F := F) cfg L n pos es).Keeps id
  fields : ∀ pos es, setsEs L.env id pos.scope es = false → (evalFields (F := F) cfg L n pos es).Keeps id
  d : ∀ pos d, setsD L.env id pos.scope d = false → (evalD (F := F) cfg L n pos d).Keeps id
  cases : ∀ pos i cs, setsCases L.env id pos.scope cs = false → (evalCases (F := F) cfg L n pos i cs).Keeps id
  s : ∀ pos s, setsS L.env id pos.scope s = false → (evalS (F := F) cfg L n pos s).Keeps id
  ss : ∀ pos ss, setsSs L.env id pos.scope ss = false → (evalSs (F := F) cfg L n pos ss).Keeps id
  b : ∀ pos b, setsB L.env id b = false → (evalB (F := F) cfg L n pos b).Keeps id
  elses : ∀ pos es b, setsElses L.env id pos.scope es = false → setsOptB L.env id b = false →
    (evalElses (F := F) cfg L n pos es b).Keeps id
  while' : ∀ pos c b, setsE L.env id pos.scope c = false → setsSs L.env id pos.scope b = false →
    (evalWhile (F := F) cfg L n pos c b).Keeps id
  para : ∀ pos v s i b, v ≠ id → setsE L.env id pos.scope s = false → setsInc L.env id pos.scope i = false →
    setsSs L.env id pos.scope b = false → (evalPara (F := F) cfg L n pos v s i b).Keeps id
  paraStep : ∀ pos v s i b, v ≠ id → setsE L.env id pos.scope s = false → setsInc L.env id pos.scope i = false →
    setsSs L.env id pos.scope b = false → (evalParaStep (F := F) cfg L n pos v s i b).Keeps id
  inc : ∀ pos i, setsInc L.env id pos.scope i = false → (evalInc (F := F) cfg L n pos i).Keeps id

omit [FloatOps F] in
theorem keeps_clear {id : SymId} (L : Lang) (scope : ScopeId) (h : id ∉ L.env.ids scope) :
    (clear L scope : M F Unit).Keeps id := fun _ => if_neg h

/-- A condition on a part, from the conditions on the whole. -/
macro "part_of" h:ident : tactic => `(tactic|
  first
    | exact $h
    | exact ($h).1
    | exact ($h).2
    | exact ($h).1.1
    | exact ($h).1.2
    | exact ($h).1.1.1
    | exact ($h).1.1.2
    | exact ($h).1.1.1.1
    | exact ($h).1.1.1.2
    | exact ($h).1.1.1.1.1
    | exact ($h).1.1.1.1.2
    | assumption
    | rfl)

/-- One step of a proof that a variable is kept; conditions on parts are in `h`. -/
macro "keep_step" ih:ident h:ident : tactic => `(tactic|
  first
    | with_reducible exact M.Keeps.pure _
    | with_reducible exact M.Keeps.stuck
    | with_reducible exact M.Keeps.fuel
    | with_reducible exact M.Keeps.need _
    | with_reducible exact M.Keeps.res _
    | with_reducible exact M.Keeps.heap
    | with_reducible exact M.Keeps.alloc _
    | with_reducible exact M.Keeps.setHeap _
    | with_reducible exact M.Keeps.fail _
    | with_reducible exact keeps_promote _ _
    | with_reducible exact keeps_convert _ _ _
    | with_reducible exact keeps_nameSym _ _ _ _
    | with_reducible exact keeps_readVar _ _
    | with_reducible exact keeps_readField _ _
    | with_reducible exact keeps_writeField _ _ _
    | with_reducible exact keeps_makeVariant _ _ _ _
    | with_reducible exact keeps_makeRecord _ _ _ _ _
    | with_reducible exact keeps_apply _ _ _ _ _ _ _
    | with_reducible exact keeps_truth _
    | with_reducible exact keeps_asIndex _
    | with_reducible exact keeps_fits _ _ _ _
    | (with_reducible refine keeps_writeVar _ _ ?_); (first | part_of $h | (intro e; simp_all))
    | (with_reducible refine keeps_clear _ _ ?_); part_of $h
    | (with_reducible refine keeps_bindParts _ _ _ ?_); part_of $h
    | (with_reducible refine keeps_bindNames _ _ _ ?_); part_of $h
    | (with_reducible refine ($ih).e _ _ ?_); part_of $h
    | (with_reducible refine ($ih).es _ _ ?_); part_of $h
    | (with_reducible refine ($ih).fields _ _ ?_); part_of $h
    | (with_reducible refine ($ih).d _ _ ?_); part_of $h
    | (with_reducible refine ($ih).cases _ _ _ ?_); part_of $h
    | (with_reducible refine ($ih).s _ _ ?_); part_of $h
    | (with_reducible refine ($ih).ss _ _ ?_); part_of $h
    | (with_reducible refine ($ih).b _ _ ?_); part_of $h
    | (with_reducible refine ($ih).elses _ _ _ ?_ ?_) <;> part_of $h
    | (with_reducible refine ($ih).while' _ _ _ ?_ ?_) <;> part_of $h
    | (with_reducible refine ($ih).para _ _ _ _ _ ?_ ?_ ?_ ?_) <;> first | part_of $h | (intro e; simp_all)
    | (with_reducible refine ($ih).paraStep _ _ _ _ _ ?_ ?_ ?_ ?_) <;> part_of $h
    | (with_reducible refine ($ih).inc _ _ ?_); part_of $h
    | with_reducible refine M.Keeps.round ?_ ?_
    | with_reducible refine M.Keeps.needThen (fun _ _ => ?_)
    | with_reducible refine M.Keeps.bind ?_ (fun _ => ?_)
    | split
    | exact fun _ => rfl)

section
variable {cfg : Cfg} {L : Lang} {id : SymId} {n : Nat}

theorem keeps_e (ih : KeepsAll (F := F) cfg L id n) : ∀ pos e, setsE L.env id pos.scope e = false → (evalE (F := F) cfg L (n + 1) pos e).Keeps id := by
  intro pos e h
  cases e with
  | set l t v => cases t <;> simp only [setsE, Bool.or_eq_false_iff] at h <;> simp only [evalE] <;> repeat' keep_step ih h
  | unwrap l o d => cases d <;> simp only [setsE, Bool.or_eq_false_iff] at h <;> simp only [evalE] <;> repeat' keep_step ih h
  | path l v => cases v <;> simp only [evalE] <;> repeat' keep_step ih h
  | _ => simp only [setsE, Bool.or_eq_false_iff, decide_eq_false_iff_not] at h <;> simp only [evalE] <;> repeat' keep_step ih h

theorem keeps_es (ih : KeepsAll (F := F) cfg L id n) : ∀ pos es, setsEs L.env id pos.scope es = false → (evalEs (F := F) cfg L (n + 1) pos es).Keeps id := by
  intro pos es h
  cases es <;> simp only [setsEs, Bool.or_eq_false_iff] at h <;> simp only [evalEs] <;> repeat' keep_step ih h

theorem keeps_fields (ih : KeepsAll (F := F) cfg L id n) : ∀ pos es, setsEs L.env id pos.scope es = false → (evalFields (F := F) cfg L (n + 1) pos es).Keeps id := by
  intro pos es h
  cases es with
  | nil => exact .pure _
  | cons e es =>
      cases e <;> simp only [setsEs, setsE, Bool.or_eq_false_iff] at h <;> simp only [evalFields] <;> repeat' keep_step ih h

theorem keeps_d (ih : KeepsAll (F := F) cfg L id n) : ∀ pos d, setsD L.env id pos.scope d = false → (evalD (F := F) cfg L (n + 1) pos d).Keeps id := by
  intro pos d h
  cases d <;> simp only [setsD, Bool.or_eq_false_iff, decide_eq_false_iff_not] at h <;> simp only [evalD] <;> repeat' keep_step ih h

theorem keeps_cases (ih : KeepsAll (F := F) cfg L id n) : ∀ pos i cs, setsCases L.env id pos.scope cs = false → (evalCases (F := F) cfg L (n + 1) pos i cs).Keeps id := by
  intro pos i cs h
  rcases cs with _ | ⟨⟨⟩, _⟩ <;> simp only [setsCases, Bool.or_eq_false_iff, decide_eq_false_iff_not] at h <;>
    simp only [evalCases] <;> repeat' keep_step ih h

theorem keeps_s (ih : KeepsAll (F := F) cfg L id n) : ∀ pos s, setsS L.env id pos.scope s = false → (evalS (F := F) cfg L (n + 1) pos s).Keeps id := by
  intro pos s h
  cases s with
  | expr e => simp only [setsS] at h; cases e <;> simp only [evalS] <;> first | simp only [setsE] at h; repeat' keep_step ih h | repeat' keep_step ih h
  | varDecl l n t o =>
      rcases o with _ | ⟨⟨⟩⟩ <;> simp only [setsS, isName, Bool.or_eq_false_iff, decide_eq_false_iff_not] at h <;> simp only [evalS] <;> repeat' keep_step ih h
  | retorna l o => cases o <;> simp only [setsS] at h <;> simp only [evalS] <;> repeat' keep_step ih h
  | enquanto l c b => cases b; simp only [setsS, Bool.or_eq_false_iff, decide_eq_false_iff_not] at h; simp only [evalS]; repeat' keep_step ih h
  | para l n a z i b =>
      cases b; cases i <;> simp only [setsS, isName, Bool.or_eq_false_iff, decide_eq_false_iff_not] at h <;> simp only [evalS] <;> repeat' keep_step ih h
  | registo l n fs => simp only [setsS, isName, decide_eq_false_iff_not] at h; simp only [evalS]; repeat' keep_step ih h
  | _ => simp only [setsS, Bool.or_eq_false_iff] at h <;> simp only [evalS] <;> repeat' keep_step ih h

theorem keeps_ss (ih : KeepsAll (F := F) cfg L id n) : ∀ pos ss, setsSs L.env id pos.scope ss = false → (evalSs (F := F) cfg L (n + 1) pos ss).Keeps id := by
  intro pos ss h
  cases ss <;> simp only [setsSs, Bool.or_eq_false_iff] at h <;> simp only [evalSs] <;> repeat' keep_step ih h

theorem keeps_b (ih : KeepsAll (F := F) cfg L id n) : ∀ pos b, setsB L.env id b = false → (evalB (F := F) cfg L (n + 1) pos b).Keeps id := by
  intro pos b h
  cases b; simp only [setsB, Bool.or_eq_false_iff, decide_eq_false_iff_not] at h; simp only [evalB]; repeat' keep_step ih h

theorem keeps_elses (ih : KeepsAll (F := F) cfg L id n) : ∀ pos es b, setsElses L.env id pos.scope es = false → setsOptB L.env id b = false →
    (evalElses (F := F) cfg L (n + 1) pos es b).Keeps id := by
  intro pos es b h h2
  rcases es with _ | ⟨⟨⟩, _⟩ <;> cases b <;> simp only [setsElses, Bool.or_eq_false_iff] at h <;> simp only [evalElses] <;> repeat' keep_step ih h

theorem keeps_while' (ih : KeepsAll (F := F) cfg L id n) : ∀ pos c b, setsE L.env id pos.scope c = false → setsSs L.env id pos.scope b = false →
    (evalWhile (F := F) cfg L (n + 1) pos c b).Keeps id := by
  intro pos c b h h2
  simp only [evalWhile]; repeat' keep_step ih h

theorem keeps_para (ih : KeepsAll (F := F) cfg L id n) : ∀ pos v s i b, v ≠ id →
    setsE L.env id pos.scope s = false → setsInc L.env id pos.scope i = false →
    setsSs L.env id pos.scope b = false → (evalPara (F := F) cfg L (n + 1) pos v s i b).Keeps id := by
  intro pos v s i b hv h h2 h3
  simp only [evalPara]; repeat' keep_step ih h

theorem keeps_paraStep (ih : KeepsAll (F := F) cfg L id n) : ∀ pos v s i b, v ≠ id → setsE L.env id pos.scope s = false → setsInc L.env id pos.scope i = false →
    setsSs L.env id pos.scope b = false → (evalParaStep (F := F) cfg L (n + 1) pos v s i b).Keeps id := by
  intro pos v s i b hv h h2 h3
  simp only [evalParaStep]; repeat' keep_step ih h

theorem keeps_inc (ih : KeepsAll (F := F) cfg L id n) : ∀ pos i, setsInc L.env id pos.scope i = false → (evalInc (F := F) cfg L (n + 1) pos i).Keeps id := by
  intro pos i h
  cases i <;> simp only [evalInc] <;> repeat' keep_step ih h

end

theorem keeps_all (cfg : Cfg) (L : Lang) (id : SymId) : ∀ n, KeepsAll (F := F) cfg L id n
  | 0 => by constructor <;> intros <;> exact M.Keeps.fuel
  | n + 1 =>
      have ih := keeps_all cfg L id n
      ⟨keeps_e ih, keeps_es ih, keeps_fields ih, keeps_d ih, keeps_cases ih, keeps_s ih, keeps_ss ih, keeps_b ih, keeps_elses ih, keeps_while' ih, keeps_para ih, keeps_paraStep ih, keeps_inc ih⟩

end Source

end Amanda

import Verif.Syntax
import Verif.Transform
import Verif.Source

/-!
# Functions and `retorna`: `has_return` of amanda/compiler/check/core.py

`has_return` runs on the tree of the parser, before the body of a function is visited
(core.py:573-579).  What a body does is given by `Verif.Source` on the annotated tree.  `Annotates`
relates the two: which annotated statements may come from a statement.  It fixes the control structure
and leaves expressions, names and lines open.
-/

namespace Amanda

/-- `isinstance(arm.pattern, ast.BindingPattern)` (core.py:118). -/
def Pat.isBinding : Pat → Bool
  | .bind _ => true
  | _ => false

mutual
/-- `has_return` (core.py:79-86) on the statements of a block.  `general_check` (core.py:136-137)
answers for every node without a method of its own; an expression used as a statement is its own node,
so an `Iguala` gets `has_return_iguala`.  `has_return_se` (core.py:95-105) does not look at the
`senaose` branches; `has_return_enquanto` and `has_return_para` (core.py:127-131) look at the body. -/
def Stmt.hasReturn : Stmt → Bool
  | .retorna _ _ => true
  | .se _ _ _ _ none => false
  | .se _ _ thenB _ (some elseB) => Stmt.anyReturn thenB && Stmt.anyReturn elseB
  | .enquanto _ _ body => Stmt.anyReturn body
  | .para _ _ _ _ _ body => Stmt.anyReturn body
  | .expr (.iguala _ _ arms) => Arm.allReturn arms && Arm.someBinding arms
  | .expr _ => false
  | .varDecl _ _ _ _ => false
  | .loopCtl _ => false
  | .produz _ _ => false
  | .mostra _ _ => false
  | .escolha _ _ _ _ => false
  | .func _ _ _ _ _ _ => false
  | .method _ _ _ _ _ _ _ => false
  | .registo _ _ _ _ => false
  | .uniao _ _ _ _ => false
  | .usa _ _ _ => false
/-- `has_return_block` (core.py:88-93). -/
def Stmt.anyReturn : List Stmt → Bool
  | [] => false
  | s :: ss => s.hasReturn || Stmt.anyReturn ss
/-- The first conjunct of `has_return_iguala` (core.py:110-120): every arm's block has one
(core.py:107-108). -/
def Arm.allReturn : List Arm → Bool
  | [] => true
  | .mk _ _ _ body :: rest => Stmt.anyReturn body && Arm.allReturn rest
/-- The second: some arm binds a name. -/
def Arm.someBinding : List Arm → Bool
  | [] => false
  | .mk _ pat _ _ :: rest => pat.isBinding || Arm.someBinding rest
end

/-- The test of `validate_return` (core.py:528-535) on a function with this body: `vazio` tells
whether the declared type is the empty one. -/
def validReturn (body : List Stmt) (vazio : Bool) : Bool :=
  Stmt.anyReturn body || vazio

/-! ## Annotated bodies -/

mutual
/-- The annotated statement may come from the statement.  `produz` has no rule: it is allowed only as
the last statement of an arm of an `iguala` (core.py:1077-1083), see `AnnotatesAll`. -/
inductive Annotates : Stmt → TStmt → Prop where
  | expr {e te} (h : ∀ t x arms, e ≠ .iguala t x arms) (h' : ∀ l d, te ≠ .iguala l d) : Annotates (.expr e) (.expr te)
  | iguala {t x arms l d} (h : Decides arms d) : Annotates (.expr (.iguala t x arms)) (.expr (.iguala l d))
  | varDecl {t n ty a l m ty' a'} : Annotates (.varDecl t n ty a) (.varDecl l m ty' a')
  | loopCtl {t l b} : Annotates (.loopCtl t) (.loopCtl l b)
  | retorna {t e l te} (h : e.isSome = te.isSome) : Annotates (.retorna t e) (.retorna l te)
  | mostra {t e l te} : Annotates (.mostra t e) (.mostra l te)
  | seOnly {t c b elsifs l tc sc tb telsifs} (hb : AnnotatesAll false b tb) (he : AnnotatesElses elsifs telsifs) :
      Annotates (.se t c b elsifs none) (.se l tc (.mk sc tb) telsifs none)
  | seElse {t c b elsifs e l tc sc tb telsifs sc' te} (hb : AnnotatesAll false b tb)
      (he : AnnotatesElses elsifs telsifs) (hd : AnnotatesAll false e te) :
      Annotates (.se t c b elsifs (some e)) (.se l tc (.mk sc tb) telsifs (some (.mk sc' te)))
  | enquanto {t c b l tc sc tb} (hb : AnnotatesAll false b tb) : Annotates (.enquanto t c b) (.enquanto l tc (.mk sc tb))
  | para {t n x y i b l m tx ty ti sc tb} (hb : AnnotatesAll false b tb) :
      Annotates (.para t n x y i b) (.para l m tx ty ti (.mk sc tb))
  | escolhaOnly {t c cases l tc ty tcases} (hc : AnnotatesCases cases tcases) :
      Annotates (.escolha t c cases none) (transformEscolha ⟨l, tc, ty, tcases, none⟩)
  | escolhaElse {t c cases d l tc ty tcases sc td} (hc : AnnotatesCases cases tcases) (hd : AnnotatesAll false d td) :
      Annotates (.escolha t c cases (some d)) (transformEscolha ⟨l, tc, ty, tcases, some (.mk sc td)⟩)
  | func {n ps r b nat anns l s tb} : Annotates (.func n ps r b nat anns) (.func l s tb)
  | method {gs ty n ps r b anns l s tb} : Annotates (.method gs ty n ps r b anns) (.func l s tb)
  | registo {n gs fs anns l m tfs} : Annotates (.registo n gs fs anns) (.registo l m tfs)
  | uniao {n gs vs anns l m tvs} : Annotates (.uniao n gs vs anns) (.uniao l m tvs)
  | usa {t m mode l} : Annotates (.usa t m mode) (.noop l)
/-- Statement by statement; at the end of an arm (`arm = true`) there may be a `produz`. -/
inductive AnnotatesAll : Bool → List Stmt → List TStmt → Prop where
  | nil {arm} : AnnotatesAll arm [] []
  | cons {arm s ts ss tss} (h : Annotates s ts) (hs : AnnotatesAll arm ss tss) : AnnotatesAll arm (s :: ss) (ts :: tss)
  | produz {t e l te} : AnnotatesAll true [.produz t e] [.produz l te]
inductive AnnotatesElses : List ElseIf → List TElse → Prop where
  | nil : AnnotatesElses [] []
  | cons {t c b tc sc tb es tes} (h : AnnotatesAll false b tb) (hs : AnnotatesElses es tes) :
      AnnotatesElses (.mk t c b :: es) (.mk tc (.mk sc tb) :: tes)
inductive AnnotatesCases : List ElseIf → List TCase → Prop where
  | nil : AnnotatesCases [] []
  | cons {t c b tc ty sc tb es tes} (h : AnnotatesAll false b tb) (hs : AnnotatesCases es tes) :
      AnnotatesCases (.mk t c b :: es) (⟨tc, ty, .mk sc tb⟩ :: tes)
/-- The leaves of the decision tree are arms of the `iguala`. -/
inductive Decides : List Arm → Decision → Prop where
  | fail {arms} : Decides arms .fail
  | success {arms t p bt b bs l sc tb} (hm : Arm.mk t p bt b ∈ arms) (hb : AnnotatesAll true b tb) :
      Decides arms (.success bs l sc tb)
  | switch {arms x cases fb} (hc : DecidesAll arms cases) : Decides arms (.switch x cases fb)
inductive DecidesAll : List Arm → List DCase → Prop where
  | nil {arms} : DecidesAll arms []
  | cons {arms c args d rest} (h : Decides arms d) (hs : DecidesAll arms rest) :
      DecidesAll arms (.mk c args d :: rest)
end

/-! ## Bodies on which `has_return` is right -/

mutual
/-- Whether `retorna` occurs among the statements, in blocks of any depth. -/
def Stmt.mentions : Stmt → Bool
  | .retorna _ _ => true
  | .se _ _ thenB elsifs none => Stmt.mentionsAny thenB || ElseIf.mentionsAny elsifs
  | .se _ _ thenB elsifs (some e) => Stmt.mentionsAny thenB || ElseIf.mentionsAny elsifs || Stmt.mentionsAny e
  | .enquanto _ _ body => Stmt.mentionsAny body
  | .para _ _ _ _ _ body => Stmt.mentionsAny body
  | .expr (.iguala _ _ arms) => Arm.mentionsAny arms
  | .escolha _ _ cases none => ElseIf.mentionsAny cases
  | .escolha _ _ cases (some d) => ElseIf.mentionsAny cases || Stmt.mentionsAny d
  | _ => false
def Stmt.mentionsAny : List Stmt → Bool
  | [] => false
  | s :: ss => s.mentions || Stmt.mentionsAny ss
def ElseIf.mentionsAny : List ElseIf → Bool
  | [] => false
  | .mk _ _ b :: es => Stmt.mentionsAny b || ElseIf.mentionsAny es
def Arm.mentionsAny : List Arm → Bool
  | [] => false
  | .mk _ _ _ b :: es => Stmt.mentionsAny b || Arm.mentionsAny es
end

mutual
/-- No `retorna` inside a loop; and if both the first branch of an `se` and its `senao` contain
`retorna`, every `senaose` branch passes the check `has_return` makes on the other two. -/
def Stmt.plain : Stmt → Bool
  | .se _ _ thenB elsifs (some e) =>
      (!(Stmt.mentionsAny thenB && Stmt.mentionsAny e) || ElseIf.allSure elsifs) &&
        Stmt.allPlain thenB && Stmt.allPlain e
  | .enquanto _ _ body => !Stmt.mentionsAny body
  | .para _ _ _ _ _ body => !Stmt.mentionsAny body
  | .expr (.iguala _ _ arms) => Arm.allPlain arms
  | _ => true
def Stmt.allPlain : List Stmt → Bool
  | [] => true
  | s :: ss => s.plain && Stmt.allPlain ss
def ElseIf.allSure : List ElseIf → Bool
  | [] => true
  | .mk _ _ b :: es => Stmt.anyReturn b && Stmt.allPlain b && ElseIf.allSure es
def Arm.allPlain : List Arm → Bool
  | [] => true
  | .mk _ _ _ b :: es => Stmt.allPlain b && Arm.allPlain es
end

mutual
theorem Stmt.mentions_of_hasReturn : ∀ s : Stmt, s.hasReturn = true → s.mentions = true
  | .retorna _ _, _ => rfl
  | .se _ _ _ _ none, h => by simp [Stmt.hasReturn] at h
  | .se _ _ t _ (some e), h => by
      simp only [Stmt.hasReturn, Bool.and_eq_true] at h
      simp [Stmt.mentions, Stmt.mentions_of_anyReturn t h.1]
  | .enquanto _ _ b, h => by
      simp only [Stmt.hasReturn] at h; simpa [Stmt.mentions] using Stmt.mentions_of_anyReturn b h
  | .para _ _ _ _ _ b, h => by
      simp only [Stmt.hasReturn] at h; simpa [Stmt.mentions] using Stmt.mentions_of_anyReturn b h
  | .expr (.iguala _ _ arms), h => by
      simp only [Stmt.hasReturn, Bool.and_eq_true] at h
      simpa [Stmt.mentions] using Arm.mentions_of_allReturn arms h.1 h.2
  | .expr (.const _), h | .expr (.fmtStr _ _), h | .expr (.var _), h | .expr (.converta _ _ _), h
  | .expr (.alvo _), h | .expr (.bin _ _ _), h | .expr (.un _ _), h | .expr (.assign _ _ _), h
  | .expr (.call _ _), h | .expr (.list _ _ _), h | .expr (.named _ _), h | .expr (.get _ _), h
  | .expr (.index _ _ _), h | .expr (.indexSet _ _ _), h | .expr (.set _ _), h | .expr (.path _), h => by
      simp [Stmt.hasReturn] at h
  | .varDecl _ _ _ _, h | .loopCtl _, h | .produz _ _, h | .mostra _ _, h | .escolha _ _ _ _, h
  | .func _ _ _ _ _ _, h | .method _ _ _ _ _ _ _, h | .registo _ _ _ _, h | .uniao _ _ _ _, h
  | .usa _ _ _, h => by simp [Stmt.hasReturn] at h
theorem Stmt.mentions_of_anyReturn : ∀ ss : List Stmt, Stmt.anyReturn ss = true → Stmt.mentionsAny ss = true
  | [], h => by simp [Stmt.anyReturn] at h
  | s :: ss, h => by
      simp only [Stmt.anyReturn, Bool.or_eq_true] at h
      rcases h with h | h
      · simp [Stmt.mentionsAny, Stmt.mentions_of_hasReturn s h]
      · simp [Stmt.mentionsAny, Stmt.mentions_of_anyReturn ss h]
theorem Arm.mentions_of_allReturn : ∀ arms : List Arm, Arm.allReturn arms = true → Arm.someBinding arms = true →
    Arm.mentionsAny arms = true
  | [], _, h => by simp [Arm.someBinding] at h
  | .mk _ _ _ b :: rest, h, _ => by
      simp only [Arm.allReturn, Bool.and_eq_true] at h
      simp [Arm.mentionsAny, Stmt.mentions_of_anyReturn b h.1]
end

theorem Arm.plain_of_mem {t p bt b} : ∀ {arms : List Arm}, Arm.allPlain arms = true → Arm.mk t p bt b ∈ arms →
    Stmt.allPlain b = true
  | .mk _ _ _ _ :: _, h, hm => by
      simp only [Arm.allPlain, Bool.and_eq_true] at h
      rcases List.mem_cons.mp hm with he | hm
      · cases he; exact h.1
      · exact Arm.plain_of_mem h.2 hm

theorem Arm.returns_of_mem {t p bt b} : ∀ {arms : List Arm}, Arm.allReturn arms = true → Arm.mk t p bt b ∈ arms →
    Stmt.anyReturn b = true
  | .mk _ _ _ _ :: _, h, hm => by
      simp only [Arm.allReturn, Bool.and_eq_true] at h
      rcases List.mem_cons.mp hm with he | hm
      · cases he; exact h.1
      · exact Arm.returns_of_mem h.2 hm

/-! ## Evaluation -/

namespace Source

section
variable {F : Type}

/-- `m` never ends with a value given by `produz`. -/
def M.Mute (m : M F (Option (Val F))) : Prop := ∀ st v st', m st ≠ .done (some v) st'

/-- `m` never comes to its end. -/
def M.Away {α : Type} (m : M F α) : Prop := ∀ st o st', m st ≠ .done o st'

theorem M.Mute.bind {α : Type} {m : M F α} {f : α → M F (Option (Val F))} (h : ∀ a, (f a).Mute) : (m >>= f).Mute := by
  intro st v st' he
  change (m st).next f = _ at he
  cases hm : m st with
  | done a s => rw [hm] at he; exact h a s v st' he
  | _ => rw [hm] at he; cases he

theorem M.Away.bind {α β : Type} {m : M F α} {f : α → M F β} (h : ∀ a, (f a).Away) : (m >>= f).Away := by
  intro st v st' he
  change (m st).next f = _ at he
  cases hm : m st with
  | done a s => rw [hm] at he; exact h a s v st' he
  | _ => rw [hm] at he; cases he

theorem M.Away.first {α β : Type} {m : M F α} {f : α → M F β} (h : m.Away) : (m >>= f).Away := by
  intro st v st' he
  change (m st).next f = _ at he
  cases hm : m st with
  | done a s => exact h st a s hm
  | _ => rw [hm] at he; cases he

theorem M.Mute.none : (pure none : M F (Option (Val F))).Mute := fun _ _ _ h => by cases h

theorem M.Mute.stuck : (M.stuck : M F (Option (Val F))).Mute := fun _ _ _ h => by cases h

theorem M.Away.stuck {α : Type} : (M.stuck : M F α).Away := fun _ _ _ h => by cases h

theorem M.Mute.fuel : (M.fuel : M F (Option (Val F))).Mute := fun _ _ _ h => by cases h

theorem M.Away.fuel {α : Type} : (M.fuel : M F α).Away := fun _ _ _ h => by cases h

theorem M.Mute.ite {c : Prop} [Decidable c] {a b : M F (Option (Val F))} (ha : a.Mute) (hb : b.Mute) :
    (if c then a else b).Mute := by split <;> assumption

theorem M.Away.ite {α : Type} {c : Prop} [Decidable c] {a b : M F α} (ha : a.Away) (hb : b.Away) :
    (if c then a else b).Away := by split <;> assumption

theorem Out.tick_done {α : Type} {o : Out F α} {x : α} {st : St F} (h : o.tick = .done x st) : o = .done x st := by
  cases o <;> first | exact h | cases h

theorem M.Mute.round {m again : M F (Option (Val F))} (h : again.Mute) :
    M.Mute (fun st => (endRound again (m st)).tick) := by
  intro st v st' he
  have he := Out.tick_done he
  simp only [endRound] at he
  split at he <;> first | exact h _ _ _ he | cases he

end

variable {F : Type} [FloatOps F]

/-- Loops give no value. -/
theorem mute_loops (cfg : Cfg) (L : Lang) : ∀ n pos, (∀ c b, (evalWhile (F := F) cfg L n pos c b).Mute) ∧
    (∀ i s k b, (evalPara (F := F) cfg L n pos i s k b).Mute) ∧
    (∀ i s k b, (evalParaStep (F := F) cfg L n pos i s k b).Mute)
  | 0, _ => ⟨fun _ _ => by rw [evalWhile]; exact .fuel, fun _ _ _ _ => by rw [evalPara]; exact .fuel,
      fun _ _ _ _ => by rw [evalParaStep]; exact .fuel⟩
  | n + 1, pos => by
      obtain ⟨hw, hp, hs⟩ := mute_loops cfg L n pos
      refine ⟨fun c b => ?_, fun i s k b => ?_, fun i s k b => ?_⟩
      · rw [evalWhile]
        exact .bind fun _ => .bind fun _ => .ite (.round (hw c b)) .none
      · rw [evalPara]
        exact .bind fun _ => .bind fun _ => .bind fun _ => .bind fun _ => .ite (.round (hs i s k b)) .none
      · rw [evalParaStep]
        exact .bind fun _ => .bind fun _ => .bind fun _ => .bind fun _ => hp i s k b

/-- With fuel `n`: statements give no value. -/
structure Mutes (F : Type) [FloatOps F] (cfg : Cfg) (L : Lang) (n : Nat) : Prop where
  s : ∀ {pos s ts}, Annotates s ts → (evalS (F := F) cfg L n pos ts).Mute
  ss : ∀ {pos ss tss}, AnnotatesAll false ss tss → (evalSs (F := F) cfg L n pos tss).Mute
  b : ∀ {pos ss sc tss}, AnnotatesAll false ss tss → (evalB (F := F) cfg L n pos (.mk sc tss)).Mute
  elses : ∀ {pos es tes}, AnnotatesElses es tes → (evalElses (F := F) cfg L n pos tes none).Mute
  elsesE : ∀ {pos es tes ss sc tss}, AnnotatesElses es tes → AnnotatesAll false ss tss →
    (evalElses (F := F) cfg L n pos tes (some (.mk sc tss))).Mute

theorem cases_elses {e : TEscolha} {cases : List ElseIf} {tcases : List TCase} (h : AnnotatesCases cases tcases) :
    AnnotatesElses cases (tcases.map fun c => .mk (e.test c) c.block) := by
  induction cases generalizing tcases with
  | nil => cases h; exact .nil
  | cons c cs ih => cases h with | cons h hs => exact .cons h (ih hs)

theorem mutes (cfg : Cfg) (L : Lang) : ∀ n, Mutes F cfg L n
  | 0 => ⟨fun _ => by rw [evalS]; exact .fuel, fun _ => by rw [evalSs]; exact .fuel,
      fun _ => by rw [evalB]; exact .fuel, fun _ => by rw [evalElses]; exact .fuel,
      fun _ _ => by rw [evalElses]; exact .fuel⟩
  | n + 1 => by
      have ih := mutes cfg L n
      refine ⟨fun {pos s ts} h => ?_, fun {pos ss tss} h => ?_, fun {pos ss sc tss} h => ?_,
        fun {pos es tes} h => ?_, fun {pos es tes ss sc tss} h hd => ?_⟩
      · cases h with
        | @expr e te he hte =>
            cases te with
            | iguala l d => exact absurd rfl (hte l d)
            | _ => simp only [evalS]; exact .bind fun _ => .none
        | iguala h => simp only [evalS]; exact .bind fun _ => .none
        | @varDecl t m ty a l m' ty' a' =>
            cases a' with
            | none => simp only [evalS]; exact .bind fun _ => .bind fun _ => .none
            | some a => cases a; simp only [evalS]; exact .bind fun _ => .bind fun _ => .none
        | loopCtl => simp only [evalS]; intro _ _ _ h; cases h
        | @retorna t e l te h =>
            cases te <;> simp only [evalS]
            · intro _ _ _ h; cases h
            · exact .bind fun _ _ _ _ h => by cases h
        | mostra => simp only [evalS]; exact .bind fun _ => .bind fun _ => .bind fun _ _ _ _ h => by cases h
        | seOnly hb he => simp only [evalS]; exact .bind fun _ => .bind fun _ => .ite (ih.b hb) (ih.elses he)
        | seElse hb he hd => simp only [evalS]; exact .bind fun _ => .bind fun _ => .ite (ih.b hb) (ih.elsesE he hd)
        | enquanto hb => simp only [evalS]; exact .bind fun _ => (mute_loops cfg L n _).1 _ _
        | para hb =>
            simp only [evalS]
            exact .bind fun _ => .bind fun _ => .bind fun _ => .bind fun _ => (mute_loops cfg L n _).2.1 _ _ _ _
        | escolhaOnly hc =>
            cases hc with
            | nil => simp only [transformEscolha, evalS]; exact .none
            | cons h hs =>
                simp only [transformEscolha, evalS]
                exact .bind fun _ => .bind fun _ => .ite (ih.b h) (ih.elses (cases_elses hs))
        | escolhaElse hc hd =>
            cases hc with
            | nil =>
                simp only [transformEscolha, evalS]
                exact .bind fun _ => .bind fun _ => .ite (ih.b hd) (ih.elses .nil)
            | cons h hs =>
                simp only [transformEscolha, evalS]
                exact .bind fun _ => .bind fun _ => .ite (ih.b h) (ih.elsesE (cases_elses hs) hd)
        | func => simp only [evalS]; exact .none
        | method => simp only [evalS]; exact .none
        | registo => simp only [evalS]; exact .bind fun _ => .bind fun _ => .none
        | uniao => simp only [evalS]; exact .none
        | usa => simp only [evalS]; exact .none
      · cases h with
        | nil => simp only [evalSs]; exact .none
        | cons h hs =>
            simp only [evalSs]
            intro st v st' he
            change (evalS cfg L n pos _ st).next _ = _ at he
            cases hm : evalS cfg L n pos _ st with
            | done o s =>
                rw [hm] at he
                cases o with
                | none => exact ih.ss hs _ _ _ he
                | some w => exact ih.s h _ _ _ hm
            | _ => rw [hm] at he; cases he
      · simp only [evalB]; exact .bind fun _ => ih.ss h
      · cases h with
        | nil => simp only [evalElses]; exact .none
        | cons h hs => simp only [evalElses]; exact .bind fun _ => .bind fun _ => .ite (ih.b h) (ih.elses hs)
      · cases h with
        | nil => simp only [evalElses]; exact ih.b hd
        | cons h hs => simp only [evalElses]; exact .bind fun _ => .bind fun _ => .ite (ih.b h) (ih.elsesE hs hd)

/-- With fuel `n`: what has a `retorna` on every way does not come to its end. -/
structure Aways (F : Type) [FloatOps F] (cfg : Cfg) (L : Lang) (n : Nat) : Prop where
  s : ∀ {pos s ts}, Annotates s ts → s.plain = true → s.hasReturn = true → (evalS (F := F) cfg L n pos ts).Away
  ss : ∀ {pos arm ss tss}, AnnotatesAll arm ss tss → Stmt.allPlain ss = true → Stmt.anyReturn ss = true →
    (evalSs (F := F) cfg L n pos tss).Away
  elses : ∀ {pos es tes ss sc tss}, AnnotatesElses es tes → AnnotatesAll false ss tss → ElseIf.allSure es = true →
    Stmt.allPlain ss = true → Stmt.anyReturn ss = true → (evalElses (F := F) cfg L n pos tes (some (.mk sc tss))).Away
  d : ∀ {pos arms d}, Decides arms d → Arm.allPlain arms = true → Arm.allReturn arms = true →
    (evalD (F := F) cfg L n pos d).Away
  cases : ∀ {pos x arms cs}, DecidesAll arms cs → Arm.allPlain arms = true → Arm.allReturn arms = true →
    (evalCases (F := F) cfg L n pos x cs).Away

theorem away_b {cfg : Cfg} {L : Lang} {n : Nat} (ih : ∀ m < n, Aways F cfg L m) {pos ss sc tss}
    (h : AnnotatesAll false ss tss) (hp : Stmt.allPlain ss = true) (hr : Stmt.anyReturn ss = true) :
    (evalB (F := F) cfg L n pos (.mk sc tss)).Away := by
  cases n with
  | zero => rw [evalB]; exact .fuel
  | succ n => simp only [evalB]; exact .bind fun _ => (ih n (Nat.lt_succ_self n)).ss h hp hr

theorem aways (cfg : Cfg) (L : Lang) (n : Nat) : Aways F cfg L n := by
  induction n using Nat.strongRecOn with
  | ind n ihn =>
  cases n with
  | zero => exact ⟨fun _ _ _ => by rw [evalS]; exact .fuel, fun _ _ _ => by rw [evalSs]; exact .fuel,
      fun _ _ _ _ _ => by rw [evalElses]; exact .fuel,
      fun _ _ _ => by rw [evalD]; exact .fuel, fun _ _ _ => by rw [evalCases]; exact .fuel⟩
  | succ n =>
      have ih := ihn n (Nat.lt_succ_self n)
      refine ⟨fun {pos s ts} h hp hr => ?_, fun {pos arm ss tss} h hp hr => ?_,
        fun {pos es tes ss sc tss} h hd hes hp hr => ?_, fun {pos arms d} h hp hr => ?_,
        fun {pos x arms cs} h hp hr => ?_⟩
      · cases h with
        | @expr e te he hte =>
            cases e with
            | iguala t x arms => exact absurd rfl (he t x arms)
            | _ => simp [Stmt.hasReturn] at hr
        | iguala h =>
            simp only [Stmt.hasReturn, Bool.and_eq_true] at hr
            simp only [Stmt.plain] at hp
            simp only [evalS]; exact .first (ih.d h hp hr.1)
        | @retorna t e l te h =>
            cases te <;> simp only [evalS]
            · intro _ _ _ h; cases h
            · exact .bind fun _ _ _ _ h => by cases h
        | seElse hb he hd =>
            simp only [Stmt.hasReturn, Bool.and_eq_true] at hr
            simp only [Stmt.plain, Stmt.mentions_of_anyReturn _ hr.1, Stmt.mentions_of_anyReturn _ hr.2,
              Bool.and_self, Bool.not_true, Bool.false_or, Bool.and_eq_true] at hp
            simp only [evalS]
            exact .bind fun _ => .bind fun _ => .ite (away_b (fun m hm => ihn m (Nat.lt_succ_of_lt hm)) hb hp.1.2 hr.1)
              (ih.elses he hd hp.1.1 hp.2 hr.2)
        | @enquanto t c b l tc sc tb hb =>
            simp only [Stmt.hasReturn] at hr
            simp [Stmt.plain, Stmt.mentions_of_anyReturn b hr] at hp
        | @para t m x y i b l m' tx ty ti sc tb hb =>
            simp only [Stmt.hasReturn] at hr
            simp [Stmt.plain, Stmt.mentions_of_anyReturn b hr] at hp
        | _ => simp [Stmt.hasReturn] at hr
      · cases h with
        | nil => simp [Stmt.anyReturn] at hr
        | @cons _ s ts ss tss h hs =>
            simp only [Stmt.anyReturn, Bool.or_eq_true] at hr
            simp only [Stmt.allPlain, Bool.and_eq_true] at hp
            simp only [evalSs]
            by_cases hsr : s.hasReturn = true
            · exact .first (ih.s h hp.1 hsr)
            · intro st v st' he
              change (evalS cfg L n pos _ st).next _ = _ at he
              cases hm : evalS cfg L n pos _ st with
              | done o s' =>
                  rw [hm] at he
                  cases o with
                  | none => exact ih.ss hs hp.2 (hr.resolve_left hsr) _ _ _ he
                  | some w => exact (mutes cfg L n).s h _ _ _ hm
              | _ => rw [hm] at he; cases he
        | produz => simp [Stmt.anyReturn, Stmt.hasReturn] at hr
      · cases h with
        | nil => simp only [evalElses]; exact away_b (fun m hm => ihn m (Nat.lt_succ_of_lt hm)) hd hp hr
        | cons h hs =>
            simp only [ElseIf.allSure, Bool.and_eq_true] at hes
            simp only [evalElses]
            exact .bind fun _ => .bind fun _ => .ite
              (away_b (fun m hm => ihn m (Nat.lt_succ_of_lt hm)) h hes.1.2 hes.1.1) (ih.elses hs hd hes.2 hp hr)
      · cases h with
        | fail => simp only [evalD]; exact .stuck
        | success hm hb =>
            simp only [evalD]
            exact .bind fun _ => .bind fun _ => ih.ss hb (Arm.plain_of_mem hp hm) (Arm.returns_of_mem hr hm)
        | switch hc => simp only [evalD]; exact ih.cases hc hp hr
      · cases h with
        | nil => simp only [evalCases]; exact .stuck
        | cons h hs =>
            simp only [evalCases]
            exact .bind fun _ => .bind fun _ => .ite (.bind fun _ => ih.d h hp hr) (ih.cases hs hp hr)

end Source

end Amanda

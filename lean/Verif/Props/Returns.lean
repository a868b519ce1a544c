import Verif.Returns
import Verif.Parser
import Verif.PyModel
import Verif.Props.Limits

/-!
# C37: functions with a result
-/

namespace Amanda

open Source

variable {F : Type} [FloatOps F]

/-- **C37**, for bodies that have no `retorna` in a loop and whose `senaose` branches pass the check
too.  If the checker accepts the function, no evaluation of its body comes to its end, and a call that
delivers `v` got it from a `retorna` in the body.  (Missing: without the condition the claim is false, see
`function_returns_violated`.) -/
theorem function_returns_partial {body : List Stmt} {d : FunDecl} (ha : AnnotatesAll false body d.body)
    (hp : Stmt.allPlain body = true) (hv : validReturn body false = true)
    (cfg : Cfg) (L : Lang) (n depth : Nat) (pos : Pos) :
    (∀ (st : St F) o st', evalSs cfg L n pos d.body st ≠ .done o st') ∧
    (∀ args (st : St F) v st', invoke depth d (evalSs cfg L n pos d.body) args st = .done v st' →
      ∃ st₁, evalSs cfg L n pos d.body { st with locals := fun i => assocGet (d.params.zip args) i } =
        .leave (.retorna v) st₁) := by
  have key : (evalSs (F := F) cfg L n pos d.body).Away :=
    (aways cfg L n).ss ha hp (by simpa [validReturn] using hv)
  refine ⟨key, fun args st v st' h => ?_⟩
  simp only [invoke] at h
  split at h
  · cases h
  split at h
  · cases h
  split at h
  · next h' => exact absurd h' (key _ _ _)
  · next w st₁ h' => cases h; exact ⟨st₁, h'⟩
  · cases h
  · cases h
  · cases h

/-! ## Recognising annotated bodies -/

/-- The blocks that the cases of a switch lead to, if all are arms at once. -/
def caseBodies : List DCase → Option (List (List TStmt))
  | [] => some []
  | .mk _ _ (.success _ _ _ tb) :: rest => (caseBodies rest).map (tb :: ·)
  | _ :: _ => none

/-- The blocks of a decision tree with at most one switch. -/
def leafBodies : Decision → Option (List (List TStmt))
  | .fail => some []
  | .success _ _ _ tb => some [tb]
  | .switch _ cases _ => caseBodies cases

mutual
/-- A test for `Annotates`, without `escolha`. -/
def annotates : Stmt → TStmt → Bool
  | .expr (.iguala _ _ arms), .expr (.iguala _ d) => (leafBodies d).any fun l => l.all fun tb => annotatesSome arms tb
  | .expr (.iguala _ _ _), _ => false
  | .expr _, .expr (.iguala _ _) => false
  | .expr _, .expr _ => true
  | .varDecl _ _ _ _, .varDecl _ _ _ _ => true
  | .loopCtl _, .loopCtl _ _ => true
  | .retorna _ e, .retorna _ te => e.isSome == te.isSome
  | .mostra _ _, .mostra _ _ => true
  | .se _ _ b es none, .se _ _ (.mk _ tb) tes none => annotatesAll false b tb && annotatesElses es tes
  | .se _ _ b es (some e), .se _ _ (.mk _ tb) tes (some (.mk _ te)) =>
      annotatesAll false b tb && annotatesElses es tes && annotatesAll false e te
  | .enquanto _ _ b, .enquanto _ _ (.mk _ tb) => annotatesAll false b tb
  | .para _ _ _ _ _ b, .para _ _ _ _ _ (.mk _ tb) => annotatesAll false b tb
  | _, _ => false
def annotatesAll : Bool → List Stmt → List TStmt → Bool
  | _, [], [] => true
  | arm, s :: ss, ts :: tss =>
      (annotates s ts && annotatesAll arm ss tss) ||
        (match s, ts with
         | .produz _ _, .produz _ _ => arm && ss.isEmpty && tss.isEmpty
         | _, _ => false)
  | _, _, _ => false
def annotatesElses : List ElseIf → List TElse → Bool
  | [], [] => true
  | .mk _ _ b :: es, .mk _ (.mk _ tb) :: tes => annotatesAll false b tb && annotatesElses es tes
  | _, _ => false
/-- Some arm has this block. -/
def annotatesSome : List Arm → List TStmt → Bool
  | [], _ => false
  | .mk _ _ _ b :: rest, tb => annotatesAll true b tb || annotatesSome rest tb
end

theorem cases_decide {arms : List Arm} : ∀ {cs tbs}, caseBodies cs = some tbs →
    (∀ tb ∈ tbs, ∃ t p bt b, Arm.mk t p bt b ∈ arms ∧ AnnotatesAll true b tb) → DecidesAll arms cs
  | [], _, _, _ => .nil
  | .mk _ _ (.success _ _ _ tb) :: rest, tbs, h, ha => by
      simp only [caseBodies, Option.map_eq_some_iff] at h
      obtain ⟨l, hl, rfl⟩ := h
      obtain ⟨t, p, bt, b, hm, hb⟩ := ha tb (by simp)
      exact .cons (.success hm hb) (cases_decide hl fun x hx => ha x (List.mem_cons_of_mem _ hx))
  | .mk _ _ .fail :: _, _, h, _ => by simp [caseBodies] at h
  | .mk _ _ (.switch _ _ _) :: _, _, h, _ => by simp [caseBodies] at h

theorem leaves_decide {arms : List Arm} {d : Decision} {tbs : List (List TStmt)} (h : leafBodies d = some tbs)
    (ha : ∀ tb ∈ tbs, ∃ t p bt b, Arm.mk t p bt b ∈ arms ∧ AnnotatesAll true b tb) : Decides arms d := by
  cases d with
  | fail => exact .fail
  | success bs l sc tb =>
      cases h
      obtain ⟨t, p, bt, b, hm, hb⟩ := ha tb (by simp)
      exact .success hm hb
  | switch x cs fb => exact .switch (cases_decide h ha)

mutual
theorem annotates_sound : ∀ s ts, annotates s ts = true → Annotates s ts := by
  intro s ts h
  cases s with
  | expr e =>
      cases e with
      | iguala t x arms =>
          cases ts with
          | expr te =>
              cases te with
              | iguala l d =>
                  simp only [annotates] at h
                  cases hl : leafBodies d with
                  | none => rw [hl] at h; cases h
                  | some tbs =>
                      rw [hl] at h
                      simp only [Option.any_some, List.all_eq_true] at h
                      exact .iguala (leaves_decide hl fun tb htb => annotatesSome_sound arms tb (h tb htb))
              | _ => simp [annotates] at h
          | _ => simp [annotates] at h
      | _ =>
          cases ts with
          | expr te =>
              cases te with
              | iguala l d => simp [annotates] at h
              | _ => exact .expr (fun _ _ _ h => by cases h) (fun _ _ h => by cases h)
          | _ => simp [annotates] at h
  | varDecl => cases ts <;> first | exact .varDecl | simp [annotates] at h
  | loopCtl => cases ts <;> first | exact .loopCtl | simp [annotates] at h
  | retorna => cases ts <;> first | exact .retorna (by simpa [annotates] using h) | simp [annotates] at h
  | mostra => cases ts <;> first | exact .mostra | simp [annotates] at h
  | se t c b es e =>
      cases e with
      | none =>
          cases ts with
          | se l tc tb tes te =>
              obtain ⟨sc, tb⟩ := tb
              cases te with
              | none =>
                  simp only [annotates, Bool.and_eq_true] at h
                  exact .seOnly (annotatesAll_sound _ _ _ h.1) (annotatesElses_sound _ _ h.2)
              | some te => obtain ⟨sc', te⟩ := te; simp [annotates] at h
          | _ => simp [annotates] at h
      | some e =>
          cases ts with
          | se l tc tb tes te =>
              obtain ⟨sc, tb⟩ := tb
              cases te with
              | none => simp [annotates] at h
              | some te =>
                  obtain ⟨sc', te⟩ := te
                  simp only [annotates, Bool.and_eq_true] at h
                  exact .seElse (annotatesAll_sound _ _ _ h.1.1) (annotatesElses_sound _ _ h.1.2)
                    (annotatesAll_sound _ _ _ h.2)
          | _ => simp [annotates] at h
  | enquanto t c b =>
      cases ts with
      | enquanto l tc tb => obtain ⟨sc, tb⟩ := tb; exact .enquanto (annotatesAll_sound _ _ _ (by simpa [annotates] using h))
      | _ => simp [annotates] at h
  | para t n x y i b =>
      cases ts with
      | para l m tx ty ti tb => obtain ⟨sc, tb⟩ := tb; exact .para (annotatesAll_sound _ _ _ (by simpa [annotates] using h))
      | _ => simp [annotates] at h
  | _ => simp [annotates] at h
theorem annotatesAll_sound : ∀ arm ss tss, annotatesAll arm ss tss = true → AnnotatesAll arm ss tss
  | arm, [], [], _ => .nil
  | arm, s :: ss, ts :: tss, h => by
      simp only [annotatesAll, Bool.or_eq_true, Bool.and_eq_true] at h
      rcases h with h | h
      · exact .cons (annotates_sound s ts h.1) (annotatesAll_sound arm ss tss h.2)
      · split at h
        · simp only [Bool.and_eq_true, List.isEmpty_iff] at h
          obtain ⟨⟨rfl, rfl⟩, rfl⟩ := h
          exact .produz
        · cases h
  | arm, [], _ :: _, h => by simp [annotatesAll] at h
  | arm, _ :: _, [], h => by simp [annotatesAll] at h
theorem annotatesElses_sound : ∀ es tes, annotatesElses es tes = true → AnnotatesElses es tes
  | [], [], _ => .nil
  | .mk _ _ b :: es, .mk _ (.mk _ tb) :: tes, h => by
      simp only [annotatesElses, Bool.and_eq_true] at h
      exact .cons (annotatesAll_sound _ _ _ h.1) (annotatesElses_sound _ _ h.2)
  | [], _ :: _, h => by simp [annotatesElses] at h
  | .mk _ _ _ :: _, [], h => by simp [annotatesElses] at h
theorem annotatesSome_sound : ∀ arms tb, annotatesSome arms tb = true →
    ∃ t p bt b, Arm.mk t p bt b ∈ arms ∧ AnnotatesAll true b tb
  | [], _, h => by simp [annotatesSome] at h
  | .mk t p bt b :: rest, tb, h => by
      simp only [annotatesSome, Bool.or_eq_true] at h
      rcases h with h | h
      · exact ⟨t, p, bt, b, by simp, annotatesAll_sound _ _ _ h⟩
      · obtain ⟨t, p, bt, b, hm, hb⟩ := annotatesSome_sound rest tb h
        exact ⟨t, p, bt, b, List.mem_cons_of_mem _ hm, hb⟩
end

/-- The body of the first function of a text. -/
def firstBody (text : String) : Option (List Stmt) :=
  match parse samplePy text.toList with
  | .ok t => t.stmts.findSome? fun | .func _ _ _ b _ _ => b | _ => none
  | .error _ => none

/-- The text has a function that passes the check for functions with a result, and `tb` may be its
annotated body. -/
def Accepted (text : String) (tb : List TStmt) : Prop :=
  ∃ body, firstBody text = some body ∧ validReturn body false = true ∧ AnnotatesAll false body tb

/-- Reading off what a test of the parsed body says. -/
theorem body_of {o : Option (List Stmt)} {p : List Stmt → Bool} (h : o.any p = true) : ∃ b, o = some b ∧ p b = true := by
  cases o with
  | none => cases h
  | some b => exact ⟨b, rfl, h⟩

/-- A test for `Accepted`. -/
theorem accepted_of {text : String} {tb : List TStmt}
    (h : (firstBody text).any (fun b => validReturn b false && annotatesAll false b tb) = true) : Accepted text tb := by
  obtain ⟨b, hb, h⟩ := body_of h
  simp only [Bool.and_eq_true] at h
  exact ⟨b, hb, h.1, annotatesAll_sound _ _ _ h.2⟩

/-! ## Violations -/

/-- `func f(x : int) : int` with this body, and `mostra f(0)`. -/
def resultProg (tb : List TStmt) : Prog := only [glob "/m.ama" "f" .func [1], loc "/m.ama" "x" "_r10_"]
  [⟨[("f", 0)], none⟩, ⟨[("x", 1)], some 0⟩, ⟨[], some 1⟩, ⟨[], some 1⟩, ⟨[], some 1⟩]
  [.func 1 0 (.mk 1 tb), .mostra 9 (cl "f" 0 [lit "0"])]

def loopText : String := "func f(x : int) : int
  enquanto x > 0 faca
    retorna 1
  fim
fim
mostra f(0)
"

def loopBody : List TStmt :=
  [.enquanto 2 (op2 .greater (vr "x" 1) (lit "0")) (.mk 2 [.retorna 3 (some (lit "1"))])]

def branchText : String := "func f(x : int) : int
  se x > 0 entao
    retorna 1
  senaose x == 0 entao
    x = 2
  senao
    retorna 3
  fim
fim
mostra f(0)
"

def branchBody : List TStmt :=
  [.se 2 (op2 .greater (vr "x" 1) (lit "0")) (.mk 2 [.retorna 3 (some (lit "1"))])
    [.mk (op2 .doubleequal (vr "x" 1) (lit "0")) (.mk 3 [.expr (.assign 5 1 (lit "2"))])]
    (some (.mk 4 [.retorna 7 (some (lit "3"))]))]

/-- **C37 is violated.** Two functions with result `int` that the checker accepts (core.py:95-105,
127-128) come to the end of their bodies: the call delivers `falso`, in the source semantics and in the
compiled program. -/
theorem function_returns_violated :
    (Accepted loopText loopBody ∧ sourceEnd (resultProg loopBody) 100 = some (none, "falso\n") ∧
      machineEnd (resultProg loopBody) 1000 = some (.exited 0 "falso\n" "")) ∧
    (Accepted branchText branchBody ∧ sourceEnd (resultProg branchBody) 100 = some (none, "falso\n") ∧
      machineEnd (resultProg branchBody) 1000 = some (.exited 0 "falso\n" "")) :=
  ⟨⟨accepted_of (by decide +kernel), by decide +kernel, by decide +kernel⟩,
   ⟨accepted_of (by decide +kernel), by decide +kernel, by decide +kernel⟩⟩

/-! ## A body the theorem is about -/

def plainText : String := "func f(x : int) : int
  enquanto x < 3 faca
    x = x + 1
  fim
  se x > 5 entao
    retorna 1
  senaose x == 4 entao
    retorna 2
  senao
    retorna x
  fim
fim
"

def plainBody : List TStmt :=
  [.enquanto 2 (op2 .less (vr "x" 1) (lit "3")) (.mk 2 [.expr (.assign 3 1 (op2 .plus (vr "x" 1) (lit "1")))]),
   .se 5 (op2 .greater (vr "x" 1) (lit "5")) (.mk 2 [.retorna 6 (some (lit "1"))])
    [.mk (op2 .doubleequal (vr "x" 1) (lit "4")) (.mk 3 [.retorna 8 (some (lit "2"))])]
    (some (.mk 4 [.retorna 10 (some (vr "x" 1))]))]

/-- It meets the hypotheses of `function_returns_partial`, and a call delivers the value of its last
`retorna`. -/
example : (∃ body, firstBody plainText = some body ∧ AnnotatesAll false body plainBody ∧
      Stmt.allPlain body = true ∧ validReturn body false = true) ∧
    sourceEnd (resultProg plainBody) 100 = some (none, "3\n") := by
  refine ⟨?_, by decide +kernel⟩
  have h : ∃ b, firstBody plainText = some b ∧
      (annotatesAll false b plainBody && Stmt.allPlain b && validReturn b false) = true :=
    body_of (by decide +kernel)
  obtain ⟨b, hb, h⟩ := h
  simp only [Bool.and_eq_true] at h
  exact ⟨b, hb, annotatesAll_sound _ _ _ h.1.1, h.1.2, h.2⟩

end Amanda

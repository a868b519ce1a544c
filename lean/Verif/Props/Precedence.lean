import Verif.Props.Parsing

/-!
# C31, C33: the trees the parser builds
-/

namespace Amanda

/-! ## Specification: the ways to write an expression -/

/-- How tightly a binary operator binds; all associate to the left. -/
def opLevel : TT → Option Nat
  | .doubleequal | .notequal => some 1
  | .greater | .greatereq | .less | .lesseq => some 2
  | .plus | .minus | .ou => some 3
  | .star | .doubleslash | .slash | .modulo | .e => some 4
  | _ => none

/-- The unary operators. -/
def IsUnaryOp (tt : TT) : Prop := tt = .plus ∨ tt = .minus ∨ tt = .nao

/-- The tokens of arguments with a comma before each but the first.  Every argument comes with the
comma before it (not used for the first one), its tree and its tokens. -/
def argTokens : List (Token × Expr × List Token) → List Token
  | [] => []
  | a :: as => a.2.2 ++ as.flatMap fun b => b.1 :: b.2.2

/-- `Spelled k e ts`: the tokens `ts` are a way to write the tree `e` where something that binds at
least as tightly as level `k` is wanted: 1 equality, 2 comparison, 3 addition, 4 multiplication,
5 unary operators, 6 calls, indices and members, 7 names, literals and parentheses.
Parentheses may be put around everything, and are the only way to write a tree of a lower
level. -/
inductive Spelled : Nat → Expr → List Token → Prop
  | const {k t} : t.tt = .integer ∨ t.tt = .real ∨ t.tt = .string ∨ t.tt = .nulo ∨ t.tt = .verdadeiro ∨
      t.tt = .falso → Spelled k (.const t) [t]
  | var {k t} : t.tt = .identifier → Spelled k (.var t) [t]
  | alvo {k t} : t.tt = .alvo → Spelled k (.alvo t) [t]
  | paren {k e ts lp rp} : lp.tt = .lpar → rp.tt = .rpar → Spelled 1 e ts →
      Spelled k e (lp :: ts ++ [rp])
  | bin {k j op l r tl tr} : opLevel op.tt = some j → k ≤ j → Spelled j l tl → Spelled (j + 1) r tr →
      Spelled k (.bin op l r) (tl ++ op :: tr)
  | un {k op e ts} : IsUnaryOp op.tt → k ≤ 5 → Spelled 5 e ts → Spelled k (.un op e) (op :: ts)
  | get {k e ts dot m} : k ≤ 6 → Spelled 6 e ts → dot.tt = .dot → m.tt = .identifier →
      Spelled k (.get e m) (ts ++ [dot, m])
  | index {k e ts lb i ti rb} : k ≤ 6 → Spelled 6 e ts → lb.tt = .lbracket → Spelled 1 i ti →
      rb.tt = .rbracket → Spelled k (.index rb e i) (ts ++ lb :: ti ++ [rb])
  | call {k f tf lp args rp} : k ≤ 6 → Spelled 6 f tf → lp.tt = .lpar →
      (∀ a ∈ args, a.1.tt = .comma) → (∀ a ∈ args, Spelled 1 a.2.1 a.2.2) → rp.tt = .rpar →
      Spelled k (.call f (args.map fun a => a.2.1)) (tf ++ lp :: argTokens args ++ [rp])

theorem Spelled.mono {k k' : Nat} {e : Expr} {ts : List Token} (h : Spelled k e ts) (hk : k' ≤ k) :
    Spelled k' e ts := by
  cases h with
  | const h => exact .const h
  | var h => exact .var h
  | alvo h => exact .alvo h
  | paren h1 h2 h3 => exact .paren h1 h2 h3
  | bin h1 h2 h3 h4 => exact .bin h1 (by omega) h3 h4
  | un h1 h2 h3 => exact .un h1 (by omega) h3
  | get h1 h2 h3 h4 => exact .get (by omega) h2 h3 h4
  | index h1 h2 h3 h4 h5 => exact .index (by omega) h2 h3 h4 h5
  | call h1 h2 h3 h4 h5 h6 => exact .call (by omega) h2 h3 h4 h5 h6

/-- Tokens that cannot continue an expression. -/
def EndsExpr (tt : TT) : Prop :=
  opLevel tt = none ∧ tt ≠ .lpar ∧ tt ≠ .dot ∧ tt ≠ .lbracket ∧ tt ≠ .cast ∧ tt ≠ .doublecolon

/-! ## Running the parser -/

/-- The parser in front of the given tokens. -/
def st (last : Except PyErr Token) : List Token → PState
  | t :: ts => ⟨t, ts, last⟩
  | [] => ⟨noTok, [], last⟩

variable {last : Except PyErr Token} {t u : Token} {ts rest : List Token}

@[simp] theorem st_look : (st last (t :: ts)).look = t := rfl
@[simp] theorem st_last : (st last ts).last = last := by cases ts <;> rfl

@[simp] theorem nextTok_st : nextTok (st last (t :: u :: ts)) = .ok (t, st last (u :: ts)) := rfl

theorem st_weight : (st last (t :: ts)).weight = ((t :: ts).map Token.weight).sum := by
  simp [st, PState.weight]

theorem look_bind {β : Type} (k : Token → P β) (s : PState) : (look >>= k) s = k s.look s := by
  rw [bind_apply]; rfl

theorem bind_ok {α β : Type} {m : P α} {k : α → P β} {s s' : PState} {a : α} (h : m s = .ok (a, s')) :
    (m >>= k) s = k a s' := by
  rw [bind_apply, h]

theorem pure_st {α : Type} (a : α) (s : PState) : (pure a : P α) s = .ok (a, s) := rfl

theorem consume_st {tt : TT} {msg : Option String} (h : t.tt = tt) :
    consume tt msg (st last (t :: u :: ts)) = .ok (t, st last (u :: ts)) := by
  simp [consume, h]

/-- What is expected of the end of the tokens. -/
def LastOk (last : Except PyErr Token) : Prop :=
  (∀ t, last = .ok t → t.tt = .lexEof) ∧ ∀ e, last = .error e → Reported e ∨ Escapes e

theorem good_st {py : PyCfg} (hpy : py.Lawful) (h : LastOk last) (l : List Token) :
    (anyTokens hpy).Good (st last l) :=
  ⟨trivial, fun _ _ => trivial, fun t ht => ⟨h.1 t (by simpa using ht), trivial⟩,
    fun e he => h.2 e (by simpa using he)⟩

section Loops

variable {py : PyCfg} {K : ParseCfg py} {α : Type} {cond : TT → Bool} {body : α → P α} {n : Nat}

/-- More rounds than tokens make no difference. -/
theorem loopN_fuel (h : ∀ a, Tot K n 1 (fun t => cond t.tt = true) (body a)) (f : Nat) :
    ∀ (g : Nat) (a : α) (s : PState), K.Good s → s.weight < n → s.weight < f → s.weight < g →
      loopN cond body f a s = loopN cond body g a s := by
  induction f with
  | zero => omega
  | succ f ih =>
      intro g a s hs hw hf hg
      obtain _ | g := g
      · omega
      simp only [loopN]
      split
      next hc =>
        have := h a s hs hw hc
        rw [bind_apply, bind_apply]
        cases hb : body a s with
        | error e => rfl
        | ok p =>
            obtain ⟨b, s'⟩ := p
            rw [hb] at this
            exact ih g b s' this.1 (by omega) (by omega) (by omega)
      next => rfl

theorem loop_step (h : ∀ a, Tot K n 1 (fun t => cond t.tt = true) (body a)) {a b : α} {s s' : PState}
    (hs : K.Good s) (hw : s.weight < n) (hc : cond s.look.tt = true) (hb : body a s = .ok (b, s')) :
    loop cond body a s = loop cond body b s' := by
  have := h a s hs hw hc
  rw [hb] at this
  have hw' := this.2
  unfold loop
  rw [show loopN cond body (s.weight + 1) a s = (body a >>= loopN cond body s.weight) s by
    simp [loopN, hc], bind_ok hb]
  exact loopN_fuel h _ _ _ _ this.1 (by omega) (by omega) (by omega)

theorem loop_stop {a : α} {s : PState} (hc : cond s.look.tt = false) : loop cond body a s = .ok (a, s) := by
  simp [loop, loopN, hc]

end Loops

theorem skipNewlines_st {s : PState} (h : s.look.tt ≠ .newline) : skipNewlines s = .ok ((), s) :=
  loop_stop (by simpa using h)

/-! ## The levels -/

/-- The loop condition of `call`. -/
def isSuffix (t : TT) : Bool := t = .lpar || t = .dot || t = .lbracket

/-- One round of a level of binary operators. -/
def binBody (operand : P Expr) (e : Expr) : P Expr := do
  let op ← nextTok
  let e' ← operand
  pure (.bin op e e')

/-- The parser of a level, `r` being the table. -/
def lvlP (py : PyCfg) (r : Rec) : Nat → P Expr
  | 0 => equalityL py r
  | 1 => equalityL py r
  | 2 => comparison py r
  | 3 => addition py r
  | 4 => term py r
  | 5 => unaryL py r
  | 6 => primary py r >>= loop isSuffix (callSuffix r)
  | _ => primary py r

/-- What a level does after its first operand was read. -/
def lvlCont (py : PyCfg) (r : Rec) : Nat → Expr → P Expr
  | 0 => loop isEqOp (binBody (comparison py r))
  | 1 => loop isEqOp (binBody (comparison py r))
  | 2 => loop isCompOp (binBody (addition py r))
  | 3 => loop isAddOp (binBody (term py r))
  | 4 => loop isTermOp (binBody (unaryL py r))
  | 6 => loop isSuffix (callSuffix r)
  | _ => pure

/-- The operand of level `k` can be followed by `tt`. -/
def Follows (k : Nat) (tt : TT) : Prop :=
  tt ≠ .doublecolon ∧ (k ≤ 5 → isSuffix tt = false ∧ tt ≠ .cast ∧ ∀ j, opLevel tt = some j → j ≤ max k 1)

/-- What is shown of every spelled expression. -/
def Claim (py : PyCfg) (k : Nat) (e : Expr) (ts : List Token) : Prop :=
  ∀ N last r0 rest, LastOk last → Follows k r0.tt → (st last (ts ++ r0 :: rest)).weight ≤ N →
    lvlP py (recN py N) k (st last (ts ++ r0 :: rest)) = lvlCont py (recN py N) k e (st last (r0 :: rest))

theorem opLevel_spec (tt : TT) :
    (isEqOp tt = true ↔ opLevel tt = some 1) ∧ (isCompOp tt = true ↔ opLevel tt = some 2) ∧
    (isAddOp tt = true ↔ opLevel tt = some 3) ∧ (isTermOp tt = true ↔ opLevel tt = some 4) := by
  cases tt <;> decide

theorem opLevel_range {tt : TT} {j : Nat} (h : opLevel tt = some j) : 1 ≤ j ∧ j ≤ 4 := by
  cases tt <;> simp [opLevel] at h <;> omega

/-- A level of binary operators after the next one. -/
theorem lift_bin {py : PyCfg} {k : Nat} {e : Expr} {ts : List Token} (hk1 : 1 ≤ k) (hk : k ≤ 4) (h : Claim py (k + 1) e ts) :
    Claim py k e ts := by
  intro N last r0 rest hl hf hw
  obtain ⟨h1, h2⟩ := hf
  obtain ⟨h2, h3, h4⟩ := h2 (by omega)
  have hop := opLevel_spec r0.tt
  have := h N last r0 rest hl ⟨h1, fun _ => ⟨h2, h3, fun j hj => by have := h4 j hj; omega⟩⟩ hw
  have ends : lvlP py (recN py N) (k + 1) (st last (ts ++ r0 :: rest)) = .ok (e, st last (r0 :: rest)) := by
    rw [this]
    have : ∀ (ops : TT → Bool) (b : Expr → P Expr), (ops r0.tt = true ↔ opLevel r0.tt = some (k + 1)) →
        loop ops b e (st last (r0 :: rest)) = .ok (e, st last (r0 :: rest)) := by
      intro ops b ho
      refine loop_stop ?_
      rw [st_look, ← Bool.not_eq_true, ho]
      intro hj
      have := h4 _ hj
      omega
    rcases (by omega : k = 1 ∨ k = 2 ∨ k = 3 ∨ k = 4) with rfl | rfl | rfl | rfl
    · exact this _ _ hop.2.1
    · exact this _ _ hop.2.2.1
    · exact this _ _ hop.2.2.2
    · rfl
  rcases (by omega : k = 1 ∨ k = 2 ∨ k = 3 ∨ k = 4) with rfl | rfl | rfl | rfl <;> exact bind_ok ends

/-- Where an expression of level 6 begins. -/
def IsStart (tt : TT) : Prop :=
  tt = .integer ∨ tt = .real ∨ tt = .string ∨ tt = .nulo ∨ tt = .verdadeiro ∨ tt = .falso ∨
    tt = .identifier ∨ tt = .alvo ∨ tt = .lpar

theorem Spelled.start {k : Nat} {e : Expr} {ts : List Token} (h : Spelled k e ts) :
    ∃ t ts', ts = t :: ts' ∧ (IsStart t.tt ∨ (k ≤ 5 ∧ IsUnaryOp t.tt)) := by
  induction h with
  | const h => exact ⟨_, _, rfl, .inl (by unfold IsStart; tauto)⟩
  | var h => exact ⟨_, _, rfl, .inl (by unfold IsStart; tauto)⟩
  | alvo h => exact ⟨_, _, rfl, .inl (by unfold IsStart; tauto)⟩
  | paren h _ _ _ => exact ⟨_, _, rfl, .inl (by unfold IsStart; tauto)⟩
  | bin h hk _ _ ih _ =>
      obtain ⟨t, ts', rfl, h'⟩ := ih
      refine ⟨t, _, rfl, ?_⟩
      have := opLevel_range h
      rcases h' with h' | h'
      · exact .inl h'
      · exact .inr ⟨by omega, h'.2⟩
  | un h hk _ _ => exact ⟨_, _, rfl, .inr ⟨hk, h⟩⟩
  | get hk _ _ _ ih =>
      obtain ⟨t, ts', rfl, h' | h'⟩ := ih
      · exact ⟨t, _, rfl, .inl h'⟩
      · omega
  | index hk _ _ _ _ ih _ =>
      obtain ⟨t, ts', rfl, h' | h'⟩ := ih
      · exact ⟨t, _, rfl, .inl h'⟩
      · omega
  | call hk _ _ _ _ _ ih _ =>
      obtain ⟨t, ts', rfl, h' | h'⟩ := ih
      · exact ⟨t, _, rfl, .inl h'⟩
      · omega

theorem callCast_st {r : Rec} {e : Expr} {s : PState} (h : s.look.tt ≠ .cast) : callCast r e s = .ok (e, s) := by
  unfold callCast
  rw [look_bind, if_neg h]; rfl

theorem lift_unary {py : PyCfg} {e : Expr} {ts : List Token} (hs : ∃ t ts', ts = t :: ts' ∧ IsStart t.tt)
    (h : Claim py 6 e ts) : Claim py 5 e ts := by
  intro N last r0 rest hl hf hw
  obtain ⟨t, ts', rfl, ht⟩ := hs
  obtain ⟨h1, h2⟩ := hf
  obtain ⟨h2, h3, h4⟩ := h2 (by omega)
  have := h N last r0 rest hl ⟨h1, by omega⟩ hw
  show unaryL py (recN py N) _ = _
  unfold unaryL
  rw [look_bind, if_neg (by unfold IsStart at ht; simp only [List.cons_append, st_look]; rcases ht with h | h | h | h | h | h | h | h | h <;> simp [h])]
  have e1 : callL py (recN py N) = (lvlP py (recN py N) 6 >>= callCast (recN py N)) := by
    unfold callL lvlP
    simp only [bind_assoc]
    rfl
  rw [e1, bind_apply, this]
  have : lvlCont py (recN py N) 6 e (st last (r0 :: rest)) = .ok (e, st last (r0 :: rest)) := loop_stop (by simpa using h2)
  rw [this]
  exact callCast_st h3

theorem lift_primary {py : PyCfg} {e : Expr} {ts : List Token} (h : Claim py 7 e ts) : Claim py 6 e ts := by
  intro N last r0 rest hl hf hw
  exact bind_ok (h N last r0 rest hl ⟨hf.1, by omega⟩ hw)

theorem claim_down {py : PyCfg} {e : Expr} {ts : List Token} (j : Nat) (hj : j ≤ 5) (h : Claim py j e ts) (k : Nat)
    (hk : k ≤ j) (hk1 : 1 ≤ k) : Claim py k e ts := by
  induction j with
  | zero => omega
  | succ j ih =>
      by_cases hkj : k = j + 1
      · exact hkj ▸ h
      · exact ih (by omega) (lift_bin (by omega) (by omega) h) (by omega)

theorem claim_zero {py : PyCfg} {e : Expr} {ts : List Token} (h : Claim py 1 e ts) : Claim py 0 e ts := by
  intro N last r0 rest hl hf hw
  exact h N last r0 rest hl ⟨hf.1, fun _ => hf.2 (by omega)⟩ hw

theorem claim_to {py : PyCfg} {e : Expr} {ts : List Token} (j : Nat) (hj : j ≤ 5) (hj1 : 1 ≤ j) (h : Claim py j e ts) (k : Nat)
    (hk : k ≤ j) : Claim py k e ts := by
  obtain _ | k := k
  · exact claim_zero (claim_down j hj h 1 hj1 (by omega))
  · exact claim_down j hj h _ hk (by omega)

theorem claim_six {py : PyCfg} {e : Expr} {ts : List Token} (hs : ∃ t ts', ts = t :: ts' ∧ IsStart t.tt)
    (h : Claim py 6 e ts) (k : Nat) (hk : k ≤ 6) : Claim py k e ts := by
  by_cases h6 : k = 6
  · exact h6 ▸ h
  · exact claim_to 5 (by omega) (by omega) (lift_unary hs h) k (by omega)

theorem claim_seven {py : PyCfg} {e : Expr} {ts : List Token} (hs : ∃ t ts', ts = t :: ts' ∧ IsStart t.tt)
    (h : Claim py 7 e ts) (k : Nat) : Claim py k e ts := by
  by_cases h6 : k ≤ 6
  · exact claim_six hs (lift_primary h) k h6
  · rcases (show k = 7 ∨ ∃ m, k = m + 8 from if h : k = 7 then .inl h else .inr ⟨k - 8, by omega⟩) with rfl | ⟨m, rfl⟩
    · exact h
    · exact fun N last r0 rest hl hf hw => h N last r0 rest hl ⟨hf.1, by omega⟩ hw

/-- A whole expression inside brackets. -/
theorem claim_inner {py : PyCfg} {e : Expr} {ts : List Token} (h : Claim py 1 e ts) {N : Nat} (hl : LastOk last)
    {r0 : Token} (hr : EndsExpr r0.tt) (hw : (st last (ts ++ r0 :: rest)).weight < N) :
    (recN py N).equality (st last (ts ++ r0 :: rest)) = .ok (e, st last (r0 :: rest)) := by
  obtain _ | N := N
  · omega
  show lvlP py (recN py N) 1 _ = _
  obtain ⟨h1, h2, h3, h4, h5, h6⟩ := hr
  rw [h N last r0 rest hl ⟨h6, fun _ => ⟨by simp [isSuffix, *], h5, by simp [h1]⟩⟩ (by omega)]
  refine loop_stop ?_
  rw [st_look, ← Bool.not_eq_true, (opLevel_spec r0.tt).1, h1]
  simp

theorem weight_append (last : Except PyErr Token) (a b : List Token) (r0 : Token) :
    (st last (a ++ r0 :: b)).weight = (a.map Token.weight).sum + (st last (r0 :: b)).weight := by
  rw [st_weight]
  cases a with
  | nil => simp [st_weight]
  | cons x xs => rw [List.cons_append, st_weight]; simp [Nat.add_assoc]

theorem weight_cons (last : Except PyErr Token) (b : List Token) (x r0 : Token) :
    (st last (x :: r0 :: b)).weight = x.weight + (st last (r0 :: b)).weight := by
  rw [st_weight, st_weight]; simp

theorem start_facts {tt : TT} (h : IsStart tt ∨ IsUnaryOp tt) : tt ≠ .newline ∧ tt ≠ .rpar := by
  unfold IsStart IsUnaryOp at h
  rcases h with (h | h | h | h | h | h | h | h | h) | h | h | h <;> simp [h]

/-- An argument up to a comma or the end. -/
theorem argument_st {py : PyCfg} {e : Expr} {ts : List Token} (h : Claim py 1 e ts) {N : Nat} (hl : LastOk last)
    {r0 : Token} (hr : r0.tt = .comma ∨ r0.tt = .rpar) (hw : (st last (ts ++ r0 :: rest)).weight < N) :
    argument (recN py N) (st last (ts ++ r0 :: rest)) = .ok (e, st last (r0 :: rest)) := by
  unfold argument
  have hend : EndsExpr r0.tt := by rcases hr with h | h <;> rw [h] <;> simp [EndsExpr, opLevel]
  rw [bind_ok (claim_inner h hl hend hw), look_bind]
  split
  next => rw [if_neg (by rcases hr with h | h <;> simp [h])]; rfl
  next => rfl

/-- The arguments after the first. -/
theorem moreArgs_st {py : PyCfg} (hpy : py.Lawful) {N : Nat} (hl : LastOk last) {rp : Token} (hrp : rp.tt = .rpar)
    (args : List (Token × Expr × List Token)) (hc : ∀ a ∈ args, a.1.tt = .comma)
    (hs : ∀ a ∈ args, Spelled 1 a.2.1 a.2.2)
    (h : ∀ a ∈ args, Claim py 1 a.2.1 a.2.2) (acc : List Expr)
    (hw : (st last ((args.flatMap fun b => b.1 :: b.2.2) ++ rp :: rest)).weight < N) :
    loop (· = .comma) (fun acc => do
      let _ ← consume .comma
      skipNewlines
      let a ← argument (recN py N)
      skipNewlines
      pure (acc ++ [a])) acc (st last ((args.flatMap fun b => b.1 :: b.2.2) ++ rp :: rest)) =
    .ok (acc ++ args.map (fun a => a.2.1), st last (rp :: rest)) := by
  induction args generalizing acc with
  | nil => simpa using loop_stop (by simp [hrp])
  | cons a as ih =>
      simp only [List.flatMap_cons, List.append_assoc, List.cons_append] at hw ⊢
      obtain ⟨c, e, ts⟩ := a
      have hcomma : c.tt = .comma := hc _ (List.mem_cons_self ..)
      have hcl := h _ (List.mem_cons_self ..)
      obtain ⟨t, ts', rfl, ht⟩ := (hs _ (List.mem_cons_self ..)).start
      dsimp only at *
      have htn := start_facts (tt := t.tt) (by tauto)
      obtain ⟨r0, tl, htl, hr0⟩ : ∃ r0 tl, (as.flatMap fun b => b.1 :: b.2.2) ++ rp :: rest = r0 :: tl ∧
          (r0.tt = .comma ∨ r0.tt = .rpar) := by
        cases as with
        | nil => exact ⟨rp, rest, rfl, .inr hrp⟩
        | cons b bs => exact ⟨b.1, _, rfl, .inl (hc b (by simp))⟩
      have step : (do
          let _ ← consume .comma
          skipNewlines
          let a ← argument (recN py N)
          skipNewlines
          pure (acc ++ [a]) : P (List Expr)) (st last (c :: (t :: ts' ++ r0 :: tl))) =
          .ok (acc ++ [e], st last (r0 :: tl)) := by
        rw [List.cons_append, bind_ok (consume_st hcomma), bind_ok (skipNewlines_st (by simpa using htn.1))]
        have hw' : (st last (t :: ts' ++ r0 :: tl)).weight < N := by
          rw [← htl]
          rw [List.cons_append, weight_cons] at hw
          rw [List.cons_append]
          omega
        rw [← List.cons_append, bind_ok (argument_st hcl hl hr0 hw'),
          bind_ok (skipNewlines_st (by rcases hr0 with h | h <;> simp [h]))]
        rfl
      rw [htl] at hw ⊢
      rw [loop_step (K := anyTokens hpy) (n := N) ?_ (good_st hpy hl _) hw (by simp [hcomma]) step]
      · have hw' : (st last (r0 :: tl)).weight < N := by
          rw [List.cons_append, weight_cons, ← List.cons_append, weight_append] at hw
          omega
        rw [← htl] at hw' ⊢
        rw [ih (fun a ha => hc a (by simp [ha])) (fun a ha => hs a (by simp [ha])) (fun a ha => h a (by simp [ha])) _ hw']
        simp
      · have hrt := recTot (K := anyTokens hpy) N
        intro a
        tot

theorem callSuffix_call {py : PyCfg} (hpy : py.Lawful) {N : Nat} (hl : LastOk last) {f : Expr} {lp rp : Token}
    (hlp : lp.tt = .lpar) (hrp : rp.tt = .rpar) {args : List (Token × Expr × List Token)}
    (hc : ∀ a ∈ args, a.1.tt = .comma) (hs : ∀ a ∈ args, Spelled 1 a.2.1 a.2.2)
    (h : ∀ a ∈ args, Claim py 1 a.2.1 a.2.2) (hw : (st last (argTokens args ++ rp :: u :: rest)).weight < N) :
    callSuffix (recN py N) f (st last (lp :: argTokens args ++ rp :: u :: rest)) =
      .ok (.call f (args.map fun a => a.2.1), st last (u :: rest)) := by
  have key : callArgs (recN py N) (st last (argTokens args ++ rp :: u :: rest)) =
      .ok (args.map (fun a => a.2.1), st last (rp :: u :: rest)) := by
    have nrp : (st last (rp :: u :: rest)).look.tt ≠ .newline := by simp [hrp]
    unfold callArgs
    cases args with
    | nil =>
        simp only [argTokens, List.nil_append]
        rw [bind_ok (skipNewlines_st nrp)]
        have : firstArg (recN py N) (st last (rp :: u :: rest)) = .ok ([], st last (rp :: u :: rest)) := by
          unfold firstArg
          rw [look_bind, if_pos (by simp [hrp])]; rfl
        rw [bind_ok this, bind_ok (skipNewlines_st nrp), bind_ok (loop_stop (by simp [hrp])), bind_ok (skipNewlines_st nrp)]
        rfl
    | cons a as =>
        obtain ⟨c, e, ts⟩ := a
        have hcl := h _ (List.mem_cons_self ..)
        obtain ⟨t, ts', rfl, ht⟩ := (hs _ (List.mem_cons_self ..)).start
        dsimp only [argTokens] at *
        have htn := start_facts (tt := t.tt) (by tauto)
        obtain ⟨r0, tl, htl, hr0⟩ : ∃ r0 tl, (as.flatMap fun b => b.1 :: b.2.2) ++ rp :: u :: rest = r0 :: tl ∧
            (r0.tt = .comma ∨ r0.tt = .rpar) := by
          cases as with
          | nil => exact ⟨rp, _, rfl, .inr hrp⟩
          | cons b bs => exact ⟨b.1, _, rfl, .inl (hc b (by simp))⟩
        rw [List.append_assoc, htl] at hw ⊢
        rw [bind_ok (skipNewlines_st (by simpa using htn.1))]
        have : firstArg (recN py N) (st last (t :: ts' ++ r0 :: tl)) = .ok ([e], st last (r0 :: tl)) := by
          unfold firstArg
          rw [look_bind, if_neg (by simpa using htn.2), bind_ok (argument_st hcl hl hr0 hw)]; rfl
        rw [bind_ok this, bind_ok (skipNewlines_st (by rcases hr0 with h | h <;> simp [h]))]
        have hw' : (st last (r0 :: tl)).weight < N := by
          rw [weight_append] at hw
          omega
        rw [← htl] at hw' ⊢
        rw [bind_ok (moreArgs_st hpy hl hrp as (fun a ha => hc a (by simp [ha])) (fun a ha => hs a (by simp [ha]))
          (fun a ha => h a (by simp [ha])) [e] hw'), bind_ok (skipNewlines_st nrp)]
        rfl
  unfold callSuffix
  rw [look_bind, if_pos (by simp [hlp])]
  have hcons : consume .lpar none (st last (lp :: argTokens args ++ rp :: u :: rest)) =
      .ok (lp, st last (argTokens args ++ rp :: u :: rest)) := by
    cases argTokens args <;> exact consume_st hlp
  rw [bind_ok hcons, bind_ok key, bind_ok (consume_st hrp)]
  rfl

/-- Every way to write an expression is read as that expression. -/
theorem spelled_claim {py : PyCfg} (hpy : py.Lawful) {k : Nat} {e : Expr} {ts : List Token} (h : Spelled k e ts) :
    Claim py k e ts := by
  have hst := h.start
  induction h with
  | const h =>
      refine claim_seven ⟨_, _, rfl, by unfold IsStart; tauto⟩ ?_ _
      intro N last r0 rest hl hf hw
      show primary py _ _ = _
      unfold primary
      rw [look_bind, if_neg (by rcases h with h | h | h | h | h | h <;> simp [h]),
        if_pos (by rcases h with h | h | h | h | h | h <;> simp [h, isLiteral])]
      rfl
  | var h =>
      refine claim_seven ⟨_, _, rfl, by unfold IsStart; tauto⟩ ?_ _
      intro N last r0 rest hl hf hw
      show primary py _ _ = _
      unfold primary primaryName
      rw [look_bind, if_pos (by simp [h])]
      simp only [List.cons_append, List.nil_append]
      rw [bind_ok (consume_st h), look_bind, if_neg (by simpa using hf.1)]
      rfl
  | alvo h =>
      refine claim_seven ⟨_, _, rfl, by unfold IsStart; tauto⟩ ?_ _
      intro N last r0 rest hl hf hw
      show primary py _ _ = _
      unfold primary
      simp only [List.cons_append, List.nil_append]
      rw [look_bind, if_neg (by simp [h]), if_neg (by simp [h, isLiteral]), if_neg (by simp [h]), if_neg (by simp [h]),
        if_neg (by simp [h]), if_pos (by simp [h]), bind_ok (consume_st h)]
      rfl
  | @paren k e ts lp rp hlp hrp hsp ih =>
      refine claim_seven (ts := lp :: ts ++ [rp]) ⟨lp, ts ++ [rp], rfl, by unfold IsStart; tauto⟩ ?_ _
      intro N last r0 rest hl hf hw
      show primary py _ _ = _
      unfold primary
      rw [List.append_assoc] at hw ⊢
      obtain ⟨t, ts', rfl, _⟩ := hsp.start
      simp only [List.cons_append, List.nil_append] at hw ⊢
      rw [look_bind, if_neg (by simp [hlp]), if_neg (by simp [hlp, isLiteral]), if_neg (by simp [hlp]),
        if_neg (by simp [hlp]), if_pos (by simp [hlp]), bind_ok (consume_st hlp)]
      rw [weight_cons] at hw
      have := weight_pos (t := lp) (by simp [hlp])
      rw [← List.cons_append] at hw ⊢
      rw [bind_ok (claim_inner (ih hsp.start) hl (by simp [EndsExpr, hrp, opLevel]) (by omega)), bind_ok (consume_st hrp)]
      rfl
  | @bin k j op l r tl tr hop hk hl hr ihl ihr =>
      have hj := opLevel_range hop
      refine claim_to j (by omega) (by omega) ?_ k hk
      intro N last r0 rest hlast hf hw
      rw [List.append_assoc, List.cons_append] at hw ⊢
      have hfop : Follows j op.tt := by
        refine ⟨?_, fun _ => ⟨?_, ?_, fun i hi => ?_⟩⟩
        · rintro h; simp [h, opLevel] at hop
        · rw [← Bool.not_eq_true]; intro h
          simp only [isSuffix, Bool.or_eq_true, decide_eq_true_eq] at h
          rcases h with (h | h) | h <;> simp [h, opLevel] at hop
        · rintro h; simp [h, opLevel] at hop
        · rw [hop] at hi; simp only [Option.some.injEq] at hi; omega
      rw [ihl hl.start N last op (tr ++ r0 :: rest) hlast hfop hw]
      have hw1 : (st last (op :: (tr ++ r0 :: rest))).weight ≤ N := by
        rw [weight_append] at hw; omega
      obtain ⟨t, ts', rfl, _⟩ := hr.start
      have hw2 : (st last (t :: ts' ++ r0 :: rest)).weight ≤ N := by
        rw [List.cons_append, weight_cons] at hw1
        rw [List.cons_append]; omega
      obtain ⟨hf1, hf2⟩ := hf
      obtain ⟨hf2, hf3, hf4⟩ := hf2 (by omega)
      have hright := ihr hr.start N last r0 rest hlast
        ⟨hf1, fun _ => ⟨hf2, hf3, fun i hi => by have := hf4 i hi; omega⟩⟩ hw2
      have hopr := opLevel_spec r0.tt
      have hopo := opLevel_spec op.tt
      have hrt := recTot (K := anyTokens hpy) N
      have go : ∀ (ops : TT → Bool) (m : P Expr), (ops op.tt = true) → ops .lexEof = false →
          Tot (anyTokens hpy) (N + 1) 1 (fun _ => True) m →
          m (st last (t :: ts' ++ r0 :: rest)) = .ok (r, st last (r0 :: rest)) →
          loop ops (binBody m) l (st last (op :: (t :: ts' ++ r0 :: rest))) =
            loop ops (binBody m) (.bin op l r) (st last (r0 :: rest)) := by
        intro ops m h1 h2 h3 h4
        refine loop_step (K := anyTokens hpy) (n := N + 1) ?_ (good_st hpy hlast _) (by omega) (by simpa using h1) ?_
        · intro a
          unfold binBody
          refine tot_bind1 (tot_next fun t ht => ?_) fun _ =>
            tot_of0 (tot_bind1 (tot_of h3 (by omega) (by omega)) fun _ => tot_pure _)
          intro he
          simp [he, h2] at ht
        · unfold binBody
          rw [List.cons_append, bind_ok nextTok_st, ← List.cons_append, bind_ok h4]
          rfl
      have stop : ∀ (ops : TT → Bool) (b : Expr → P Expr), (ops r0.tt = true ↔ opLevel r0.tt = some (j + 1)) →
          loop ops b r (st last (r0 :: rest)) = .ok (r, st last (r0 :: rest)) := by
        intro ops b ho
        refine loop_stop ?_
        rw [st_look, ← Bool.not_eq_true, ho]
        intro hj
        have := hf4 _ hj
        omega
      have t5 : Tot (anyTokens hpy) (N + 1) 1 (fun _ => True) (unaryL py (recN py N)) := tot_unaryL hrt (by omega)
      have t4 : Tot (anyTokens hpy) (N + 1) 1 (fun _ => True) (term py (recN py N)) := tot_binLevel t5 rfl
      have t3 : Tot (anyTokens hpy) (N + 1) 1 (fun _ => True) (addition py (recN py N)) := tot_binLevel t4 rfl
      have t2 : Tot (anyTokens hpy) (N + 1) 1 (fun _ => True) (comparison py (recN py N)) := tot_binLevel t3 rfl
      rcases (by omega : j = 1 ∨ j = 2 ∨ j = 3 ∨ j = 4) with rfl | rfl | rfl | rfl
      · exact go _ _ (hopo.1.mpr hop) rfl t2 (hright.trans (stop _ _ hopr.2.1))
      · exact go _ _ (hopo.2.1.mpr hop) rfl t3 (hright.trans (stop _ _ hopr.2.2.1))
      · exact go _ _ (hopo.2.2.1.mpr hop) rfl t4 (hright.trans (stop _ _ hopr.2.2.2))
      · exact go _ _ (hopo.2.2.2.mpr hop) rfl t5 hright
  | @un k op e ts hop hk hsp ih =>
      refine claim_to 5 (by omega) (by omega) ?_ k hk
      intro N last r0 rest hl hf hw
      obtain ⟨t, ts', rfl, _⟩ := hsp.start
      have hpos := weight_pos (t := op) (by rcases hop with h | h | h <;> simp [h])
      simp only [List.cons_append] at hw ⊢
      rw [weight_cons] at hw
      obtain _ | N := N
      · omega
      show unaryL py _ _ = _
      unfold unaryL
      rw [look_bind, if_pos (by simpa [IsUnaryOp] using hop), bind_ok nextTok_st]
      have := ih hsp.start N last r0 rest hl hf (by rw [List.cons_append]; omega)
      rw [List.cons_append] at this
      rw [bind_ok (m := (recN py (N + 1)).unary) this]
      rfl
  | @get k e ts dot m hk hsp hdot hm ih =>
      obtain ⟨t, ts', rfl, ht⟩ := hsp.start
      have hs6 : IsStart t.tt := by
        rcases ht with h | h
        · exact h
        · omega
      refine claim_six (ts := t :: ts' ++ [dot, m]) ⟨_, _, rfl, hs6⟩ ?_ k hk
      intro N last r0 rest hl hf hw
      rw [List.append_assoc] at hw ⊢
      rw [show [dot, m] ++ r0 :: rest = dot :: (m :: r0 :: rest) from rfl] at hw ⊢
      rw [ih hsp.start N last dot _ hl ⟨by simp [hdot], by omega⟩ hw]
      have hw1 : (st last (dot :: m :: r0 :: rest)).weight ≤ N := by
        rw [weight_append] at hw; omega
      refine loop_step (K := anyTokens hpy) (n := N + 1) (fun a => tot_callSuffix (recTot N) (by omega)) (good_st hpy hl _)
        (by omega) (by simp [isSuffix, hdot]) ?_
      unfold callSuffix
      rw [look_bind, if_neg (by simp [hdot]), if_neg (by simp [hdot]), bind_ok (consume_st hdot), bind_ok (consume_st hm)]
      rfl
  | @index k e ts lb i ti rb hk hsp hlb hi hrb ih ihi =>
      obtain ⟨t, ts', rfl, ht⟩ := hsp.start
      have hs6 : IsStart t.tt := by
        rcases ht with h | h
        · exact h
        · omega
      refine claim_six (ts := t :: ts' ++ lb :: ti ++ [rb]) ⟨_, _, rfl, hs6⟩ ?_ k hk
      intro N last r0 rest hl hf hw
      rw [show t :: ts' ++ lb :: ti ++ [rb] ++ r0 :: rest = t :: ts' ++ lb :: (ti ++ rb :: r0 :: rest) by simp] at hw ⊢
      rw [ih hsp.start N last lb _ hl ⟨by simp [hlb], by omega⟩ hw]
      have hw1 : (st last (lb :: (ti ++ rb :: r0 :: rest))).weight ≤ N := by
        rw [weight_append] at hw; omega
      refine loop_step (K := anyTokens hpy) (n := N + 1) (fun a => tot_callSuffix (recTot N) (by omega)) (good_st hpy hl _)
        (by omega) (by simp [isSuffix, hlb]) ?_
      obtain ⟨ui, ui', rfl, _⟩ := hi.start
      have hpos := weight_pos (t := lb) (by simp [hlb])
      rw [List.cons_append, weight_cons] at hw1
      unfold callSuffix
      rw [look_bind, if_neg (by simp [hlb]), if_pos (by simp [hlb]), List.cons_append, bind_ok (consume_st hlb), ← List.cons_append,
        bind_ok (claim_inner (ihi hi.start) hl (by simp [EndsExpr, hrb, opLevel]) (by rw [List.cons_append]; omega)),
        bind_ok (consume_st hrb)]
      rfl
  | @call k f tf lp args rp hk hsp hlp hc hs hrp ih iha =>
      obtain ⟨t, ts', rfl, ht⟩ := hsp.start
      have hs6 : IsStart t.tt := by
        rcases ht with h | h
        · exact h
        · omega
      refine claim_six (ts := t :: ts' ++ lp :: argTokens args ++ [rp]) ⟨_, _, rfl, hs6⟩ ?_ k hk
      intro N last r0 rest hl hf hw
      rw [show t :: ts' ++ lp :: argTokens args ++ [rp] ++ r0 :: rest =
        t :: ts' ++ lp :: (argTokens args ++ rp :: r0 :: rest) by simp] at hw ⊢
      rw [ih hsp.start N last lp _ hl ⟨by simp [hlp], by omega⟩ hw]
      have hw1 : (st last (lp :: (argTokens args ++ rp :: r0 :: rest))).weight ≤ N := by
        rw [weight_append] at hw; omega
      refine loop_step (K := anyTokens hpy) (n := N + 1) (fun a => tot_callSuffix (recTot N) (by omega)) (good_st hpy hl _)
        (by omega) (by simp [isSuffix, hlp]) ?_
      have hpos := weight_pos (t := lp) (by simp [hlp])
      refine callSuffix_call hpy hl hlp hrp hc hs (fun a ha => iha a ha (hs a ha).start) ?_
      rw [st_weight] at hw1
      have e1 : (st last (argTokens args ++ rp :: r0 :: rest)).weight = ((argTokens args ++ rp :: r0 :: rest).map Token.weight).sum := by
        cases argTokens args <;> simp [st, PState.weight]
      rw [e1]
      simp only [List.map_cons, List.sum_cons] at hw1
      omega

/-! ## C31 -/

/-- **C31**, for tokens: every way to write an expression tree (`Spelled`: binary operators of four
levels associating to the left, unary operators binding tighter, then calls, indices and members,
parentheses everywhere) followed by a token that cannot continue it is read by the parser as exactly
that tree, and the parser then stands before that token. -/
theorem expression_read_back {py : PyCfg} (hpy : py.Lawful) {e : Expr} {ts : List Token} (h : Spelled 1 e ts)
    {r0 : Token} (hr : EndsExpr r0.tt) (hl : LastOk last) {N : Nat}
    (hw : (st last (ts ++ r0 :: rest)).weight ≤ N) :
    equalityL py (recN py N) (st last (ts ++ r0 :: rest)) = .ok (e, st last (r0 :: rest)) :=
  claim_inner (N := N + 1) (spelled_claim hpy h) hl hr (by omega)

/-- Infix operators. -/
inductive Infix where
  | eq | ne | gt | ge | lt | le | add | sub | or | mul | idiv | div | mod | and
  deriving DecidableEq, Repr

def Infix.text : Infix → List Char
  | .eq => "==".toList | .ne => "!=".toList | .gt => ">".toList | .ge => ">=".toList | .lt => "<".toList
  | .le => "<=".toList | .add => "+".toList | .sub => "-".toList | .or => "ou".toList | .mul => "*".toList
  | .idiv => "//".toList | .div => "/".toList | .mod => "%".toList | .and => "e".toList

/-- How tightly an infix operator binds. -/
def Infix.level : Infix → Nat
  | .eq | .ne => 1
  | .gt | .ge | .lt | .le => 2
  | .add | .sub | .or => 3
  | .mul | .idiv | .div | .mod | .and => 4

def Infix.tt : Infix → TT
  | .eq => .doubleequal | .ne => .notequal | .gt => .greater | .ge => .greatereq | .lt => .less
  | .le => .lesseq | .add => .plus | .sub => .minus | .or => .ou | .mul => .star
  | .idiv => .doubleslash | .div => .slash | .mod => .modulo | .and => .e

/-- Prefix operators. -/
inductive Prefix where
  | plus | minus | not
  deriving DecidableEq, Repr

def Prefix.text : Prefix → List Char
  | .plus => "+".toList | .minus => "-".toList | .not => "nao".toList

def Prefix.tt : Prefix → TT
  | .plus => .plus | .minus => .minus | .not => .nao

/-- Operator expressions over numerals and names. -/
inductive OpTree where
  | num (digits : List Char) (n : Nat)
  | name (w : List Char)
  | bin (o : Infix) (l r : OpTree)
  | un (o : Prefix) (t : OpTree)

/-- Its numerals and names can be written. -/
def OpTree.Writable (py : PyCfg) : OpTree → Prop
  | .num w n => Decimal w n ∧ w.length ≤ 4300
  | .name w => IsWord py w ∧ ∀ tt, (w, tt) ∉ keywordTable
  | .bin _ l r => l.Writable py ∧ r.Writable py
  | .un _ t => t.Writable py

def word (text : List Char) (tt : TT) (lexeme : Lexeme) : WrittenToken := ⟨text, tt, lexeme, [' ']⟩

/-- Parentheses where they are needed. -/
def parenthesised (needed : Bool) (ws : List WrittenToken) : List WrittenToken :=
  if needed then word ['('] .lpar (.text ['(']) :: ws ++ [word [')'] .rpar (.text [')'])] else ws

/-- The words of a tree where level `k` is wanted, with as few parentheses as possible. -/
def OpTree.words : Nat → OpTree → List WrittenToken
  | _, .num w n => [word w .integer (.int n)]
  | _, .name w => [word w .identifier (.text w)]
  | k, .bin o l r => parenthesised (o.level < k)
      (l.words o.level ++ word o.text o.tt (.text o.text) :: r.words (o.level + 1))
  | k, .un o t => parenthesised (5 < k) (word o.text o.tt (.text o.text) :: t.words 5)

/-- The text of a tree, with as few parentheses as possible. -/
def OpTree.text (t : OpTree) : List Char := writtenText (t.words 1)

/-- `1 + 2 * x` needs no parentheses, `(1 + 2) * x` does, and so does `1 - (2 - x)`. -/
example :
    let one := OpTree.num ['1'] 1
    let two := OpTree.num ['2'] 2
    let x := OpTree.name ['x']
    (OpTree.bin .add one (.bin .mul two x)).text = "1 + 2 * x ".toList ∧
    (OpTree.bin .mul (.bin .add one two) x).text = "( 1 + 2 ) * x ".toList ∧
    (OpTree.bin .sub one (.bin .sub two x)).text = "1 - ( 2 - x ) ".toList ∧
    (OpTree.bin .sub (.bin .sub one two) (.un .minus x)).text = "1 - 2 - - x ".toList := by
  decide +kernel

/-- A syntax tree is the given operator tree. -/
inductive Means : Expr → OpTree → Prop
  | num {t w n} : t.tt = .integer → t.lexeme = .int n → Means (.const t) (.num w n)
  | name {t w} : t.tt = .identifier → t.lexeme = .text w → Means (.var t) (.name w)
  | bin {t o l r tl tr} : t.tt = o.tt → t.lexeme = .text o.text → Means l tl → Means r tr →
      Means (.bin t l r) (.bin o tl tr)
  | un {t o e te} : t.tt = o.tt → t.lexeme = .text o.text → Means e te → Means (.un t e) (.un o te)

theorem infix_facts (o : Infix) : (o.text, o.tt) ∈ symbolTable ∨ (o.text, o.tt) ∈ keywordTable := by
  cases o <;> decide

theorem infix_level (o : Infix) : opLevel o.tt = some o.level := by cases o <;> rfl

theorem prefix_facts (o : Prefix) : (o.text, o.tt) ∈ symbolTable ∨ (o.text, o.tt) ∈ keywordTable := by
  cases o <;> decide

theorem prefix_unary (o : Prefix) : IsUnaryOp o.tt := by cases o <;> simp [IsUnaryOp, Prefix.tt]

theorem words_ok {py : PyCfg} (hpy : py.Lawful) (t : OpTree) (ht : t.Writable py) (k : Nat) :
    WrittenOk py (t.words k) := by
  have hb : IsBlank py [' '] := ⟨by simp, by
    intro c hc
    simp only [List.mem_singleton] at hc
    subst hc
    exact ⟨by rw [hpy.space _ (by decide)]; decide, by decide⟩⟩
  have hpar : ∀ (b : Bool) (ws : List WrittenToken), WrittenOk py ws → WrittenOk py (parenthesised b ws) := by
    intro b ws hws
    cases b with
    | false => exact hws
    | true =>
        intro w hw
        simp only [parenthesised, ↓reduceIte, List.cons_append, List.mem_cons, List.mem_append, List.not_mem_nil,
          or_false] at hw
        rcases hw with rfl | hw | rfl
        · exact ⟨.symbol (by decide), hb⟩
        · exact hws w hw
        · exact ⟨.symbol (by decide), hb⟩
  induction t generalizing k with
  | num w n =>
      intro x hx
      simp only [OpTree.words, List.mem_singleton] at hx
      subst hx
      exact ⟨.numeral ht.1 ht.2, hb⟩
  | name w =>
      intro x hx
      simp only [OpTree.words, List.mem_singleton] at hx
      subst hx
      exact ⟨.word ht.1 ht.2, hb⟩
  | bin o l r ihl ihr =>
      refine hpar _ _ ?_
      intro x hx
      simp only [List.mem_append, List.mem_cons] at hx
      rcases hx with hx | rfl | hx
      · exact ihl ht.1 _ x hx
      · refine ⟨?_, hb⟩
        rcases infix_facts o with h | h
        · exact .symbol h
        · exact .keyword h
      · exact ihr ht.2 _ x hx
  | un o t ih =>
      refine hpar _ _ ?_
      intro x hx
      simp only [List.mem_cons] at hx
      rcases hx with rfl | hx
      · refine ⟨?_, hb⟩
        rcases prefix_facts o with h | h
        · exact .symbol h
        · exact .keyword h
      · exact ih ht _ x hx

theorem parenthesised_spelled (k : Nat) (needed : Bool) (ws : List WrittenToken) (tr : OpTree) (ts : List Token)
    (hus : ∀ us : List Token, us.map (fun t => (t.tt, t.lexeme)) = ws.map (fun t => (t.tt, t.lexeme)) →
      ∃ e, Spelled (if needed then 1 else k) e us ∧ Means e tr)
    (h : ts.map (fun t => (t.tt, t.lexeme)) = (parenthesised needed ws).map (fun t => (t.tt, t.lexeme))) :
    ∃ e, Spelled k e ts ∧ Means e tr := by
  cases needed with
  | false => exact hus ts h
  | true =>
      simp only [parenthesised, ↓reduceIte, List.map_append, List.map_cons, List.map_nil, List.cons_append, word] at h
      obtain ⟨lp, ts1, rfl, h1, h2⟩ := List.map_eq_cons_iff.mp h
      obtain ⟨us, ts2, rfl, h3, h4⟩ := List.map_eq_append_iff.mp h2
      obtain ⟨rp, ts3, rfl, h5, h6⟩ := List.map_eq_cons_iff.mp h4
      obtain rfl := List.map_eq_nil_iff.mp h6
      simp only [Prod.mk.injEq] at h1 h5
      obtain ⟨e, he, hm⟩ := hus us h3
      exact ⟨e, .paren h1.1 h5.1 he, hm⟩

/-- Tokens with the kinds and lexemes of the words of a tree spell a syntax tree that means it. -/
theorem words_spelled (t : OpTree) (k : Nat) (ts : List Token)
    (h : ts.map (fun t => (t.tt, t.lexeme)) = (t.words k).map (fun t => (t.tt, t.lexeme))) :
    ∃ e, Spelled k e ts ∧ Means e t := by
  induction t generalizing k ts with
  | num w n =>
      obtain ⟨t, ts1, rfl, h1, h2⟩ := List.map_eq_cons_iff.mp h
      obtain rfl := List.map_eq_nil_iff.mp h2
      simp only [word, Prod.mk.injEq] at h1
      exact ⟨.const t, .const (.inl h1.1), .num h1.1 h1.2⟩
  | name w =>
      obtain ⟨t, ts1, rfl, h1, h2⟩ := List.map_eq_cons_iff.mp h
      obtain rfl := List.map_eq_nil_iff.mp h2
      simp only [word, Prod.mk.injEq] at h1
      exact ⟨.var t, .var h1.1, .name h1.1 h1.2⟩
  | bin o l r ihl ihr =>
      refine parenthesised_spelled k _ _ _ ts ?_ h
      intro us hus
      rw [List.map_append, List.map_cons] at hus
      obtain ⟨us1, us2, rfl, h3, h4⟩ := List.map_eq_append_iff.mp hus
      obtain ⟨op, us3, rfl, h5, h6⟩ := List.map_eq_cons_iff.mp h4
      obtain ⟨el, hl1, hl2⟩ := ihl _ us1 h3
      obtain ⟨er, hr1, hr2⟩ := ihr _ us3 h6
      simp only [word, Prod.mk.injEq] at h5
      refine ⟨.bin op el er, .bin (by rw [h5.1]; exact infix_level o) ?_ hl1 hr1, .bin h5.1 h5.2 hl2 hr2⟩
      split
      next hc => have := (opLevel_range (infix_level o)).1; omega
      next hc => simpa using hc
  | un o t ih =>
      refine parenthesised_spelled k _ _ _ ts ?_ h
      intro us hus
      rw [List.map_cons] at hus
      obtain ⟨op, us3, rfl, h5, h6⟩ := List.map_eq_cons_iff.mp hus
      obtain ⟨e, h1, h2⟩ := ih _ us3 h6
      simp only [word, Prod.mk.injEq] at h5
      refine ⟨.un op e, .un (by rw [h5.1]; exact prefix_unary o) ?_ h1, .un h5.1 h5.2 h2⟩
      split
      next hc => omega
      next hc => simpa using hc

/-- The parser receives the tokens of the text. -/
theorem init_of_all {py : PyCfg} (hpy : py.Lawful) {fuel : Nat} {l : Lex} {out : List Token} (h : l.all py fuel = .ok out) :
    ∃ eof, l.stream py fuel = (out, .ok eof) ∧ eof.tt = .lexEof := by
  induction fuel generalizing l out with
  | zero => simp [Lex.all] at h
  | succ fuel ih =>
      unfold Lex.all at h
      unfold Lex.stream
      cases hg : l.getToken py with
      | error e => rw [hg] at h; simp at h
      | ok p =>
          obtain ⟨t, l'⟩ := p
          rw [hg] at h
          simp only at h ⊢
          split at h
          next he =>
            simp only [Except.ok.injEq] at h
            obtain ⟨gap, text, hs, _, hsp⟩ := getToken_spec hpy hg
            have hnil := hsp.final he
            have h3 : l'.getToken py = .ok ({ tt := .lexEof, lexeme := .text [], line := l'.line, col := l'.pos }, l') := by
              simp [Lex.getToken, Lex.skip, Lex.token, hnil]
            rw [if_pos he, h3]
            exact ⟨_, by rw [← h]; rfl, rfl⟩
          next he =>
            rw [except_map_eq_ok] at h
            obtain ⟨out', h1, h2⟩ := h
            obtain ⟨eof, h3, h4⟩ := ih h1
            exact ⟨eof, by rw [if_neg he, h3, ← h2], h4⟩

/-- A lone expression is a module. -/
theorem module_of_expression {py : PyCfg} (hpy : py.Lawful) {e : Expr} {ts : List Token} (h : Spelled 1 e ts) {r0 eof : Token}
    (hr : r0.tt = .lexEof) (he : eof.tt = .lexEof) {N : Nat} (hN : (st (.ok eof) (ts ++ [r0])).weight ≤ N) :
    ∃ s', moduleL py (recN py N) (st (.ok eof) (ts ++ [r0])) = .ok ({ annotations := [], stmts := [.expr e] }, s') := by
  have hl : LastOk (.ok eof) := ⟨fun t ht => by simp only [Except.ok.injEq] at ht; exact ht ▸ he, by simp⟩
  have hread := expression_read_back hpy h (r0 := r0) (rest := []) (by rw [hr]; simp [EndsExpr, opLevel]) hl hN
  obtain ⟨t, ts', rfl, ht⟩ := h.start
  have hexpr : expression py (recN py N) (st (.ok eof) (t :: ts' ++ [r0])) = .ok (e, st (.ok eof) [r0]) := by
    unfold expression assignmentL
    rw [bind_apply, bind_ok hread, look_bind, if_neg (by simp [hr])]
    simp only [pure_st]
    rw [look_bind]
    simp [hr, compoundOp, pure_st]
  have hdecl : declStmt py (recN py N) (st (.ok eof) (t :: ts' ++ [r0])) = .ok ([.expr e], ⟨eof, [], .ok eof⟩) := by
    unfold declStmt
    rw [bind_ok hexpr]
    have : declTail py (recN py N) e (st (.ok eof) [r0]) = .ok ([.expr e], st (.ok eof) [r0]) := by
      unfold declTail
      rw [look_bind]
      split
      next => rw [if_neg (by simp [hr]), if_neg (by simp [hr])]; rfl
      next => rfl
    rw [bind_ok this]
    have : endStmt (st (.ok eof) [r0]) = .ok ((), ⟨eof, [], .ok eof⟩) := by
      unfold endStmt
      rw [if_pos (by simp [hr])]
      rfl
    rw [bind_ok this]
    rfl
  have hst : ∀ tt : TT, ¬ (IsStart tt ∨ IsUnaryOp tt) → t.tt ≠ tt := by
    rintro tt hn rfl
    exact hn (by tauto)
  have no : ∀ tt ∈ [TT.newline, .doubleat, .usa, .lexEof, .at, .func, .met, .registo, .uniao, .mostra, .retorna, .produz,
      .enquanto, .se, .para, .escolha, .quebra, .continua, .iguala],
      (st (.ok eof) (t :: ts' ++ [r0])).look.tt ≠ tt := by
    intro tt htt
    refine hst tt ?_
    simp only [List.mem_cons, List.not_mem_nil, or_false] at htt
    unfold IsStart IsUnaryOp
    rcases htt with rfl | rfl | rfl | rfl | rfl | rfl | rfl | rfl | rfl | rfl | rfl | rfl | rfl | rfl | rfl | rfl | rfl | rfl | rfl <;> simp
  have hitem : blockItem py (recN py N) [] (st (.ok eof) (t :: ts' ++ [r0])) = .ok ([.expr e], ⟨eof, [], .ok eof⟩) := by
    unfold blockItem
    rw [look_bind, if_neg (no .newline (by simp))]
    have hann : declAnnotations (st (.ok eof) (t :: ts' ++ [r0])) = .ok ([], st (.ok eof) (t :: ts' ++ [r0])) := by
      unfold declAnnotations
      rw [look_bind, if_neg (no .at (by simp))]
      rfl
    have : declaration py (recN py N) (st (.ok eof) (t :: ts' ++ [r0])) = .ok ([.expr e], ⟨eof, [], .ok eof⟩) := by
      unfold declaration statement
      rw [bind_ok hann, look_bind, if_neg (no .func (by simp)), if_neg (no .met (by simp)), if_neg (no .registo (by simp)),
        if_neg (no .uniao (by simp)), look_bind, if_neg (no .mostra (by simp)), if_neg (no .retorna (by simp)),
        if_neg (no .produz (by simp)), if_neg (no .enquanto (by simp)), if_neg (no .se (by simp)), if_neg (no .para (by simp)),
        if_neg (no .escolha (by simp)), if_neg (by
          rintro (h | h)
          · exact no .quebra (by simp) h
          · exact no .continua (by simp) h), if_neg (no .iguala (by simp))]
      exact hdecl
    rw [bind_ok this]
    rfl
  refine ⟨⟨eof, [], .ok eof⟩, ?_⟩
  unfold moduleL annotationList
  rw [bind_ok (skipNewlines_st (no .newline (by simp))), bind_ok (loop_stop (decide_eq_false (no .doubleat (by simp)))),
    bind_ok (loop_stop (decide_eq_false (no .usa (by simp))))]
  have hloop : loop (fun x => decide (x ≠ .lexEof)) (blockItem py (recN py N)) [] (st (.ok eof) (t :: ts' ++ [r0])) =
      .ok ([.expr e], ⟨eof, [], .ok eof⟩) := by
    rw [loop_step (K := anyTokens hpy) (cond := fun x => decide (x ≠ .lexEof)) (body := blockItem py (recN py N))
      (n := N + 1) (fun a => tot_blockItem (recTot N) (by omega)) (good_st hpy hl _)
      (by omega) (decide_eq_true (no .lexEof (by simp))) hitem]
    exact loop_stop (by simp [he])
  rw [bind_ok hloop]
  rfl

/-- **C31.** Parsing the text of any operator tree, written with as few parentheses as possible,
gives back that tree: `* / // % e` bind tighter than `+ - ou`, those tighter than comparisons, those
tighter than `== !=`, unary operators tighter than binary ones, and all binary operators associate
to the left (see `OpTree.words`). -/
theorem precedence {py : PyCfg} (hpy : py.Lawful) (t : OpTree) (ht : t.Writable py) :
    ∃ e, parse py t.text = .ok { annotations := [], stmts := [.expr e] } ∧ Means e t := by
  obtain ⟨out, h1, h2⟩ := tokens_lex_back hpy (t.words 1) (words_ok hpy t ht 1)
  obtain ⟨ts, es, rfl, h3, h4⟩ := List.map_eq_append_iff.mp h2
  obtain ⟨r0, es', rfl, h5, h6⟩ := List.map_eq_cons_iff.mp h4
  obtain rfl := List.map_eq_nil_iff.mp h6
  simp only [Prod.mk.injEq] at h5
  obtain ⟨e, he, hm⟩ := words_spelled t 1 ts h3
  obtain ⟨eof, h7, h8⟩ := init_of_all hpy h1
  have hinit : PState.init py t.text = .ok (st (.ok eof) (ts ++ [r0])) := by
    unfold PState.init
    unfold OpTree.text
    rw [h7]
    cases ts <;> rfl
  obtain ⟨s', hs'⟩ := module_of_expression hpy he h5.1 h8 (N := (st (.ok eof) (ts ++ [r0])).weight + 1) (by omega)
  refine ⟨e, ?_, hm⟩
  unfold parse
  rw [hinit]
  simp only [bind, Except.bind, pure, Except.pure]
  rw [hs']

/-- A tree that meets the hypothesis, with its text. -/
example :
    let t := OpTree.bin .mul (.bin .add (.num ['1'] 1) (.name ['x'])) (.un .not (.name ['y']))
    t.Writable samplePy ∧ t.text = "( 1 + x ) * nao y ".toList := by
  refine ⟨⟨⟨⟨.digit '1' (by decide), by decide⟩, ?_⟩, ?_⟩, by decide +kernel⟩
  all_goals
    refine ⟨⟨⟨_, [], rfl, by decide⟩, by decide⟩, fun tt h => ?_⟩
  · exact (by decide : ∀ p ∈ keywordTable, p.1 ≠ ['x']) _ h rfl
  · exact (by decide : ∀ p ∈ keywordTable, p.1 ≠ ['y']) _ h rfl

/-- A tree with every kind of node that meets the hypotheses of `expression_read_back`:
`f(a, 1).g[-2]`. -/
example :
    let tk (tt : TT) (s : String) : Token := ⟨tt, .text s.toList, 1, 0⟩
    let n (k : Nat) : Token := ⟨.integer, .int k, 1, 0⟩
    Spelled 1
      (.index (tk .rbracket "]")
        (.get (.call (.var (tk .identifier "f")) [.var (tk .identifier "a"), .const (n 1)]) (tk .identifier "g"))
        (.un (tk .minus "-") (.const (n 2))))
      [tk .identifier "f", tk .lpar "(", tk .identifier "a", tk .comma ",", n 1, tk .rpar ")", tk .dot ".",
        tk .identifier "g", tk .lbracket "[", tk .minus "-", n 2, tk .rbracket "]"] := by
  intro tk n
  refine .index (ts := [tk .identifier "f", tk .lpar "(", tk .identifier "a", tk .comma ",", n 1, tk .rpar ")", tk .dot ".",
    tk .identifier "g"]) (lb := tk .lbracket "[") (ti := [tk .minus "-", n 2]) (by omega) ?_ rfl
    (.un (ts := [n 2]) (.inr (.inl rfl)) (by omega) (.const (.inl rfl))) rfl
  refine .get (ts := [tk .identifier "f", tk .lpar "(", tk .identifier "a", tk .comma ",", n 1, tk .rpar ")"])
    (dot := tk .dot ".") (by omega) ?_ rfl rfl
  refine .call (tf := [tk .identifier "f"]) (lp := tk .lpar "(") (rp := tk .rpar ")")
    (args := [(tk .comma ",", .var (tk .identifier "a"), [tk .identifier "a"]), (tk .comma ",", .const (n 1), [n 1])])
    (by omega) (.var rfl) rfl ?_ ?_ rfl
  · intro a ha
    simp only [List.mem_cons, List.not_mem_nil, or_false] at ha
    rcases ha with rfl | rfl <;> rfl
  · intro a ha
    simp only [List.mem_cons, List.not_mem_nil, or_false] at ha
    rcases ha with rfl | rfl
    · exact .var rfl
    · exact .const (.inl rfl)

/-! ## C33: compound assignment -/

/-- The compound assignment operators with the operators they stand for. -/
inductive Compound where
  | add | sub | mul | div
  deriving DecidableEq, Repr

/-- The kind of the token `op=`. -/
def Compound.tt : Compound → TT
  | .add => .pluseq | .sub => .minuseq | .mul => .stareq | .div => .slasheq

/-- The token of the operator alone, at the place of `t`. -/
def Compound.op (c : Compound) (t : Token) : Token :=
  match c with
  | .add => { t with tt := .plus, lexeme := .text ['+'] }
  | .sub => { t with tt := .minus, lexeme := .text ['-'] }
  | .mul => { t with tt := .star, lexeme := .text ['*'] }
  | .div => { t with tt := .slash, lexeme := .text ['/'] }

/-- The token `=` at the place of `t`. -/
def eqAt (t : Token) : Token := { t with tt := .equal, lexeme := .text ['='] }

theorem compoundOp_spec (c : Compound) (t : Token) (ht : t.tt = c.tt) :
    ∃ tt ch, compoundOp t.tt = some (tt, ch) ∧ { t with tt := tt, lexeme := .text [ch] } = c.op t := by
  cases c <;> simp [ht, Compound.tt, compoundOp, Compound.op]

theorem compound_ends (c : Compound) {t : Token} (ht : t.tt = c.tt) : EndsExpr t.tt ∧ t.tt ≠ .equal ∧ t.tt ≠ .lexEof := by
  rw [ht]
  cases c <;> simp [Compound.tt, EndsExpr, opLevel]

/-- `expression` on `target op= value`, up to the right side. -/
theorem expression_compound {py : PyCfg} (hpy : py.Lawful) {x : Expr} {tx : List Token} (hx : Spelled 1 x tx)
    (ha : x.isAssignable = true) (c : Compound) {op : Token} (hop : op.tt = c.tt) (hl : LastOk last) {N : Nat}
    (hw : (st last (tx ++ op :: t :: ts)).weight ≤ N) :
    expression py (recN py N) (st last (tx ++ op :: t :: ts)) =
      compoundRhs py (recN py N) (eqAt op) (c.op op) x (st last (t :: ts)) := by
  obtain ⟨h1, h2, _⟩ := compound_ends c hop
  unfold expression assignmentL
  rw [bind_apply, bind_ok (expression_read_back hpy hx h1 hl hw), look_bind, if_neg (by simpa using h2)]
  simp only [pure_st]
  rw [look_bind]
  obtain ⟨tt, ch, h3, h4⟩ := compoundOp_spec c op hop
  simp only [st_look, h3, ha, ↓reduceIte]
  rw [bind_ok nextTok_st, ← h4]
  rfl

/-- `expression` on `target = value`. -/
theorem expression_assign {py : PyCfg} (hpy : py.Lawful) {x v : Expr} {tx tv : List Token} (hx : Spelled 1 x tx)
    (ha : x.isAssignable = true) {eq r0 : Token} (heq : eq.tt = .equal) (hv : Spelled 1 v tv)
    (hr : EndsExpr r0.tt) (hr1 : r0.tt ≠ .equal) (hr2 : compoundOp r0.tt = none) (hl : LastOk last) {N : Nat}
    (hw : (st last (tx ++ eq :: (tv ++ r0 :: rest))).weight ≤ N) :
    expression py (recN py N) (st last (tx ++ eq :: (tv ++ r0 :: rest))) = .ok (mkAssign eq x v, st last (r0 :: rest)) := by
  have hassign : assignmentL py (recN py N) (st last (tx ++ eq :: (tv ++ r0 :: rest))) =
      .ok (mkAssign eq x v, st last (r0 :: rest)) := by
    unfold assignmentL
    have hend : EndsExpr eq.tt := by rw [heq]; simp [EndsExpr, opLevel]
    have hwv : (st last (tv ++ r0 :: rest)).weight < N := by
      rw [weight_append] at hw
      obtain ⟨u, us, rfl, _⟩ := hv.start
      rw [List.cons_append, weight_cons] at hw
      have := weight_pos (t := eq) (by simp [heq])
      rw [List.cons_append]; omega
    rw [bind_ok (expression_read_back hpy hx hend hl hw), look_bind, if_pos (by simp [heq])]
    obtain _ | N := N
    · omega
    have hv' : assignmentL py (recN py N) (st last (tv ++ r0 :: rest)) = .ok (v, st last (r0 :: rest)) := by
      unfold assignmentL
      rw [bind_ok (expression_read_back hpy hv hr hl (by omega)), look_bind, if_neg (by simpa using hr1)]
      rfl
    have hcons : consume .equal none (st last (eq :: (tv ++ r0 :: rest))) = .ok (eq, st last (tv ++ r0 :: rest)) := by
      cases tv <;> exact consume_st heq
    rw [bind_ok hcons]
    simp only [ha, ↓reduceIte]
    rw [bind_ok (m := (recN py (N + 1)).assignment) hv']
    rfl
  unfold expression
  rw [bind_ok hassign, look_bind]
  simp only [st_look, hr2]
  rfl

/-- **C33**, variables and vector elements: `target op= value` is read as the assignment of
`target op value` to `target`; the very tree `target = target op (value)` is read as, except that an
assignment to a vector element keeps the token `op` instead of `=` for error messages.

Partial: record fields are not covered; see `compound_field_violated`.  What running the two trees
does is the same since they are the same tree. -/
theorem compound_assignment_partial {py : PyCfg} (hpy : py.Lawful) {x v : Expr} {tx tv : List Token}
    (hx : Spelled 6 x tx) (hv : Spelled 1 v tv) (c : Compound) {op lp rp r0 : Token} (hop : op.tt = c.tt)
    (hlp : lp.tt = .lpar) (hrp : rp.tt = .rpar)
    (hr : EndsExpr r0.tt) (hr1 : r0.tt ≠ .equal) (hr2 : compoundOp r0.tt = none) (hl : LastOk last) {N : Nat}
    (hN : (st last (tx ++ eqAt op :: (tx ++ c.op op :: (lp :: tv ++ [rp]) ++ r0 :: rest))).weight ≤ N)
    (hN' : (st last (tx ++ op :: (tv ++ r0 :: rest))).weight ≤ N) :
    let short := expression py (recN py N) (st last (tx ++ op :: (tv ++ r0 :: rest)))
    let long := expression py (recN py N)
      (st last (tx ++ eqAt op :: (tx ++ c.op op :: (lp :: tv ++ [rp]) ++ r0 :: rest)))
    (∀ name, x = .var name →
      short = .ok (.assign (eqAt op) x (.bin (c.op op) x v), st last (r0 :: rest)) ∧ long = short) ∧
    (∀ tok a i, x = .index tok a i →
      short = .ok (.indexSet (c.op op) x (.bin (c.op op) x v), st last (r0 :: rest)) ∧
      long = .ok (.indexSet (eqAt op) x (.bin (c.op op) x v), st last (r0 :: rest))) := by
  have hlev : ∃ j, opLevel (c.op op).tt = some j ∧ 1 ≤ j ∧ j + 1 ≤ 6 := by
    cases c <;> exact ⟨_, rfl, by omega, by omega⟩
  obtain ⟨j, hj, hj1, hj6⟩ := hlev
  have down : ∀ k ≤ 6, Spelled k x tx := by
    intro k hk
    exact hx.mono hk
  have hbin : Spelled 1 (.bin (c.op op) x v) (tx ++ c.op op :: (lp :: tv ++ [rp])) :=
    .bin hj hj1 (down j (by omega)) (.paren hlp hrp hv)
  have hx1 := down 1 (by omega)
  have hshort : ∀ ha : x.isAssignable = true, expression py (recN py N) (st last (tx ++ op :: (tv ++ r0 :: rest))) =
      compoundRhs py (recN py N) (eqAt op) (c.op op) x (st last (tv ++ r0 :: rest)) := by
    intro ha
    cases tv with
    | nil => obtain ⟨_, _, h, _⟩ := hv.start; simp at h
    | cons u us => exact expression_compound hpy hx1 ha c hop hl hN'
  have hrhs : equalityL py (recN py N) (st last (tv ++ r0 :: rest)) = .ok (v, st last (r0 :: rest)) := by
    refine expression_read_back hpy hv hr hl ?_
    rw [weight_append] at hN'
    obtain ⟨u, us, rfl, _⟩ := hv.start
    rw [List.cons_append, weight_cons] at hN'
    rw [List.cons_append]; omega
  have hlong : ∀ ha : x.isAssignable = true, expression py (recN py N)
      (st last (tx ++ eqAt op :: (tx ++ c.op op :: (lp :: tv ++ [rp]) ++ r0 :: rest))) =
      .ok (mkAssign (eqAt op) x (.bin (c.op op) x v), st last (r0 :: rest)) :=
    fun ha => expression_assign hpy hx1 ha rfl hbin hr hr1 hr2 hl hN
  refine ⟨?_, ?_⟩
  · rintro name rfl
    rw [hshort rfl, hlong rfl]
    have h : compoundRhs py (recN py N) (eqAt op) (c.op op) (.var name) (st last (tv ++ r0 :: rest)) =
        .ok (.assign (eqAt op) (.var name) (.bin (c.op op) (.var name) v), st last (r0 :: rest)) := bind_ok hrhs
    exact ⟨h, h.symm⟩
  · rintro tok a i rfl
    rw [hshort rfl, hlong rfl]
    exact ⟨bind_ok hrhs, rfl⟩

/-- **C33 fails** for record fields: `target.field op= value` is read as `target.field = value`, for
every target, operator and value. -/
theorem compound_field_violated {py : PyCfg} (hpy : py.Lawful) {x v : Expr} {m : Token} {tx tv : List Token}
    (hx : Spelled 6 (.get x m) tx) (hv : Spelled 1 v tv) (c : Compound) {op r0 : Token} (hop : op.tt = c.tt)
    (hr : EndsExpr r0.tt) (hr1 : r0.tt ≠ .equal) (hr2 : compoundOp r0.tt = none) (hl : LastOk last) {N : Nat}
    (hN : (st last (tx ++ op :: (tv ++ r0 :: rest))).weight ≤ N)
    (hN' : (st last (tx ++ eqAt op :: (tv ++ r0 :: rest))).weight ≤ N) :
    expression py (recN py N) (st last (tx ++ op :: (tv ++ r0 :: rest))) =
      expression py (recN py N) (st last (tx ++ eqAt op :: (tv ++ r0 :: rest))) := by
  have hx1 : Spelled 1 (.get x m) tx := hx.mono (by omega)
  rw [expression_assign hpy hx1 rfl rfl hv hr hr1 hr2 hl hN']
  have hwv : (st last (tv ++ r0 :: rest)).weight < N := by
    rw [weight_append] at hN
    obtain ⟨u, us, rfl, _⟩ := hv.start
    rw [List.cons_append, weight_cons] at hN
    have := weight_pos (t := op) (compound_ends c hop).2.2
    rw [List.cons_append]; omega
  obtain _ | N := N
  · omega
  have hv' : assignmentL py (recN py N) (st last (tv ++ r0 :: rest)) = .ok (v, st last (r0 :: rest)) := by
    unfold assignmentL
    rw [bind_ok (expression_read_back hpy hv hr hl (by omega)), look_bind, if_neg (by simpa using hr1)]
    rfl
  have : expression py (recN py (N + 1)) (st last (tx ++ op :: (tv ++ r0 :: rest))) =
      compoundRhs py (recN py (N + 1)) (eqAt op) (c.op op) (.get x m) (st last (tv ++ r0 :: rest)) := by
    cases tv with
    | nil => obtain ⟨_, _, h, _⟩ := hv.start; simp at h
    | cons u us => exact expression_compound hpy hx1 rfl c hop hl hN
  rw [this]
  exact bind_ok (m := (recN py (N + 1)).assignment) hv'

/-- A tree in prefix notation, for the examples. -/
def Expr.brief : Expr → List Char
  | .const t | .var t => t.chars
  | .bin t l r => '(' :: t.chars ++ [' '] ++ l.brief ++ [' '] ++ r.brief ++ [')']
  | .un t e => '(' :: t.chars ++ [' '] ++ e.brief ++ [')']
  | .assign _ l r => "(set ".toList ++ l.brief ++ [' '] ++ r.brief ++ [')']
  | .set l r => "(set ".toList ++ l.brief ++ [' '] ++ r.brief ++ [')']
  | .indexSet _ l r => "(set ".toList ++ l.brief ++ [' '] ++ r.brief ++ [')']
  | .get e m => '(' :: '.' :: ' ' :: e.brief ++ [' '] ++ m.chars ++ [')']
  | .index _ e i => "(at ".toList ++ e.brief ++ [' '] ++ i.brief ++ [')']
  | _ => ['?']

def briefOf (src : String) : Option (List String) :=
  match parse samplePy src.toList with
  | .ok t => some (t.stmts.map fun s => match s with | .expr e => String.ofList e.brief | _ => "?")
  | .error _ => none

/-- Compound assignments to a variable, an element and a field. -/
example : briefOf "x += 2 + y\nv[i] *= 3\np.f -= 1" =
    some ["(set x (+ x (+ 2 y)))", "(set (at v i) (* (at v i) 3))", "(set (. p f) 1)"] := by
  decide +kernel

/-- Operators of all levels. -/
example : briefOf "a - b - c * -d == e2 < f ou g e h" =
    some ["(== (- (- a b) (* c (- d))) (< e2 (ou f (e g h))))"] := by
  decide +kernel

end Amanda

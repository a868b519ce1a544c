import Verif.Parser
import Lean.Elab.Tactic.Basic

/-!
# How much of its input a parsing function reads

`Tot K n d Q m`: started on fewer than `n` tokens (by weight) with a lookahead satisfying `Q`, `m`
either reads at least `d` of them or stops with an error allowed by `K`.
-/

namespace Amanda

/-- The tokens of the state satisfy `tok`, the error waiting behind them, if any, satisfies `err`. -/
structure GoodState (tok : Token → Prop) (err : PyErr → Prop) (s : PState) : Prop where
  look : tok s.look
  rest : ∀ t ∈ s.rest, tok t
  ended : ∀ t, s.last = .ok t → t.tt = .lexEof ∧ tok t
  stopped : ∀ e, s.last = .error e → err e

/-- The outcome of parsing the text of an embedded expression: reported errors are reported again, at the
format string's token. -/
def InnerOk {α : Type} (err : PyErr → Prop) : Except PyErr α → Prop
  | .ok _ => True
  | .error (.amanda ..) => True
  | .error e => err e

/-- What is assumed of the tokens, and which errors may come out. -/
structure ParseCfg (py : PyCfg) where
  tok : Token → Prop
  err : PyErr → Prop
  amanda : ∀ t, tok t → ∀ m c, err (.amanda m t.line c)
  badPattern : ∀ t, tok t → t.tt = .iguala → err (.exc "NotImplementedError")
  fmtEmpty : ∀ t, tok t → t.tt = .formatStr → err (.exc "IndexError")
  fmtInner : ∀ t, tok t → t.tt = .formatStr → ∀ N cs, cs.length < N →
    (∀ s, GoodState tok err s → s.weight < N →
      match (recN py N).equality s with
      | .ok _ => True
      | .error e => err e) →
    InnerOk err ((PState.init py cs).bind (recN py N).equality)

abbrev ParseCfg.Good {py : PyCfg} (K : ParseCfg py) (s : PState) : Prop := GoodState K.tok K.err s

variable {py : PyCfg} {K : ParseCfg py} {α β : Type} {n d : Nat} {Q : Token → Prop}

def Tot (K : ParseCfg py) (n d : Nat) (Q : Token → Prop) (m : P α) : Prop :=
  ∀ s, K.Good s → s.weight < n → Q s.look →
    match m s with
    | .ok (_, s') => K.Good s' ∧ s'.weight + d ≤ s.weight
    | .error e => K.err e

theorem Tot.mono {n' d' : Nat} {Q' : Token → Prop} {m : P α} (h : Tot K n d Q m) (hn : n' ≤ n) (hd : d' ≤ d)
    (hQ : ∀ t, Q' t → Q t) : Tot K n' d' Q' m := by
  intro s hs hw hq
  have := h s hs (by omega) (hQ _ hq)
  split
  next heq => rw [heq] at this; exact ⟨this.1, by have := this.2; omega⟩
  next heq => rw [heq] at this; exact this

theorem Tot.after {m : P α} {s s' : PState} (h : Tot K n 0 Q m) (hg : K.Good s') (hw : s'.weight < n)
    (hq : Q s'.look) (hs : s'.weight + d ≤ s.weight) :
    match m s' with
    | .ok (_, s'') => K.Good s'' ∧ s''.weight + d ≤ s.weight
    | .error e => K.err e := by
  have := h s' hg hw hq
  split
  next heq => rw [heq] at this; exact ⟨this.1, by have := this.2; omega⟩
  next heq => rw [heq] at this; exact this

theorem tot_pure (a : α) : Tot K n 0 Q (pure a : P α) := fun _ hs _ _ => ⟨hs, Nat.le_refl _⟩

theorem tot_fail (msg : String) : Tot K n d Q (fail msg : P α) := fun s hs _ _ => K.amanda s.look hs.look _ _

theorem tot_raise {name : String} (h : K.err (.exc name)) : Tot K n d Q (raiseExc name : P α) :=
  fun _ _ _ _ => h

theorem tot_raiseExc {name : String} (h : K.err (.exc name)) : Tot K n d Q (raiseExc name : P α) := tot_raise h

theorem bind_apply (m : P α) (k : α → P β) (s : PState) :
    (m >>= k) s = match m s with | .ok (a, s') => k a s' | .error e => .error e := by
  show (StateT.bind m k) s = _
  simp only [StateT.bind, bind, Except.bind]
  cases m s with
  | error e => rfl
  | ok p => rfl

theorem tot_bind1 {m : P α} {k : α → P β} (h1 : Tot K n 1 Q m)
    (h2 : ∀ a, Tot K (n - 1) 0 (fun _ => True) (k a)) : Tot K n 1 Q (m >>= k) := by
  intro s hs hw hq
  have := h1 s hs hw hq
  rw [bind_apply]
  cases hm : m s with
  | error e => rw [hm] at this; exact this
  | ok p =>
      obtain ⟨a, s'⟩ := p
      rw [hm] at this
      obtain ⟨g, w⟩ := this
      have := h2 a s' g (by omega) trivial
      show match k a s' with | .ok (_, s') => _ | .error e => _
      split
      next heq => rw [heq] at this; exact ⟨this.1, by have := this.2; omega⟩
      next heq => rw [heq] at this; exact this

theorem tot_bind0 {m : P α} {k : α → P β} (h1 : Tot K n 0 Q m)
    (h2 : ∀ a, Tot K n d (fun _ => True) (k a)) : Tot K n d Q (m >>= k) := by
  intro s hs hw hq
  have := h1 s hs hw hq
  rw [bind_apply]
  cases hm : m s with
  | error e => rw [hm] at this; exact this
  | ok p =>
      obtain ⟨a, s'⟩ := p
      rw [hm] at this
      obtain ⟨g, w⟩ := this
      have := h2 a s' g (by omega) trivial
      show match k a s' with | .ok (_, s') => _ | .error e => _
      split
      next heq => rw [heq] at this; exact ⟨this.1, by have := this.2; omega⟩
      next heq => rw [heq] at this; exact this

/-- Reading a token and going on, when only the latter's progress counts. -/
theorem tot_bind10 {m : P α} {k : α → P β} (h1 : Tot K n 1 Q m)
    (h2 : ∀ a, Tot K (n - 1) 0 (fun _ => True) (k a)) : Tot K n 0 Q (m >>= k) :=
  (tot_bind1 h1 h2).mono (Nat.le_refl _) (by omega) (fun _ h => h)

theorem tot_look {k : Token → P β} (h : ∀ t, K.tok t → Q t → Tot K n d (· = t) (k t)) :
    Tot K n d Q (look >>= k) := by
  intro s hs hw hq
  rw [bind_apply]
  exact h s.look hs.look hq s hs hw rfl

theorem tot_ite {c : Prop} [Decidable c] {m k : P α} (h1 : c → Tot K n d Q m) (h2 : ¬ c → Tot K n d Q k) :
    Tot K n d Q (if c then m else k) := by
  by_cases h : c
  · rw [if_pos h]; exact h1 h
  · rw [if_neg h]; exact h2 h

theorem weight_pos {t : Token} (h : t.tt ≠ .lexEof) : 1 ≤ t.weight := by
  unfold Token.weight
  rw [if_neg h]
  split <;> omega

theorem weight_eof {t : Token} (h : t.tt = .lexEof) : t.weight = 0 := by simp [Token.weight, h]

/-- `nextTok` gives up the weight of the lookahead. -/
theorem nextTok_weight {s : PState} (hs : K.Good s) :
    match nextTok s with
    | .ok (t, s') => t = s.look ∧ K.Good s' ∧ s'.weight + t.weight = s.weight
    | .error e => K.err e := by
  cases hr : s.rest with
  | cons t ts =>
      have e : nextTok s = .ok (s.look, { s with look := t, rest := ts }) := by simp [nextTok, hr]
      rw [e]
      refine ⟨rfl, ⟨hs.rest t (by simp [hr]), fun x hx => hs.rest x (by simp [hr, hx]), hs.ended, hs.stopped⟩, ?_⟩
      simp only [PState.weight, hr, List.map_cons, List.sum_cons]
      omega
  | nil =>
      cases hl : s.last with
      | ok t =>
          have e : nextTok s = .ok (s.look, { s with look := t }) := by simp [nextTok, hr, hl]
          rw [e]
          obtain ⟨h1, h2⟩ := hs.ended t hl
          exact ⟨rfl, ⟨h2, hs.rest, hs.ended, hs.stopped⟩, by simp [PState.weight, weight_eof h1, hr]⟩
      | error x =>
          have e : nextTok s = .error x := by simp [nextTok, hr, hl]
          rw [e]
          exact hs.stopped _ hl

theorem tot_next (h : ∀ t, Q t → t.tt ≠ .lexEof) : Tot K n 1 Q nextTok := by
  intro s hs _ hq
  have := nextTok_weight hs
  split
  next heq =>
    rw [heq] at this
    obtain ⟨h1, h2, h3⟩ := this
    have := weight_pos (h _ hq)
    rw [← h1] at this
    exact ⟨h2, by omega⟩
  next heq => rw [heq] at this; exact this

theorem tot_next0 : Tot K n 0 Q nextTok := by
  intro s hs _ hq
  have := nextTok_weight hs
  split
  next heq =>
    rw [heq] at this
    exact ⟨this.2.1, by have := this.2.2; omega⟩
  next heq => rw [heq] at this; exact this

theorem tot_consume {tt : TT} {msg : Option String} (h : tt ≠ .lexEof) : Tot K n 1 Q (consume tt msg) := by
  intro s hs hw hq
  by_cases hc : s.look.tt = tt
  · have := tot_next (K := K) (n := n) (Q := fun t => t.tt = tt) (fun t ht => by rw [ht]; exact h) s hs hw hc
    simpa only [consume, if_pos hc] using this
  · simp only [consume, if_neg hc]
    exact K.amanda s.look hs.look _ _

theorem tot_accept {tt : TT} : Tot K n 0 Q (accept tt) := by
  intro s hs hw hq
  by_cases hc : s.look.tt = tt
  · have := tot_bind0 (k := fun _ => (pure true : P Bool)) (tot_next0 (K := K) (n := n) (Q := Q))
      (fun _ => tot_pure true) s hs hw hq
    simpa only [accept, if_pos hc] using this
  · simp only [accept, if_neg hc]
    exact ⟨hs, Nat.le_refl _⟩

theorem tot_endStmt : Tot K n 0 Q endStmt := by
  intro s hs hw hq
  by_cases hc : s.look.tt = .newline ∨ s.look.tt = .semi ∨ s.look.tt = .lexEof
  · have := tot_bind0 (k := fun _ => (pure () : P Unit)) (tot_next0 (K := K) (n := n) (Q := Q))
      (fun _ => tot_pure ()) s hs hw hq
    simpa only [endStmt, if_pos hc] using this
  · simp only [endStmt, if_neg hc]
    exact K.amanda s.look hs.look _ _

theorem tot_loopN {cond : TT → Bool} {body : α → P α} (fuel : Nat)
    (h : ∀ a, Tot K n 1 (fun t => cond t.tt = true) (body a)) (a : α) (s : PState) (hs : K.Good s)
    (hw : s.weight < n) (hf : s.weight < fuel) :
    match loopN cond body fuel a s with
    | .ok (_, s') => K.Good s' ∧ s'.weight ≤ s.weight
    | .error e => K.err e := by
  induction fuel generalizing a s with
  | zero => omega
  | succ fuel ih =>
      unfold loopN
      by_cases hc : cond s.look.tt = true
      · rw [if_pos hc, bind_apply]
        have hb := h a s hs hw hc
        cases hm : body a s with
        | error e => rw [hm] at hb; exact hb
        | ok p =>
            obtain ⟨b, s'⟩ := p
            rw [hm] at hb
            obtain ⟨g, w⟩ := hb
            have := ih b s' g (by omega) (by omega)
            show match loopN cond body fuel b s' with | .ok (_, s') => _ | .error e => _
            split
            next heq => rw [heq] at this; exact ⟨this.1, by have := this.2; omega⟩
            next heq => rw [heq] at this; exact this
      · rw [if_neg hc]
        exact ⟨hs, Nat.le_refl _⟩

theorem tot_loop {cond : TT → Bool} {body : α → P α} {a : α}
    (h : ∀ a, Tot K n 1 (fun t => cond t.tt = true) (body a)) : Tot K n 0 Q (loop cond body a) := by
  intro s hs hw _
  exact tot_loopN (s.weight + 1) h a s hs hw (by omega)

theorem tot_skipNewlines : Tot K n 0 Q skipNewlines := by
  unfold skipNewlines
  refine tot_loop fun _ => tot_bind1 (tot_next fun t ht => ?_) fun _ => tot_pure ()
  simp only [decide_eq_true_eq] at ht
  rw [ht]; decide

theorem tot_consumeNl {tt : TT} (h : tt ≠ .lexEof) : Tot K n 1 Q (consumeNl tt) :=
  tot_bind0 tot_skipNewlines fun _ => tot_consume h

/-- The table of functions handles fewer than `N` tokens. -/
structure RecTot (K : ParseCfg py) (N : Nat) (r : Rec) : Prop where
  type : Tot K N 1 (fun _ => True) r.type
  pattern : K.err (.exc "NotImplementedError") → Tot K N 1 (fun _ => True) r.pattern
  equality : Tot K N 1 (fun _ => True) r.equality
  assignment : Tot K N 1 (fun _ => True) r.assignment
  unary : Tot K N 1 (fun _ => True) r.unary
  block : Tot K N 0 (fun _ => True) r.block
  fmt : ∀ t, K.tok t → t.tt = .formatStr → ∀ cs, cs.length < N →
    InnerOk K.err ((PState.init py cs).bind r.equality)

theorem tot_of {m : P α} {n' d' : Nat} {Q : Token → Prop} (h : Tot K n d (fun _ => True) m) (hn : n' ≤ n) (hd : d' ≤ d) :
    Tot K n' d' Q m := h.mono hn hd fun _ _ => trivial

theorem tot_of0 {m : P α} (h : Tot K n 1 Q m) : Tot K n 0 Q m := h.mono (Nat.le_refl _) (by omega) fun _ h => h

theorem tot_type {r : Rec} {N : Nat} (hr : RecTot K N r) (hn : n ≤ N) : Tot K n 1 Q r.type :=
  tot_of hr.type hn (Nat.le_refl _)

theorem tot_pattern {r : Rec} {N : Nat} (hr : RecTot K N r) (hp : K.err (.exc "NotImplementedError")) (hn : n ≤ N) :
    Tot K n 1 Q r.pattern := tot_of (hr.pattern hp) hn (Nat.le_refl _)

theorem tot_equality {r : Rec} {N : Nat} (hr : RecTot K N r) (hn : n ≤ N) : Tot K n 1 Q r.equality :=
  tot_of hr.equality hn (Nat.le_refl _)

theorem tot_assignment {r : Rec} {N : Nat} (hr : RecTot K N r) (hn : n ≤ N) : Tot K n 1 Q r.assignment :=
  tot_of hr.assignment hn (Nat.le_refl _)

theorem tot_unary {r : Rec} {N : Nat} (hr : RecTot K N r) (hn : n ≤ N) : Tot K n 1 Q r.unary :=
  tot_of hr.unary hn (Nat.le_refl _)

theorem tot_block {r : Rec} {N : Nat} (hr : RecTot K N r) (hn : n ≤ N) : Tot K n 0 Q r.block :=
  tot_of hr.block hn (Nat.le_refl _)

theorem tot_nextTok (h : ∀ t, Q t → t.tt ≠ .lexEof) : Tot K n 1 Q nextTok := tot_next h

/-- `tot` proves `Tot ..` along the structure of a function, using the theorem `tot_f` for a call
of `f`. -/
syntax (name := totTac) "tot" : tactic

open Lean Elab Tactic Meta in
@[tactic totTac] partial def evalTot : Tactic := fun _ => focus do
  let g ← getMainGoal
  let ty ← instantiateMVars (← g.getType)
  let m := ty.appArg!
  let some c := m.getAppFn.constName? | throwError "tot: no head"
  if c == ``Bind.bind then
    let first := m.getAppArgs[4]!
    if first.getAppFn.constName? == some ``Amanda.look then
      evalTactic (← `(tactic| (with_reducible refine tot_look fun t _ ht => ?_) <;> tot))
    else
      evalTactic (← `(tactic| first
        | ((with_reducible refine tot_bind1 ?_ (fun x => ?_)) <;> tot)
        | ((with_reducible refine tot_bind10 ?_ (fun x => ?_)) <;> tot)
        | ((with_reducible refine tot_bind0 ?_ (fun x => ?_)) <;> tot)))
  else if c == ``ite then
    evalTactic (← `(tactic| (with_reducible refine tot_ite (fun _ => ?_) (fun _ => ?_)) <;> tot))
  else if c == ``Amanda.loop then
    evalTactic (← `(tactic| (with_reducible refine tot_loop fun _ => ?_) <;> tot))
  else if c == ``Amanda.nextTok then
    evalTactic (← `(tactic| (with_reducible first | refine tot_next ?_ | refine tot_of0 (tot_next ?_)) <;>
      (intro _ hlook heof; simp_all [isLiteral, isTermOp, isAddOp, isCompOp, isEqOp]; done)))
  else if ← isMatcher c then
    evalTactic (← `(tactic| split <;> tot))
  else
    let lem := mkIdent (`Amanda ++ Name.mkSimple ("tot_" ++ c.getString!))
    evalTactic (← `(tactic| first
      | (with_reducible apply $lem) <;> first | assumption | omega | decide
      | (with_reducible refine tot_of0 ?_) <;> (with_reducible apply $lem) <;> first | assumption | omega | decide))

variable {r : Rec} {N : Nat}

theorem tot_genericList {item : P α} (h : Tot K n 1 (fun _ => True) item) : Tot K n 1 Q (genericList item) := by
  unfold genericList
  refine tot_bind1 (tot_consume (by decide)) fun _ => tot_look fun t _ _ => tot_ite (fun _ => tot_fail _) fun _ =>
    tot_bind0 (tot_loop fun _ => tot_bind1 (tot_of h (by omega) (by omega)) fun _ => ?_) fun _ => ?_
  all_goals tot

theorem tot_genericArgs (hr : RecTot K N r) (hn : n ≤ N) : Tot K n 0 Q (genericArgs r) := by
  unfold genericArgs
  refine tot_look fun t _ _ => tot_ite (fun _ => tot_of0 (tot_bind1 (tot_genericList (tot_of hr.type hn (by omega)))
    fun _ => tot_pure _)) fun _ => tot_pure _

theorem tot_genericParams : Tot K n 0 Q genericParams := by
  unfold genericParams
  exact tot_look fun t _ _ => tot_ite (fun _ => tot_of0 (tot_genericList (tot_consume (by decide)))) fun _ =>
    tot_pure _

theorem tot_typePath {head : Token} (hr : RecTot K N r) (hn : n ≤ N) : Tot K n 0 Q (typePath r head) := by
  unfold typePath isMaybeType
  tot

theorem tot_typeName {name : Token} (hr : RecTot K N r) (hn : n ≤ N) : Tot K n 0 Q (typeName r name) := by
  unfold typeName isMaybeType
  tot

theorem tot_typeL (hr : RecTot K N r) (hn : n ≤ N + 1) : Tot K n 1 Q (typeL r) := by
  unfold typeL isMaybeType
  tot

/-! ## Format strings -/

theorem fmtSplit_length {b : Bool} {l cur cs : List Char} (h : .expr cs ∈ fmtSplit b l cur) :
    cs.length ≤ l.length + if b then cur.length else 0 := by
  fun_induction fmtSplit b l cur with
  | case1 cur => unfold fmtFlush at h; split at h <;> simp at h
  | case2 cs' cur ih => have := ih h; simp at this ⊢; omega
  | case3 cur cs' hne ih =>
      simp only [List.mem_append] at h
      rcases h with h | h
      · unfold fmtFlush at h; split at h <;> simp at h
      · have := ih h; simp at this ⊢; omega
  | case4 cur c cs' hne hc ih => have := ih h; simp at this ⊢; omega
  | case5 cur => simp at h
  | case6 cur cs' ih =>
      simp only [List.mem_cons, FmtPiece.expr.injEq] at h
      rcases h with rfl | h
      · simp
      · have := ih h; simp at this ⊢; omega
  | case7 cur c cs' hc ih => have := ih h; simp at this ⊢; omega

theorem inner_length (t : Token) : t.inner.length ≤ t.chars.length := by
  simp [Token.inner]; omega

theorem tot_fstrExpr {token : Token} {cs : List Char} (hr : RecTot K N r) (ht : K.tok token)
    (hf : token.tt = .formatStr) (hl : cs.length < N) : Tot K n 0 Q (fstrExpr py r token cs) := by
  intro s hs hw hq
  simp only [fstrExpr]
  by_cases h1 : strip py cs = []
  · rw [if_pos h1]; exact K.amanda s.look hs.look _ _
  rw [if_neg h1]
  by_cases h2 : (strip py cs).take 2 = ['f', '\''] ∨ (strip py cs).take 2 = ['f', '"']
  · rw [if_pos h2]; exact K.amanda s.look hs.look _ _
  rw [if_neg h2]
  have hi := hr.fmt token ht hf cs hl
  cases hp : (PState.init py cs).bind r.equality with
  | ok p => exact ⟨hs, Nat.le_refl _⟩
  | error e =>
      rw [hp] at hi
      cases e with
      | amanda m l c => exact K.amanda token ht _ _
      | exc x => exact hi
      | fuel => exact hi

theorem tot_fmtParts {token : Token} (hr : RecTot K N r) (ht : K.tok token) (hf : token.tt = .formatStr)
    (ps : List FmtPiece) (hps : ∀ cs, .expr cs ∈ ps → cs.length < N) : Tot K n 0 Q (fmtParts py r token ps) := by
  induction ps generalizing n Q with
  | nil => exact tot_pure _
  | cons p ps ih =>
      have ih' := fun {n} {Q} => ih (n := n) (Q := Q) fun cs h => hps cs (by simp [h])
      cases p with
      | text cs => exact tot_bind0 ih' fun _ => tot_pure _
      | expr cs =>
          exact tot_bind0 (tot_fstrExpr hr ht hf (hps cs (by simp))) fun _ => tot_bind0 ih' fun _ => tot_pure _
      | unterminated => exact tot_fail _

theorem tot_parseFormatStr (hr : RecTot K N r) (hn : n ≤ N + 1) :
    Tot K n 1 (fun t => t.tt = .formatStr) (parseFormatStr py r) := by
  intro s hs hw hq
  have h1 := nextTok_weight hs
  unfold parseFormatStr
  rw [bind_apply]
  cases hm : nextTok s with
  | error e => rw [hm] at h1; exact h1
  | ok p =>
      obtain ⟨token, s'⟩ := p
      rw [hm] at h1
      obtain ⟨rfl, hg, hwt⟩ := h1
      have hwv : s.look.weight = 1 + s.look.chars.length := by simp [Token.weight, hq]
      have hlen : ∀ cs, .expr cs ∈ fmtSplit false s.look.inner [] → cs.length < N := by
        intro cs h
        have h1 := fmtSplit_length h
        have h2 := inner_length s.look
        simp at h1
        omega
      have h2 : Tot K n 0 (fun _ => True) (do
          let parts ← fmtParts py r s.look (fmtSplit false s.look.inner [])
          if (fmtSplit false s.look.inner []).any FmtPiece.isExpr then pure (.fmtStr s.look parts)
          else match parts with
            | p :: _ => pure p
            | [] => raiseExc "IndexError" : P Expr) := by
        refine tot_bind0 (tot_fmtParts hr hs.look hq _ hlen) fun parts => tot_ite (fun _ => tot_pure _) fun _ => ?_
        cases parts with
        | nil => exact tot_raise (K.fmtEmpty _ hs.look hq)
        | cons p ps => exact tot_pure _
      exact h2.after hg (by omega) trivial (by omega)

end Amanda

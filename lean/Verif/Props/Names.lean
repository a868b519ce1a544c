import Verif.ScopeOut
import Verif.Parser
import Verif.Props.Returns

/-!
# C39: names refer to the innermost declaration

The meaning of names is that of `Verif.ScopeSpec`: a stack of blocks and nothing else.
-/

namespace Amanda.Names

/-! ## Where the checker starts -/

/-- The scope of a module before its first statement, with the names of `embutidos.ama`
(check/core.py:97-125). -/
def start (g : List (List Char × NSym)) : NState :=
  { scopes := [{ symbols := g, parent := none }], cur := 0, depth := 0, uses := [] }

/-- The same as an environment: one block. -/
def startEnv (g : List (List Char × NSym)) : Env := [g.map fun p => (p.1, p.2.decl)]

theorem assocGet_map {V W : Type} (f : V → W) (l : List (List Char × V)) (n : List Char) :
    assocGet (l.map fun p => (p.1, f p.2)) n = (assocGet l n).map f := by
  induction l with
  | nil => rfl
  | cons x rest ih =>
    simp only [List.map_cons, assocGet]
    split <;> simp_all

theorem start_rep (g : List (List Char × NSym)) : Rep (start g) (startEnv g) := by
  refine ⟨⟨{ symbols := g, parent := none }, rfl, fun n _ => ?_, fun p hp => (nomatch hp), trivial⟩, rfl⟩
  exact (assocGet_map (fun y : NSym => y.decl) g n).symm

/-- **C39.** For every program without methods and imports and without the names kept for the compiler:
the checker accepts its names exactly when lexical scoping gives each of them a meaning, and then every
use of a name refers to the same declaration, that of the nearest enclosing block which declares it.

What is missing: methods, which the checker also defines under their bare names (`method_name_violated`);
the names a `usa` brings in; and the names starting with `_r` and `_target_`, which the compiler
defines itself.  The code generator looks up the name of a called function once more, in the finished
scope, and may find something else (`callee_again_violated`). -/
theorem names_resolve_partial (cfg : NCfg) (g : List (List Char × NSym)) (prog : List Stmt) :
    match meanBlock cfg.reached (startEnv g) prog with
    | .ok u => ∃ t, visitSs cfg prog (start g) = .ok t ∧ t.meaning = u
    | .error .outside => True
    | .error _ => ∃ e, visitSs cfg prog (start g) = .error e := by
  have h := visitBlock_ag cfg prog (start_rep g)
  cases hm : meanBlock cfg.reached (startEnv g) prog with
  | ok u =>
    rw [hm] at h
    obtain ⟨t, h1, -, h2⟩ := h
    exact ⟨t, h1, by simpa [NState.meaning, start] using h2⟩
  | error e =>
    rw [hm] at h
    cases e <;> exact h

/-! ## Declaring twice in a block -/

/-- The name a statement declares in its block. -/
def declares : Stmt → Option Token
  | .varDecl _ name _ _ | .func name _ _ _ _ _ | .registo name _ _ _ | .uniao name _ _ _ => some name
  | _ => none

theorem ebind_ok {ε α β : Type} {m : Except ε α} {g : α → Except ε β} {b : β} (h : (m >>= g) = .ok b) :
    ∃ a, m = .ok a ∧ g a = .ok b := by
  cases m with
  | error e => cases h
  | ok a => exact ⟨a, rfl, h⟩

/-- What a statement leaves behind in its block is what it declares. -/
theorem meanS_env (reached : Token → Nat → Bool) (E : Env) (x : Stmt) (u : Meaning) (F : Env)
    (h : meanS reached E x = .ok (u, F)) :
    match declares x with
    | none => F = E
    | some t => E.declare t = .ok F := by
  cases x with
  | expr e => obtain ⟨_, _, h⟩ := ebind_ok h; cases h; rfl
  | varDecl tok name ty init =>
    show E.declare name = _
    cases init with
    | none =>
      simp only [meanS] at h
      obtain ⟨G, hG, h⟩ := ebind_ok h
      cases h; exact hG
    | some e =>
      simp only [meanS] at h
      obtain ⟨G, hG, h⟩ := ebind_ok h
      split at h
      · cases h
      · split at h
        · cases h
        · obtain ⟨_, _, h⟩ := ebind_ok h; cases h; exact hG
  | loopCtl => cases h; rfl
  | retorna _ e =>
    cases e with
    | none => cases h; rfl
    | some e => obtain ⟨_, _, h⟩ := ebind_ok h; cases h; rfl
  | produz _ e => obtain ⟨_, _, h⟩ := ebind_ok h; cases h; rfl
  | mostra _ e => obtain ⟨_, _, h⟩ := ebind_ok h; cases h; rfl
  | se _ _ _ _ d =>
    cases d <;> simp only [meanS] at h <;>
    · obtain ⟨_, _, h⟩ := ebind_ok h; obtain ⟨_, _, h⟩ := ebind_ok h
      obtain ⟨_, _, h⟩ := ebind_ok h; obtain ⟨_, _, h⟩ := ebind_ok h; cases h; rfl
  | enquanto =>
    simp only [meanS] at h
    obtain ⟨_, _, h⟩ := ebind_ok h; obtain ⟨_, _, h⟩ := ebind_ok h; cases h; rfl
  | escolha _ _ _ d =>
    cases d <;> simp only [meanS] at h <;>
    · obtain ⟨_, _, h⟩ := ebind_ok h; obtain ⟨_, _, h⟩ := ebind_ok h; obtain ⟨_, _, h⟩ := ebind_ok h; cases h; rfl
  | para _ _ _ _ inc =>
    cases inc <;> simp only [meanS] at h <;>
    · obtain ⟨_, _, h⟩ := ebind_ok h; obtain ⟨_, _, h⟩ := ebind_ok h; obtain ⟨_, _, h⟩ := ebind_ok h
      obtain ⟨_, _, h⟩ := ebind_ok h; obtain ⟨_, _, h⟩ := ebind_ok h; cases h; rfl
  | func name params ret body native ann =>
    show E.declare name = _
    cases body with
    | none =>
      simp only [meanS] at h
      split at h
      · cases h
      · obtain ⟨G, hG, h⟩ := ebind_ok h
        obtain ⟨_, _, h⟩ := ebind_ok h
        cases h; exact hG
    | some b =>
      simp only [meanS] at h
      split at h
      · cases h
      · obtain ⟨G, hG, h⟩ := ebind_ok h
        obtain ⟨_, _, h⟩ := ebind_ok h
        split at h
        · cases h; exact hG
        · obtain ⟨_, _, h⟩ := ebind_ok h; cases h; exact hG
  | method => cases h
  | registo name =>
    simp only [meanS] at h
    obtain ⟨G, hG, h⟩ := ebind_ok h; obtain ⟨_, _, h⟩ := ebind_ok h; cases h; exact hG
  | uniao name =>
    simp only [meanS] at h
    obtain ⟨G, hG, h⟩ := ebind_ok h; cases h; exact hG
  | usa => cases h

/-- The innermost block declares the name. -/
def Has (E : Env) (n : List Char) : Prop := ∃ f fs, E = f :: fs ∧ (assocGet f n).isSome

theorem declare_has {E F : Env} {t : Token} (h : E.declare t = .ok F) :
    Has F t.chars ∧ (∀ n, Has E n → Has F n) ∧ ¬Has E t.chars := by
  cases E with
  | nil => cases h
  | cons f fs =>
    simp only [Env.declare] at h
    obtain ⟨f', hf, h⟩ := ebind_ok h
    cases h
    unfold Frame.declare at hf
    split at hf
    · cases hf
    · split at hf
      · cases hf
      · rename_i hn
        cases hf
        refine ⟨⟨_, _, rfl, by simp [assocGet]⟩, ?_, ?_⟩
        · rintro n ⟨_, _, he, h⟩
          cases he
          refine ⟨_, _, rfl, ?_⟩
          simp only [assocGet]
          split
          · rfl
          · exact h
        · rintro ⟨_, _, he, h⟩
          cases he
          rw [hn] at h; cases h

theorem meanS_has (reached : Token → Nat → Bool) {E F : Env} {x : Stmt} {u : Meaning} (h : meanS reached E x = .ok (u, F))
    {n : List Char} (hn : Has E n) : Has F n := by
  have := meanS_env reached E x u F h
  cases hd : declares x with
  | none => rw [hd] at this; exact this ▸ hn
  | some t => rw [hd] at this; exact (declare_has this).2.1 n hn

theorem meanBlock_has (reached : Token → Nat → Bool) {x : Stmt} {t : Token} (hx : declares x = some t) (post : List Stmt) :
    ∀ (mid : List Stmt) (E : Env), Has E t.chars → ∀ u, meanBlock reached E (mid ++ x :: post) ≠ .ok u
  | [], E, hE, u, h => by
    simp only [List.nil_append, meanBlock] at h
    obtain ⟨⟨v, F⟩, h1, -⟩ := ebind_ok h
    have := meanS_env reached E x v F h1
    rw [hx] at this
    exact (declare_has this).2.2 hE
  | y :: mid, E, hE, u, h => by
    simp only [List.cons_append, meanBlock] at h
    obtain ⟨⟨v, F⟩, h1, h2⟩ := ebind_ok h
    obtain ⟨w, h3, -⟩ := ebind_ok h2
    exact meanBlock_has reached hx post mid F (meanS_has reached h1 hE) w h3

theorem meanBlock_twice (reached : Token → Nat → Bool) {x y : Stmt} {t t' : Token} (hx : declares x = some t)
    (hy : declares y = some t') (he : t'.chars = t.chars) (mid post : List Stmt) : ∀ (pre : List Stmt) (E : Env) (u : Meaning),
      meanBlock reached E (pre ++ x :: (mid ++ y :: post)) ≠ .ok u
  | [], E, u, h => by
    simp only [List.nil_append, meanBlock] at h
    obtain ⟨⟨v, F⟩, h1, h2⟩ := ebind_ok h
    obtain ⟨w, h3, -⟩ := ebind_ok h2
    have := meanS_env reached E x v F h1
    rw [hx] at this
    exact meanBlock_has reached hy post mid F (he ▸ (declare_has this).1) w h3
  | z :: pre, E, u, h => by
    simp only [List.cons_append, meanBlock] at h
    obtain ⟨⟨v, F⟩, h1, h2⟩ := ebind_ok h
    obtain ⟨w, h3, -⟩ := ebind_ok h2
    exact meanBlock_twice reached hx hy he mid post pre F w h3

/-- **C39**, redeclaration: two declarations of one name in the same block, with anything between them,
are rejected.  What is missing is as in `names_resolve_partial`: what lies `outside`. -/
theorem redeclaration_rejected_partial (cfg : NCfg) {s : NState} {E : Env} (hr : Rep s E) {x y : Stmt} {t t' : Token}
    (hx : declares x = some t) (hy : declares y = some t') (he : t'.chars = t.chars) (pre mid post : List Stmt)
    (hin : meanBlock cfg.reached E (pre ++ x :: (mid ++ y :: post)) ≠ .error .outside) :
    ∃ e, visitSs cfg (pre ++ x :: (mid ++ y :: post)) s = .error e := by
  have h := visitBlock_ag cfg (pre ++ x :: (mid ++ y :: post)) hr
  cases hm : meanBlock cfg.reached E (pre ++ x :: (mid ++ y :: post)) with
  | ok u => exact absurd hm (meanBlock_twice cfg.reached hx hy he mid post pre E u)
  | error e =>
    rw [hm] at h hin
    cases e <;> first | exact h | exact (hin rfl).elim

/-! ## Inner blocks -/

theorem lookup_same {a b : List NScope} {n : List Char} : ∀ (d i : Nat), ChainOk a d i → (∀ j ≤ i, b[j]? = a[j]?) →
    ∀ k k', i < k → i < k' → lookup b n k' i = lookup a n k i
  | _, i, _, _, 0, _, h, _ => absurd h (Nat.not_lt_zero _)
  | _, i, _, _, _ + 1, 0, _, h => absurd h (Nat.not_lt_zero _)
  | 0, i, ⟨sc, h1, h2, _⟩, hb, k + 1, k' + 1, _, _ => by
    simp only [lookup, hb i (Nat.le_refl _), h1, h2]
  | d + 1, i, ⟨sc, p, h1, h2, h3, _, h5⟩, hb, k + 1, k' + 1, hk, hk' => by
    simp only [lookup, hb i (Nat.le_refl _), h1, h2]
    rw [lookup_same d p h5 (fun j hj => hb j (by omega)) k k' (by omega) (by omega)]

theorem QE.resolve {s t : NState} (h : QE s t) (hs : s.Ok) (n : List Char) : t.resolve n = s.resolve n := by
  unfold NState.resolve
  rw [h.1.cur]
  exact lookup_same s.depth s.cur hs (fun j hj => h.1.old j (Nat.lt_of_le_of_lt hj hs.lt)) _ _ hs.lt
    (Nat.lt_of_lt_of_le hs.lt h.1.len)

/-- Statements that declare nothing in their own block. -/
def quiet : Stmt → Bool
  | .varDecl .. | .func .. | .method .. | .registo .. | .uniao .. | .usa .. => false
  | _ => true

theorem visitS_quiet (cfg : NCfg) {x : Stmt} {s : NState} (hs : s.Ok) (hq : quiet x = true) : Fine (QE s) (visitS cfg x s) := by
  cases x with
  | expr e => exact visitE_fine cfg e hs
  | loopCtl => exact Fine.ret (QE.refl s)
  | retorna _ e =>
    cases e with
    | none => exact Fine.ret (QE.refl s)
    | some e => exact visitE_fine cfg e hs
  | produz _ e => exact visitE_fine cfg e hs
  | mostra _ e => exact visitE_fine cfg e hs
  | se _ c a elsifs d =>
    have hd : ∀ v, QE s v → ∀ b, Fine (QE s) (visitSs cfg b (v.alloc.enter v.scopes.length) >>= fun s => .ok s.leave) :=
      fun v hv b => (block_fine (hv.1.ok hs) (visitSs_fine cfg b ((within_alloc (hv.1.ok hs)).ok (hv.1.ok hs)))).mono
        fun _ h => hv.trans h
    cases d with
    | none =>
      simp only [visitS]
      refine (visitE_fine cfg c hs).bind fun t ht => ?_
      have h1 := ht.1.ok hs
      refine (visitSs_fine cfg a ((within_alloc h1).ok h1)).bind fun u hu => ?_
      have hu := ht.trans ((within_alloc h1).leave_qe (Nat.le_refl _) hu)
      exact (visitElses_fine cfg elsifs (hu.1.ok hs)).bind fun v hv => Fine.ret (hu.trans hv)
    | some b =>
      simp only [visitS]
      refine (visitE_fine cfg c hs).bind fun t ht => ?_
      have h1 := ht.1.ok hs
      refine (visitSs_fine cfg a ((within_alloc h1).ok h1)).bind fun u hu => ?_
      have hu := ht.trans ((within_alloc h1).leave_qe (Nat.le_refl _) hu)
      exact (visitElses_fine cfg elsifs (hu.1.ok hs)).bind fun v hv => hd v (hu.trans hv) b
  | enquanto _ c b =>
    simp only [visitS]
    refine (visitE_fine cfg c hs).bind fun t ht => ?_
    have h3 := ht.1.ok hs
    exact (block_fine h3 (visitSs_fine cfg b ((within_alloc h3).ok h3))).mono fun _ h => ht.trans h
  | escolha _ c cs d =>
    have hd : ∀ v, QE s v → ∀ b, Fine (QE s) (visitSs cfg b (v.alloc.enter v.scopes.length) >>= fun s => .ok s.leave) :=
      fun v hv b => (block_fine (hv.1.ok hs) (visitSs_fine cfg b ((within_alloc (hv.1.ok hs)).ok (hv.1.ok hs)))).mono
        fun _ h => hv.trans h
    cases d with
    | none =>
      simp only [visitS]
      refine (visitE_fine cfg c hs).bind fun t ht => ?_
      exact (visitElses_fine cfg cs (ht.1.ok hs)).bind fun v hv => Fine.ret (ht.trans hv)
    | some b =>
      simp only [visitS]
      refine (visitE_fine cfg c hs).bind fun t ht => ?_
      exact (visitElses_fine cfg cs (ht.1.ok hs)).bind fun v hv => hd v (ht.trans hv) b
  | para _ name a b inc body =>
    have fin : ∀ u, QE s u → Fine (QE s) (visitSs cfg body
        ((u.alloc.defineSymbol cfg (sym name false true) (u.depth + 1) u.scopes.length).enter u.scopes.length) >>=
        fun s => .ok s.leave) := by
      intro u hu
      have h3 := hu.1.ok hs
      have hw := ((ready_alloc u).symbol cfg (y := sym name false true) fun _ _ => alloc_get_none u _).enter h3.lt
      exact (visitSs_fine cfg body (hw.ok h3)).bind fun x hx => Fine.ret (hu.trans (hw.leave_qe (Nat.le_refl _) hx))
    cases inc with
    | none =>
      simp only [visitS]
      refine (visitE_fine cfg a hs).bind fun t ht => ?_
      exact (visitE_fine cfg b (ht.1.ok hs)).bind fun v hv => fin v (ht.trans hv)
    | some e =>
      simp only [visitS]
      refine (visitE_fine cfg a hs).bind fun t ht => ?_
      refine (visitE_fine cfg b (ht.1.ok hs)).bind fun v hv => ?_
      have hv := ht.trans hv
      exact (visitE_fine cfg e (hv.1.ok hs)).bind fun u hu => fin u (hv.trans hu)
  | varDecl | func | method | registo | uniao | usa => cases hq

/-- **C39**, inner declarations: whatever the blocks inside a statement declare, after it every name
means what it meant before. -/
theorem inner_declarations_stay_inside (cfg : NCfg) {x : Stmt} {s t : NState} (hs : s.Ok) (hq : quiet x = true)
    (h : visitS cfg x s = .ok t) (n : List Char) : t.resolve n = s.resolve n :=
  (visitS_quiet cfg hs hq t h).resolve hs n


/-! ## Programs -/

/-- No name is taken for one of Python's, and every arm of an `iguala` can be selected. -/
def sampleCfg : NCfg where
  valid := fun _ => true
  plan := fun _ => { hidden := 0, reached := fun _ => true, again := fun _ => false }

/-- The names used in a text, with the line of the use and the line of the declaration it refers to;
nothing if the checker rejects the text. -/
def linesOf (text : String) : Option (List (String × Nat × Nat)) :=
  match parse samplePy text.toList with
  | .error _ => none
  | .ok t =>
    match visitSs sampleCfg t.stmts (start []) with
    | .error _ => none
    | .ok s => some (s.uses.map fun u => (String.ofList u.tok.chars, u.tok.line, u.sym.decl.line))

/-- The same from the specification. -/
def meaningOf (text : String) : Option (List (String × Nat × Nat)) :=
  match parse samplePy text.toList with
  | .error _ => none
  | .ok t =>
    match meanBlock sampleCfg.reached (startEnv []) t.stmts with
    | .error _ => none
    | .ok u => some (u.map fun p => (String.ofList p.1.chars, p.1.line, p.2.line))

def shadowText : String := "x : int = 1
func f(x : int) : int
  se x > 0 entao
    x : int = 5
    enquanto x < 7 faca
      x = x + 1
    fim
    mostra x
  fim
  retorna x
fim
mostra f(x)
"

example : linesOf shadowText = some [("x", 1, 1), ("x", 3, 2), ("x", 4, 4), ("x", 5, 4), ("x", 6, 4), ("x", 6, 4), ("x", 8, 4),
      ("x", 10, 2), ("f", 12, 2), ("x", 12, 1)] ∧
    meaningOf shadowText = linesOf shadowText := by decide +kernel

/-- A second declaration in an inner block is accepted, in the same block it is not. -/
example : linesOf "x : int = 1\nse verdadeiro entao\n  x : int = 2\nfim\n" = some [("x", 1, 1), ("x", 3, 3)] ∧
    linesOf "x : int = 1\nse verdadeiro entao\n  y : int = 2\n  mostra y\n  y : int = 3\nfim\n" = none ∧
    linesOf "x : int = 1\nfunc x() : int\n  retorna 1\nfim\n" = none := by decide +kernel

/-- The hypotheses of `inner_declarations_stay_inside` and `redeclaration_rejected_partial` hold at the
start of every program whose global variables are marked as such. -/
example : (start []).Ok ∧ Rep (start []) (startEnv []) := ⟨⟨_, rfl, rfl, fun _ _ h => by simp [assocGet] at h⟩, start_rep []⟩

def methodText : String := "func soma(a : int, b : int) : int
  retorna a + b
fim
met int::soma(alvo, b : int) : int
  retorna b
fim
mostra soma(1, 2)
"

/-- **C39 is violated.** `make_func_symbol` defines a method under its bare name in the scope of the module
(check/core.py:516-526), after looking for its qualified name there (check/core.py:620-624), so it takes
the place of a function of the same name: the call in line 7 refers to the method. -/
theorem method_name_violated : linesOf methodText = some [("a", 2, 1), ("b", 2, 1), ("b", 5, 4), ("soma", 7, 4)] := by
  decide +kernel

def calleeText : String := "func f(a : int) : int
  retorna a
fim
se verdadeiro entao
  mostra f(1)
  f : int = 2
fim
"

/-- `calleeText` after the checker. -/
def calleeProg : Source.Prog := only [glob "/m.ama" "f" .func [1], loc "/m.ama" "a" "_r10_", loc "/m.ama" "f" "_r10_"]
  [⟨[("f", 0)], none⟩, ⟨[("a", 1)], some 0⟩, ⟨[("f", 2)], some 0⟩]
  [.func 1 0 (.mk 1 [.retorna 2 (some (vr "a" 1))]),
   .se 4 (.const 4 "verdadeiro" .unknown) (.mk 2 [
     .mostra 5 (.call 5 (.var 5 "f" none .unknown) [lit "1"] 0 .unknown),
     .varDecl 6 "f" .int (some (.mk 2 (lit "2")))]) [] none]

/-- **C39 is violated.** The checker takes the `f` called in line 5 for the function of line 1.
The code generator looks the name up again, in the finished scope of the block (codegen.py:503-506),
finds the variable of line 6, and ends with a `KeyError`. -/
theorem callee_again_violated :
    linesOf calleeText = some [("a", 2, 1), ("f", 5, 1), ("f", 6, 6)] ∧
    sourceEnd calleeProg 100 = some (none, "1\n") ∧
    (match Codegen.compileProgram calleeProg.env calleeProg.builtinPath calleeProg.main calleeProg.imports with
      | .error (.exc name) => name
      | _ => "") = "KeyError" := by
  decide +kernel

/-- With another name for the variable the same call is compiled and runs. -/
example : machineEnd (only [glob "/m.ama" "f" .func [1], loc "/m.ama" "a" "_r10_", loc "/m.ama" "g" "_r10_"]
    [⟨[("f", 0)], none⟩, ⟨[("a", 1)], some 0⟩, ⟨[("g", 2)], some 0⟩]
    [.func 1 0 (.mk 1 [.retorna 2 (some (vr "a" 1))]),
     .se 4 (.const 4 "verdadeiro" .unknown) (.mk 2 [
       .mostra 5 (.call 5 (.var 5 "f" none .unknown) [lit "1"] 0 .unknown),
       .varDecl 6 "g" .int (some (.mk 2 (lit "2")))]) [] none]) 1000 = some (.exited 0 "1\n" "") := by
  decide +kernel

/-- A variable cannot be initialised with a member of the same name: the check compares the name with
the last token of the right side (check/core.py:487-490). -/
theorem member_init_rejected :
    linesOf "registo P\n  x : int\nfim\nfunc f(p : P) : int\n  x : int = p.x\n  retorna x\nfim\n" = none ∧
    linesOf "registo P\n  x : int\nfim\nfunc f(p : P) : int\n  y : int = p.x\n  retorna y\nfim\n" =
      some [("p", 5, 4), ("y", 5, 5), ("y", 6, 5)] := by
  decide +kernel

end Amanda.Names

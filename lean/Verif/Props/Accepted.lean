import Verif.Props.Soundness

/-!
# What the checker accepts, rejects and raises (C57, C59-C61)

Programs are read, checked, compiled and run by the model, with std/embutidos.ama as it is in the repository.
-/

namespace Amanda.Check

open Source Imports Pipeline

/-! ## C57: errors are reported -/

/-- A condition that is no single word: vectors, records, unions, options. -/
def Compound : CTy → Prop
  | .prim _ => False
  | _ => True

theorem condTag_compound {e : AExpr} {tok : Option Token} {msg : String} {s : CState} (h : Compound e.ty) :
    condTag e tok msg s = .error (.exc "AttributeError") := by
  unfold condTag
  cases ht : e.ty with
  | prim t => rw [ht] at h; exact h.elim
  | _ => rfl

theorem bind_error {α β : Type} {m : C α} {f : α → C β} {s s1 : CState} {a : α} {e : PyErr} (h : m s = .ok (a, s1))
    (k : f a s1 = .error e) : (m >>= f) s = .error e := by
  show (match m s with
    | .error e => (Except.error e : Except PyErr (β × CState))
    | .ok (a, s') => f a s') = _
  rw [h]
  exact k

theorem error_bind {α β : Type} {m : C α} {f : α → C β} {s : CState} {e : PyErr} (h : m s = .error e) :
    (m >>= f) s = .error e := by
  show (match m s with
    | .error e => (Except.error e : Except PyErr (β × CState))
    | .ok (a, s') => f a s') = _
  rw [h]

/-- **C57 is violated by every `se` and `enquanto`** whose condition is a vector, a record, a union or an option:
instead of the error there is an uncaught `AttributeError`. -/
theorem condition_raises_violated {cfg : CCfg} {mod : String} {tok : Token} {cond : Expr} {body : List Stmt} {es : List ElseIf}
    {last : Option (List Stmt)} {s s1 : CState} {c : AExpr}
    (h : visitE cfg mod .other cond { s with ana := { s.ana with line := tok.line } } = .ok (c, s1)) (hc : Compound c.ty) :
    visitS cfg mod false false (.se tok cond body es last) s = .error (.exc "AttributeError") ∧
    visitS cfg mod false false (.enquanto tok cond body) s = .error (.exc "AttributeError") := by
  have hat : C.at_ tok s = .ok ((), { s with ana := { s.ana with line := tok.line } }) := rfl
  constructor
  · cases last with
    | none =>
        simp only [visitS]
        exact bind_error hat (bind_error h (error_bind (condTag_compound hc)))
    | some d =>
        simp only [visitS]
        exact bind_error hat (bind_error h (error_bind (condTag_compound hc)))
  · simp only [visitS]
    exact bind_error hat (bind_error h (error_bind (condTag_compound hc)))

/-- A method that is never called: its parameter `alvo` is added where it is called (transform.py:152-156). -/
def uncalledText : List Char := chars! "met int::f(alvo) : int\n  retorna alvo\nfim\nmostra 1\n"

/-- A condition that is a record. -/
def recordCondText : List Char := chars! "registo P\n  x : int\nfim\nv : P = P(x : 1)\nse v entao\n  mostra 1\nfim\n"

/-- `+=` inside an assignment to an element. -/
def nestedText : List Char := chars! "a : [int] = [int: 1]\na[0] = 1 += 2\n"

/-- An element of a vector of records is assigned to. -/
def recordElemText : List Char := chars! "registo P\n  x : int\nfim\nv : [P] = [P: P(x : 1)]\nv[0] = P(x : 2)\nmostra v[0].x\n"

/-- `escolha` on an option. -/
def optionChoiceText : List Char := chars! "x : int? = 4\nescolha x:\ncaso 1:\n  mostra 1\nsenao:\n  mostra 2\nfim\n"

set_option maxRecDepth 100000 in
/-- **C57 is violated**: programs on which the front end ends with an uncaught Python exception, two of them
without any mistake. -/
theorem checker_raises_violated :
    runText uncalledText = .raised "KeyError" ∧ runText recordCondText = .raised "AttributeError" ∧
    runText nestedText = .raised "AttributeError" ∧ runText recordElemText = .raised "AttributeError" ∧
    runText optionChoiceText = .raised "AttributeError" := by decide +kernel

/-! ## C61: elements can be assigned to -/

/-- The types of elements that can be assigned to. -/
def Settable : CTy → Prop
  | .prim .texto => False
  | .prim _ => True
  | .vec _ => True
  | _ => False

/-- **C61**: which elements can be assigned to depends on the type of the element alone.  Missing: `texto`, records,
unions and options, for which the claim is false (`text_element_violated`, `record_element_violated`). -/
theorem element_settable_partial (t : CTy) (s : CState) : indexSetOk t s = .ok ((), s) ↔ Settable t := by
  cases t with
  | prim tag =>
      cases tag <;> first
        | exact ⟨fun _ => trivial, fun _ => rfl⟩
        | exact ⟨(fun h => by cases h), (fun h => False.elim h)⟩
  | vec el => exact ⟨fun _ => trivial, fun _ => rfl⟩
  | _ => exact ⟨(fun h => by cases h), (fun h => False.elim h)⟩

/-- **C61 is violated for every vector of records, unions or options**: the assignment raises `AttributeError`. -/
theorem record_element_violated {cfg : CCfg} {mod : String} {par : Par} {tok : Token} {i v : Expr} {s s1 : CState} {x : AExpr}
    (h : visitE cfg mod .eval i { s with ana := { s.ana with line := tok.line } } = .ok (x, s1))
    (hc : Compound x.ty) (hv : ∀ el, x.ty ≠ .vec el) :
    visitE cfg mod par (.indexSet tok i v) s = .error (.exc "AttributeError") := by
  have hat : C.at_ tok s = .ok ((), { s with ana := { s.ana with line := tok.line } }) := rfl
  simp only [visitE]
  refine bind_error hat (bind_error h (error_bind ?_))
  cases ht : x.ty with
  | prim t => rw [ht] at hc; exact hc.elim
  | vec el => exact absurd ht (hv el)
  | _ => rfl

/-- **C61 is violated for every vector of texts**: the assignment is rejected as if the text were changed. -/
theorem text_element_violated {cfg : CCfg} {mod : String} {par : Par} {tok : Token} {i v : Expr} {s s1 : CState} {x : AExpr}
    (h : visitE cfg mod .eval i { s with ana := { s.ana with line := tok.line } } = .ok (x, s1))
    (hc : x.ty = .prim .texto) :
    ∃ line, visitE cfg mod par (.indexSet tok i v) s =
      .error (.amanda "As strings não podem ser modificadas por meio de índices" line (-1)) := by
  have hat : C.at_ tok s = .ok ((), { s with ana := { s.ana with line := tok.line } }) := rfl
  refine ⟨s1.ana.line, ?_⟩
  simp only [visitE]
  refine bind_error hat (bind_error h (error_bind ?_))
  rw [hc]
  rfl

/-- A vector of texts. -/
def textElemText : List Char := chars! "v : [texto] = [texto: \"a\"]\nv[0] = \"b\"\nmostra v\n"

/-- Vectors of other elements. -/
def elemsText : List Char := chars! "v : [int] = [int: 1]\nv[0] = 7\nw : [[bool]] = [[bool]: [bool: falso]]\nw[0] = [bool: verdadeiro]\nmostra v\nmostra w\n"

set_option maxRecDepth 100000 in
/-- Both sides of C61 on whole programs. -/
theorem elements_run :
    runText elemsText = .exit 0 "[7]\n[[verdadeiro]]\n" "" ∧
    runText textElemText = .exit 0 "" "\nFicheiro \"/m.ama\", linha 2\n    v[0] = \"b\"\nErro: As strings não podem ser modificadas por meio de índices.\n" := by
  decide +kernel

/-! ## C59: methods belong to their types -/

/-- Two types with a method of the same name. -/
def twoMethodsText : List Char := chars! "met int::lado(alvo) : int\n  retorna 1\nfim\nmet bool::lado(alvo) : int\n  retorna 2\nfim\nmostra 4.lado()\nmostra verdadeiro.lado()\n"

/-- The same with different names. -/
def otherMethodsText : List Char := chars! "met int::lado(alvo) : int\n  retorna 1\nfim\nmet bool::outro(alvo) : int\n  retorna 2\nfim\nmostra 4.lado()\nmostra verdadeiro.outro()\n"

set_option maxRecDepth 100000 in
/-- **C59 is violated**: with two methods of the same name in a module, the calls of both run the one declared last,
because the code generator knows functions by their names alone (codegen.py:827-864). -/
theorem method_of_type_violated :
    runText twoMethodsText = .exit 0 "2\n2\n" "" ∧ runText otherMethodsText = .exit 0 "1\n2\n" "" := by decide +kernel

/-- What a method belongs to: a primitive type or the declaration of a record or union. -/
def owner : CTy → Option (PTag ⊕ SymId)
  | .prim t => some (.inl t)
  | .reg o | .uni o => some (.inr o)
  | _ => none

/-- No field has the name. -/
def NoField (s : CState) (t : CTy) (n : String) : Prop :=
  match t with
  | .reg o | .uni o => ∀ x f ms ps, s.syms[o]? = some x → x.body = .registo f ms ps → lookIn s.scopes f n = none
  | _ => True

theorem objProperty_eval {o : SymId} {n : String} {s : CState} {x : CSym} (h : s.syms[o]? = some x) :
    objProperty o n s = match x.body with
      | .registo f ms _ => .ok ((lookIn s.scopes f n).orElse fun _ => (ms.find? (·.1 == n)).map (·.2), s)
      | .uniao _ ms _ => .ok ((ms.find? (·.1 == n)).map (·.2), s)
      | _ => .error (.exc "AttributeError") := by
  have hs : symOf o s = .ok (x, s) := by unfold symOf; rw [h]
  have hbind : ∀ {α β : Type} {m : C α} {f : α → C β} {a : α}, m s = .ok (a, s) → (m >>= f) s = f a s := by
    intro α β m f a hm
    show (match m s with
      | .error e => (Except.error e : Except PyErr (β × CState))
      | .ok (a, s') => f a s') = _
    rw [hm]
  unfold objProperty
  rw [hbind hs]
  cases hb : x.body with
  | registo f ms ps =>
      simp only
      rw [hbind (getIn_ok.2 ⟨rfl, rfl⟩)]
      cases lookIn s.scopes f n <;> rfl
  | _ => rfl

/-- The method of a declaration. -/
theorem objProperty_update {o o' : SymId} {n n' : String} {i : SymId} {s : CState} {r : Option SymId}
    (h : objProperty o' n' s = .ok (r, s)) :
    let s' := { s with syms := s.syms.modify o fun x =>
      match x.body with
      | .registo f ms ps => { x with body := .registo f (assign n i ms) ps }
      | .uniao vs ms ps => { x with body := .uniao vs (assign n i ms) ps }
      | _ => x }
    (o' ≠ o ∨ n' ≠ n → objProperty o' n' s' = .ok (r, s')) ∧
    (o' = o → n' = n → NoField s (.reg o) n → objProperty o' n' s' = .ok (some i, s')) := by
  intro s'
  cases hx : s.syms[o']? with
  | none =>
      exfalso
      have hs : symOf o' s = .error (.exc "AttributeError") := by unfold symOf; rw [hx]
      unfold objProperty at h
      rw [error_bind hs] at h
      cases h
  | some x =>
  rw [objProperty_eval hx] at h
  have hx' : s'.syms[o']? = some (if o = o' then
      (match x.body with
      | .registo f ms ps => { x with body := .registo f (assign n i ms) ps }
      | .uniao vs ms ps => { x with body := .uniao vs (assign n i ms) ps }
      | _ => x) else x) := by
    show (s.syms.modify _ _)[o']? = _
    rw [List.getElem?_modify, hx]
    by_cases e : o = o' <;> simp [e]
  rw [objProperty_eval hx']
  by_cases e : o = o'
  · subst e
    rw [if_pos rfl]
    cases hb : x.body with
    | registo f ms ps =>
        rw [hb] at h
        simp only [Except.ok.injEq, Prod.mk.injEq, and_true] at h ⊢
        rw [find_assign]
        refine ⟨fun hn => ?_, fun _ hn hf => ?_⟩
        · have hn : ¬ n' = n := hn.resolve_left (fun k => k rfl)
          rw [if_neg hn]
          exact h
        · subst hn
          rw [if_pos rfl]
          have := hf x f ms ps hx hb
          show Option.orElse (lookIn s.scopes f n') _ = _
          rw [this]
          rfl
    | uniao vs ms ps =>
        rw [hb] at h
        simp only [Except.ok.injEq, Prod.mk.injEq, and_true] at h ⊢
        rw [find_assign]
        refine ⟨fun hn => ?_, fun _ hn hf => ?_⟩
        · have hn : ¬ n' = n := hn.resolve_left (fun k => k rfl)
          rw [if_neg hn]
          exact h
        · rw [if_pos hn]
    | _ => rw [hb] at h; cases h
  · rw [if_neg e]
    refine ⟨fun _ => ?_, fun k => absurd k.symm e⟩
    cases hb : x.body with
    | registo f ms ps =>
        rw [hb] at h
        simp only [Except.ok.injEq, Prod.mk.injEq, and_true] at h ⊢
        exact h
    | uniao vs ms ps =>
        rw [hb] at h
        simp only [Except.ok.injEq, Prod.mk.injEq, and_true] at h ⊢
        exact h
    | _ => rw [hb] at h; cases h

theorem getProperty_prim (tag : PTag) (n : String) (s : CState) :
    getProperty (.prim tag) n s = .ok ((s.primMethods.find? fun e => e.1 == tag && e.2.1 == n).map (·.2.2), s) := rfl

/-- Methods of primitive types are kept elsewhere. -/
theorem keep_prim {s : CState} {l : List (PTag × String × SymId)} {r : Option SymId} (o : SymId) (n : String)
    (h : objProperty o n s = .ok (r, s)) : objProperty o n { s with primMethods := l } = .ok (r, { s with primMethods := l }) := by
  cases hx : s.syms[o]? with
  | none =>
      exfalso
      have hs : symOf o s = .error (.exc "AttributeError") := by unfold symOf; rw [hx]
      unfold objProperty at h
      rw [error_bind hs] at h
      cases h
  | some x =>
      rw [objProperty_eval hx] at h
      rw [objProperty_eval (s := { s with primMethods := l }) hx]
      cases hb : x.body with
      | registo f ms ps =>
          rw [hb] at h
          simp only [Except.ok.injEq, Prod.mk.injEq, and_true] at h ⊢
          exact h
      | uniao vs ms ps =>
          rw [hb] at h
          simp only [Except.ok.injEq, Prod.mk.injEq, and_true] at h ⊢
          exact h
      | _ => rw [hb] at h; cases h

/-- **C59**, for the look-up of methods: after a method was declared for a type the type has it, and the methods of
other types and those with other names are what they were.  So the checker picks the method of the target's type.
Missing: the call runs it, which is false when another type of the module has a method of that name
(`method_of_type_violated`). -/
theorem methods_kept_apart_partial {t : CTy} {n : String} {i : SymId} {s s' : CState} (ho : (owner t).isSome)
    (h : defineMethod t n i s = .ok ((), s')) :
    (NoField s t n → (∃ r, getProperty t n s = .ok (r, s)) → getProperty t n s' = .ok (some i, s')) ∧
    ∀ t' n', (owner t').isSome → owner t' ≠ owner t ∨ n' ≠ n → ∀ r, getProperty t' n' s = .ok (r, s) →
      getProperty t' n' s' = .ok (r, s') := by
  cases t with
  | prim tag =>
      cases h
      refine ⟨fun _ _ => ?_, fun t' n' ho' hd r hr => ?_⟩
      · rw [getProperty_prim]
        simp
      · cases t' with
        | prim tag' =>
            rw [getProperty_prim] at hr ⊢
            simp only [Except.ok.injEq, Prod.mk.injEq, and_true] at hr ⊢
            rw [List.find?_cons]
            have : (tag == tag' && n == n') = false := by
              simp only [Bool.and_eq_false_iff, beq_eq_false_iff_ne]
              rcases hd with hd | hd
              · exact .inl fun e => hd (by rw [e])
              · exact .inr fun e => hd e.symm
            rw [this]
            exact hr
        | reg o => exact keep_prim o n' hr
        | uni o => exact keep_prim o n' hr
        | _ => cases ho'
  | reg o =>
      cases h
      refine ⟨fun hf hr => ?_, fun t' n' ho' hd r hr => ?_⟩
      · obtain ⟨r, hr⟩ := hr
        exact (objProperty_update hr).2 rfl rfl hf
      · cases t' with
        | prim tag' =>
            rw [getProperty_prim] at hr ⊢
            simp only [Except.ok.injEq, Prod.mk.injEq, and_true] at hr ⊢
            exact hr
        | reg o' => exact (objProperty_update hr).1 (hd.imp (fun k e => k (by rw [e])) id)
        | uni o' => exact (objProperty_update hr).1 (hd.imp (fun k e => k (by rw [e]; rfl)) id)
        | _ => cases ho'
  | uni o =>
      cases h
      refine ⟨fun hf hr => ?_, fun t' n' ho' hd r hr => ?_⟩
      · obtain ⟨r, hr⟩ := hr
        exact (objProperty_update hr).2 rfl rfl hf
      · cases t' with
        | prim tag' =>
            rw [getProperty_prim] at hr ⊢
            simp only [Except.ok.injEq, Prod.mk.injEq, and_true] at hr ⊢
            exact hr
        | reg o' => exact (objProperty_update hr).1 (hd.imp (fun k e => k (by rw [e]; rfl)) id)
        | uni o' => exact (objProperty_update hr).1 (hd.imp (fun k e => k (by rw [e])) id)
        | _ => cases ho'
  | _ => cases ho

/-! ## C60: imported names are available -/

theorem modScope_ok {p : String} {sc : ScopeId} {s s' : CState} (h : modScope p s = .ok (sc, s')) :
    s' = s ∧ ∃ m, s.mods.find? (·.path == p) = some m ∧ m.scope = sc := by
  unfold modScope at h
  rw [C.bind_ok] at h
  obtain ⟨x, s1, h1, h⟩ := h
  rw [C.get_ok] at h1
  obtain ⟨e0, e1⟩ := h1
  obtain rfl := e0.symm
  obtain rfl := e1.symm
  cases hf : s.mods.find? (·.path == p) with
  | none => rw [hf] at h; cases h
  | some m =>
      rw [hf] at h
      cases h
      exact ⟨rfl, m, rfl, rfl⟩

/-- A scope without one around it sees its own names only. -/
theorem resolve_root {scopes : List ScopeTab} {k : ScopeId} {tab : ScopeTab} (hk : scopes[k]? = some tab) (hp : tab.parent = none)
    (n : String) : SymEnv.resolve ⟨[], scopes⟩ (some k) n = look tab n := by
  unfold SymEnv.resolve SymEnv.resolveFrom look
  simp only [hk]
  cases tab.symbols.find? (·.1 == n) with
  | some p => rfl
  | none =>
      simp only [hp, Option.map_none]
      unfold SymEnv.resolveFrom
      cases scopes.length <;> rfl

theorem assertFreeHere_ok {s s' : CState} {name : String} {u : Unit} (h : assertFreeHere name s = .ok (u, s')) :
    lookIn s.scopes s.ana.ctxScope name = none ∧ s' = s := by
  unfold assertFreeHere at h
  rw [C.bind_ok] at h
  obtain ⟨_, s1, h1, h⟩ := h
  rw [C.get_ok] at h1
  obtain ⟨e0, e1⟩ := h1
  obtain rfl := e0.symm
  obtain rfl := e1.symm
  rw [C.bind_ok] at h
  obtain ⟨r, s2, h2, h⟩ := h
  rw [getIn_ok] at h2
  obtain ⟨e2, e3⟩ := h2
  obtain rfl := e3.symm
  cases r with
  | none =>
      rw [C.pure_ok] at h
      exact ⟨e2.symm, h.2⟩
  | some j =>
      simp only at h
      split at h <;> simp [C.error_ok] at h

/-- One step of `defineItems`. -/
theorem defineItems_cons {p : Path} {item : List Char} {items : List (List Char)} {s s' : CState} {m : ModInfo} {tab : ScopeTab}
    (hm : s.mods.find? (·.path == pstr p) = some m) (ht : s.scopes[m.scope]? = some tab) (hp : tab.parent = none)
    (h : defineItems p (item :: items) s = .ok ((), s')) :
    ∃ i, look tab (String.ofList item) = some i ∧ lookIn s.scopes s.ana.ctxScope (String.ofList item) = none ∧
      defineItems p items { s with scopes := bindIn s.scopes s.ana.globalScope (String.ofList item) i } = .ok ((), s') := by
  rw [defineItems, C.bind_ok] at h
  obtain ⟨sc, s1, h1, h⟩ := h
  rw [C.bind_ok] at h
  obtain ⟨r, s2, h2, h⟩ := h
  obtain ⟨e1, m', hm', e⟩ := modScope_ok h1
  obtain rfl := e1.symm
  rw [hm] at hm'
  cases hm'
  subst e
  have hr : r = look tab (String.ofList item) ∧ s2 = s := by
    unfold resolveIn at h2
    simp only [Except.ok.injEq, Prod.mk.injEq] at h2
    exact ⟨h2.1.symm.trans (resolve_root ht hp _), h2.2.symm⟩
  obtain ⟨hr, e2⟩ := hr
  obtain rfl := e2.symm
  cases r with
  | none => cases h
  | some i =>
      simp only [C.bind_ok] at h
      obtain ⟨_, s3, h3, g, s4, h4, _, s5, h5, h⟩ := h
      obtain ⟨hfree, e3⟩ := assertFreeHere_ok h3
      obtain rfl := e3.symm
      rw [C.get_ok] at h4
      obtain ⟨e4, e4'⟩ := h4
      obtain rfl := e4.symm
      obtain rfl := e4'.symm
      cases h5
      exact ⟨i, hr.symm, hfree, h⟩

/-- **C60**, for `usa "p" => [a, b]`: every name in the list stands, among the names of the importing module, for
what it stands for in module `p`, and the names that were there before stand for what they stood for.
Missing: imports without a list of a module that was imported before, for which the claim is false
(`reimport_violated`). -/
theorem items_available_partial {p : Path} {m : ModInfo} {tab : ScopeTab} : ∀ {names : List (List Char)} {s s' : CState},
    s.ana.ctxScope = s.ana.globalScope → (s.ana.globalScope : Nat) < s.scopes.length →
    s.mods.find? (·.path == pstr p) = some m → m.scope ≠ s.ana.globalScope → s.scopes[m.scope]? = some tab →
    tab.parent = none → defineItems p names s = .ok ((), s') →
    (∀ n i, lookIn s.scopes s.ana.globalScope n = some i → lookIn s'.scopes s.ana.globalScope n = some i) ∧
    ∀ n ∈ names, ∃ i, look tab (String.ofList n) = some i ∧ lookIn s'.scopes s.ana.globalScope (String.ofList n) = some i
  | [], s, s', _, _, _, _, _, _, h => by
      cases h
      exact ⟨fun _ _ h => h, by simp⟩
  | item :: items, s, s', hctx, hlen, hm, hne, ht, hp, h => by
      obtain ⟨i, hi, hfree, h⟩ := defineItems_cons hm ht hp h
      rw [hctx] at hfree
      have hlook := fun k n => bindIn_look s.scopes s.ana.globalScope (String.ofList item) i k n
      have ht5 : (bindIn s.scopes s.ana.globalScope (String.ofList item) i)[m.scope]? = some tab := by
        rw [bindIn_get, if_neg hne]
        exact ht
      have hl5 : (s.ana.globalScope : Nat) < (bindIn s.scopes s.ana.globalScope (String.ofList item) i).length := by
        rw [bindIn_length]
        exact hlen
      obtain ⟨keep, ih⟩ := items_available_partial (names := items)
        (s := { s with scopes := bindIn s.scopes s.ana.globalScope (String.ofList item) i }) hctx hl5 hm hne ht5 hp h
      refine ⟨fun n j hj => keep n j ?_, fun n hn => ?_⟩
      · show lookIn (bindIn _ _ _ _) _ _ = _
        rw [hlook, if_neg]
        · exact hj
        · rintro ⟨_, rfl, _⟩
          rw [hfree] at hj
          cases hj
      · rcases List.mem_cons.mp hn with rfl | hn
        · refine ⟨i, hi, keep _ _ ?_⟩
          show lookIn (bindIn _ _ _ _) _ _ = _
          rw [hlook, if_pos ⟨rfl, rfl, hlen⟩]
        · exact ih n hn

/-- A module that declares two functions. -/
def twoFuncs : List Char := chars! "func f() : int\n  retorna 1\nfim\nfunc g() : int\n  retorna 2\nfim\n"

/-- The files of a program in /m.ama next to the module /b.ama. -/
def twoFiles (text : List Char) : Files := stdFiles [(chars! "/m.ama", text), (chars! "/b.ama", twoFuncs)]

/-- The end of the process that runs it. -/
def runTwo (text : List Char) : Ended :=
  runMain CutFloat { stdEnv text with files := twoFiles text } (checkFile stdCfg samplePy (twoFiles text) 4) 3000
    (chars! "/m.ama")

/-- The whole module is imported. -/
def wholeText : List Char := chars! "usa \"/b\"\nmostra f()\nmostra g()\n"

/-- Names are imported one by one. -/
def listText : List Char := chars! "usa \"/b\" => [f]\nusa \"/b\" => [g]\nmostra f()\nmostra g()\n"

/-- One name is imported, then the whole module. -/
def listWholeText : List Char := chars! "usa \"/b\" => [f]\nusa \"/b\"\nmostra f()\nmostra g()\n"

/-- The module is imported under a name, then as a whole. -/
def aliasWholeText : List Char := chars! "usa \"/b\" => B\nusa \"/b\"\nmostra g()\n"

set_option maxRecDepth 100000 in
/-- **C60 is violated**: once some of its names, or its alias, have been imported, importing the whole module adds no
names: `load_module` finds it loaded and does nothing (check/core.py:373-391). -/
theorem reimport_violated :
    runTwo wholeText = .exit 0 "1\n2\n" "" ∧ runTwo listText = .exit 0 "1\n2\n" "" ∧
    runTwo listWholeText = .exit 0 "" "\nFicheiro \"/m.ama\", linha 4\n    mostra g()\nErro: o identificador 'g' não foi definido neste escopo.\n" ∧
    runTwo aliasWholeText = .exit 0 "" "\nFicheiro \"/m.ama\", linha 3\n    mostra g()\nErro: o identificador 'g' não foi definido neste escopo.\n" := by
  decide +kernel

/-! ## States that meet the hypotheses -/

/-- A checker that looks at /m.ama, next to a checked module /b.ama that declares `f`; there is a record `P` and a
variable `v` of its type. -/
def smallState : CState where
  syms := [{ name := "f", outId := "f", modPath := "/b.ama", body := .func (.prim .int) [] },
    { name := "P", outId := "P", modPath := "/m.ama", body := .registo 2 [] [] },
    { name := "v", outId := "v", modPath := "/m.ama", body := .var (.reg 1) },
    { name := "w", outId := "w", modPath := "/m.ama", body := .var (.vec (.reg 1)) },
    { name := "u", outId := "u", modPath := "/m.ama", body := .var (.vec (.prim .texto)) },
    { name := "int", outId := "int", modPath := "/e.ama", body := .prim .int }]
  scopes := [⟨[("f", 0)], none⟩, ⟨[("P", 1), ("v", 2), ("w", 3), ("u", 4), ("int", 5)], none⟩, ⟨[], none⟩]
  ana := ⟨1, 1, 0, false, none, none, false, 1, 1⟩
  waiting := []
  opcao := none
  primMethods := []
  mods := [⟨"/b.ama", false, 0, []⟩]
  open_ := []

/-- A name as a token. -/
def nameTok (n : List Char) : Token := ⟨.identifier, .text n, 1, 1⟩

/-- The type found for an expression. -/
def visitedTy (par : Par) (e : Expr) : Option CTy :=
  match visitE stdCfg "/m.ama" par e { smallState with ana := { smallState.ana with line := 1 } } with
  | .ok (x, _) => some x.ty
  | .error _ => none

theorem visitedTy_some {par : Par} {e : Expr} {t : CTy} (h : visitedTy par e = some t) :
    ∃ x s1, visitE stdCfg "/m.ama" par e { smallState with ana := { smallState.ana with line := 1 } } = .ok (x, s1) ∧ x.ty = t := by
  unfold visitedTy at h
  cases hx : visitE stdCfg "/m.ama" par e { smallState with ana := { smallState.ana with line := 1 } } with
  | error e => rw [hx] at h; cases h
  | ok r => rw [hx] at h; exact ⟨r.1, r.2, rfl, Option.some.inj h⟩

/-- `se v` with a record `v`. -/
example : visitS stdCfg "/m.ama" false false (.se (nameTok []) (.var (nameTok ['v'])) [] [] none) smallState =
    .error (.exc "AttributeError") := by
  obtain ⟨x, s1, h, ht⟩ := visitedTy_some (par := .other) (e := .var (nameTok ['v'])) (t := .reg 1) (by decide +kernel)
  exact (condition_raises_violated (body := []) h (by rw [ht]; trivial)).1

/-- An element of a vector. -/
def elem (n : List Char) : Expr := .index (nameTok []) (.var (nameTok n)) (.const ⟨.integer, .int 0, 1, 1⟩)

/-- `w[0] = …` with a vector of records `w`. -/
example (v : Expr) : visitE stdCfg "/m.ama" .other (.indexSet (nameTok []) (elem ['w']) v) smallState =
    .error (.exc "AttributeError") := by
  obtain ⟨x, s1, h, ht⟩ := visitedTy_some (par := .eval) (e := elem ['w']) (t := .reg 1) (by decide +kernel)
  exact record_element_violated h (by rw [ht]; trivial) (by rw [ht]; simp)

/-- `u[0] = …` with a vector of texts `u`. -/
example (v : Expr) : ∃ line, visitE stdCfg "/m.ama" .other (.indexSet (nameTok []) (elem ['u']) v) smallState =
    .error (.amanda "As strings não podem ser modificadas por meio de índices" line (-1)) := by
  obtain ⟨x, s1, h, ht⟩ := visitedTy_some (par := .eval) (e := elem ['u']) (t := .prim .texto) (by decide +kernel)
  exact text_element_violated h ht

/-- `usa "/b.ama" => [f]`. -/
example (s' : CState) (h : defineItems (chars! "/b.ama") [['f']] smallState = .ok ((), s')) :
    lookIn s'.scopes 1 "f" = some 0 ∧ lookIn s'.scopes 1 "v" = some 2 := by
  obtain ⟨keep, new⟩ := items_available_partial (m := ⟨"/b.ama", false, 0, []⟩) (tab := ⟨[("f", 0)], none⟩) rfl (by decide)
    (by have : ("/b.ama" == pstr (chars! "/b.ama")) = true := by decide +kernel
        show List.find? _ [_] = _
        rw [List.find?_cons]
        simp only [this]) (by decide) rfl rfl h
  refine ⟨?_, keep "v" 2 (by decide +kernel)⟩
  obtain ⟨i, hi, h⟩ := new ['f'] (by simp)
  have : look ⟨[("f", 0)], none⟩ (String.ofList ['f']) = some 0 := by decide +kernel
  rw [this] at hi
  cases hi
  exact h

example : (match defineItems (chars! "/b.ama") [['f']] smallState with | .ok _ => true | .error _ => false) = true := by
  decide +kernel

/-- `met P::lado` and `met int::lado`: each type has its own. -/
example : ∃ s1 s2, defineMethod (.reg 1) "lado" 8 smallState = .ok ((), s1) ∧
    defineMethod (.prim .int) "lado" 9 s1 = .ok ((), s2) ∧
    getProperty (.reg 1) "lado" s2 = .ok (some 8, s2) ∧ getProperty (.prim .int) "lado" s2 = .ok (some 9, s2) := by
  refine ⟨_, _, rfl, rfl, ?_, ?_⟩
  · refine (methods_kept_apart_partial (t := .prim .int) (n := "lado") (i := 9) rfl rfl).2 (.reg 1) "lado" rfl (.inl (by decide)) _ ?_
    refine (methods_kept_apart_partial (t := .reg 1) (n := "lado") (i := 8) (s := smallState) rfl rfl).1 ?_ ⟨none, ?_⟩
    · intro x f ms ps hx hb
      cases hx
      cases hb
      rfl
    · show objProperty 1 "lado" smallState = _
      rw [objProperty_eval (x := { name := "P", outId := "P", modPath := "/m.ama", body := .registo 2 [] [] }) rfl]
      rfl
  · exact (methods_kept_apart_partial (t := .prim .int) (n := "lado") (i := 9) rfl rfl).1 trivial ⟨_, getProperty_prim _ _ _⟩

end Amanda.Check

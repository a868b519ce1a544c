import Verif.ImportsLemmas

/-!
# The order of imports

Lemmas for C51: what programs that import in the right order do.
-/

namespace Amanda.Imports

variable {σ : Type}

theorem targets_mem {cfg : ICfg σ} {tok module : Token} {mode : UsaMode} {q : Path} : ∀ {l : List Stmt},
    Stmt.usa tok module mode ∈ l → target cfg.files module = some q → q ∈ targets cfg l
  | st :: rest, h, ht => by
    rcases List.mem_cons.1 h with rfl | h
    · simp [targets, ht]
    · have := targets_mem h ht
      cases st <;> simp [targets, this]

theorem targets_usa {cfg : ICfg σ} {q : Path} : ∀ {l : List Stmt}, q ∈ targets cfg l →
    ∃ tok module mode, Stmt.usa tok module mode ∈ l ∧ target cfg.files module = some q
  | st :: rest, h => by
    by_cases hu : ∃ a b c, st = Stmt.usa a b c
    · obtain ⟨tok, module, mode, rfl⟩ := hu
      simp only [targets, List.mem_append, Option.mem_toList] at h
      rcases h with h | h
      · exact ⟨tok, module, mode, by simp, h⟩
      · obtain ⟨a, b, c, h1, h2⟩ := targets_usa h
        exact ⟨a, b, c, List.mem_cons_of_mem _ h1, h2⟩
    · have : targets cfg (st :: rest) = targets cfg rest := by
        cases st <;> first | rfl | exact absurd ⟨_, _, _, rfl⟩ hu
      rw [this] at h
      obtain ⟨a, b, c, h1, h2⟩ := targets_usa h
      exact ⟨a, b, c, List.mem_cons_of_mem _ h1, h2⟩

theorem targets_other {cfg : ICfg σ} {st : Stmt} {rest : List Stmt} (hu : ¬ ∃ a b c, st = Stmt.usa a b c) :
    targets cfg (st :: rest) = targets cfg rest := by
  cases st <;> first | rfl | exact absurd ⟨_, _, _, rfl⟩ hu

/-- Statements whose imports are all loaded add nothing. -/
theorem settled_children {cfg : ICfg σ} {n : Nat} : ∀ (l : List Stmt) (s : LState σ),
    (∀ q ∈ targets cfg l, status s.imports q = some true) →
    Tr (visitChildren cfg (loadModule cfg n) l s) (fun s' => s'.imports = s.imports ∧ s'.ctx = s.ctx) (fun _ => True)
  | [], s, _ => .pure ⟨rfl, rfl⟩
  | st :: rest, s, hn => by
    by_cases hu : ∃ a b c, st = Stmt.usa a b c
    · obtain ⟨tok, module, mode, rfl⟩ := hu
      unfold visitChildren
      refine Tr.bind (Q := fun s' : LState σ => s'.imports = s.imports ∧ s'.ctx = s.ctx) ?_ fun s1 _ h1 => ?_
      · cases ht : target cfg.files module with
        | none =>
          refine ⟨fun a h => ?_, fun _ _ => trivial⟩
          simp only [visitUsa, ht, pathError] at h
          split at h <;> cases h
        | some q =>
          simp only [visitUsa, ht]
          have hq := hn q (by simp [targets, ht])
          cases n with
          | zero => exact ⟨fun _ h => by simp [loadModule] at h, fun _ _ => trivial⟩
          | succ n =>
            unfold loadModule
            rw [hq]
            exact ((Tr.names (main := q)).weaken fun _ _ => trivial).mono fun s' h => ⟨h.1, h.2.1⟩
      · refine (settled_children rest s1 fun q hq => ?_).mono fun s2 h2 => ⟨h2.1.trans h1.1, h2.2.trans h1.2⟩
        rw [h1.1]; exact hn q (by simp [targets, hq])
    · rw [visitChildren_other hu]
      refine Tr.bind (Tr.lift fun _ _ => trivial) fun r _ _ => ?_
      exact settled_children rest { s with rest := r } fun q hq => hn q (by rw [targets_other hu]; exact hq)

theorem settled_module {cfg : ICfg σ} {n : Nat} {s : LState σ} (h : ∀ q, Imp cfg s.ctx q → status s.imports q = some true) :
    Tr (visitModule cfg (loadModule cfg n) s) (fun s' => s'.imports = s.imports) (fun _ => True) := by
  unfold visitModule
  cases hp : parseFile cfg s.ctx with
  | error e => exact ⟨fun _ h => by simp [liftE] at h, fun _ _ => trivial⟩
  | ok t =>
    simp only [liftE, except_bind_ok, visitTree]
    refine Tr.bind (Tr.lift fun _ _ => trivial) fun r _ _ => ?_
    refine Tr.bind (settled_children t.stmts _ fun q hq => ?_) fun s' _ hs => ?_
    · obtain ⟨tok, module, mode, h1, h2⟩ := targets_usa hq
      exact h q ⟨t, hp, tok, module, mode, h1, h2⟩
    · refine Tr.bind (Tr.lift fun _ _ => trivial) fun r' _ _ => ?_
      exact .pure hs.1

/-- Loading a file whose imports are all loaded adds that file only. -/
theorem settled_load {cfg : ICfg σ} {n : Nat} {p : Path} {tok : Token} {mode : UsaMode} {s : LState σ}
    (h : ∀ q, Imp cfg p q → status s.imports q = some true) :
    Tr (loadModule cfg n p tok mode s) (fun s' => s'.ctx = s.ctx ∧ (s'.imports = s.imports ∧ status s.imports p = some true ∨
      status s.imports p = none ∧ s'.imports = s.imports ++ [(p, true)])) (fun _ => True) := by
  cases n with
  | zero => exact ⟨fun _ h => by simp [loadModule] at h, fun _ _ => trivial⟩
  | succ n =>
    unfold loadModule
    cases hs : status s.imports p with
    | some b =>
      cases b with
      | true => exact ((Tr.names (main := p)).weaken fun _ _ => trivial).mono fun s' h => ⟨h.2.1, .inl ⟨h.1, rfl⟩⟩
      | false =>
        refine ⟨fun a h => ?_, fun _ _ => trivial⟩
        simp only [pathError] at h
        split at h <;> cases h
    | none =>
      have st : ∀ q, Imp cfg p q → status (s.imports ++ [(p, false)]) q = some true := by
        intro q hq
        have := h q hq
        rw [status_append hs, if_neg]
        · exact this
        · rintro rfl; rw [hs] at this; cases this
      refine Tr.bind (Q := fun s' : LState σ => s'.imports = s.imports ++ [(p, false)]) ?_ fun s1 _ h1 => ?_
      · have hsc : Tr (loadScoped cfg (loadModule cfg n) p { s with ctx := p, imports := s.imports ++ [(p, false)] })
            (fun s' => s'.imports = s.imports ++ [(p, false)]) (fun _ => True) := by
          unfold loadScoped
          refine Tr.bind (Q := fun _ => True) ⟨fun _ _ => trivial, fun _ _ => trivial⟩ fun a _ _ => ?_
          refine Tr.bind (settled_module (s := { a with imports := s.imports ++ [(p, false)], ctx := p }) st) fun s' _ hs => ?_
          exact .pure hs
        cases mode
        case global => exact settled_module (s := { s with ctx := p, imports := s.imports ++ [(p, false)] }) st
        all_goals exact hsc
      · refine Tr.bind ((Tr.names (main := p)).weaken fun _ _ => trivial) fun s2 _ h2 => ?_
        refine .pure ⟨rfl, .inr ⟨rfl, ?_⟩⟩
        show setLoaded s2.imports p = _
        rw [h2.1, h1]
        have hk := status_none.1 hs
        have : ∀ e ∈ s.imports, (if e.1 == p then (p, true) else e) = e := by
          intro e he
          rw [if_neg]
          intro h
          exact hk (List.mem_map.2 ⟨e, he, by simpa using h⟩)
        simp only [setLoaded, List.map_append, List.map_cons, List.map_nil, beq_self_eq_true, if_true]
        rw [List.map_congr_left this, List.map_id']

/-- Every file comes after those it imports. -/
def Sorted (cfg : ICfg σ) (l : List Path) : Prop := ∀ l1 p l2, l = l1 ++ p :: l2 → ∀ q, Imp cfg p q → q ∈ l1

theorem Sorted.snoc {cfg : ICfg σ} {l : List Path} {p : Path} (h : Sorted cfg l) (hp : ∀ q, Imp cfg p q → q ∈ l) :
    Sorted cfg (l ++ [p]) := by
  intro l1 a l2 he q hq
  rcases l2.eq_nil_or_concat with rfl | ⟨l3, z, rfl⟩
  · obtain ⟨h1, h2⟩ := List.append_inj' he rfl
    simp only [List.cons.injEq, and_true] at h2
    subst h2 h1
    exact hp q hq
  · rw [List.concat_eq_append, ← List.cons_append, ← List.append_assoc] at he
    obtain ⟨h1, -⟩ := List.append_inj' he rfl
    exact h l1 a l3 h1 q hq

/-- What holds between two imports of a program that imports in the right order. -/
structure Calm (cfg : ICfg σ) (seen : List Path) (s : LState σ) : Prop where
  sorted : Sorted cfg (s.imports.map (·.1))
  loaded : ∀ q ∈ s.imports.map (·.1), status s.imports q = some true
  seen : ∀ q ∈ seen, q ∈ s.imports.map (·.1)

theorem calm_children {cfg : ICfg σ} {n : Nat} : ∀ (l : List Stmt) (seen : List Path) (s : LState σ),
    Calm cfg seen s → (∀ l1 p l2, targets cfg l = l1 ++ p :: l2 → ∀ q, Imp cfg p q → q ∈ seen ++ l1) →
    Tr (visitChildren cfg (loadModule cfg n) l s) (fun s' => Calm cfg (seen ++ targets cfg l) s' ∧ s'.ctx = s.ctx) (fun _ => True)
  | [], seen, s, hc, _ => .pure ⟨by simpa [targets] using hc, rfl⟩
  | st :: rest, seen, s, hc, hn => by
    by_cases hu : ∃ a b c, st = Stmt.usa a b c
    · obtain ⟨tok, module, mode, rfl⟩ := hu
      unfold visitChildren
      cases ht : target cfg.files module with
      | none =>
        refine Tr.bind (Q := fun _ => False) ⟨fun a h => ?_, fun _ _ => trivial⟩ fun _ _ h => h.elim
        simp only [visitUsa, ht, pathError] at h
        split at h <;> cases h
      | some p =>
        have hts : targets cfg (.usa tok module mode :: rest) = p :: targets cfg rest := by simp [targets, ht]
        have hp : ∀ q, Imp cfg p q → q ∈ s.imports.map (·.1) := fun q hq =>
          hc.seen q (by simpa using hn [] p (targets cfg rest) hts q hq)
        refine Tr.bind (Q := fun s' : LState σ => Calm cfg (seen ++ [p]) s' ∧ s'.ctx = s.ctx) ?_ fun s1 _ h1 => ?_
        · simp only [visitUsa, ht]
          refine (settled_load (s := { s with rest := cfg.hooks.enter tok s.rest })
            fun q hq => hc.loaded q (hp q hq)).mono fun s' hs => ⟨?_, hs.1⟩
          dsimp only at hs
          rcases hs.2 with ⟨h1, h2⟩ | ⟨h1, h2⟩
          · exact ⟨h1 ▸ hc.sorted, h1 ▸ hc.loaded, fun q hq => by
              rw [h1]
              rcases List.mem_append.1 hq with hq | hq
              · exact hc.seen q hq
              · rw [List.mem_singleton.1 hq]
                exact Decidable.byContradiction fun hk => by rw [status_none.2 hk] at h2; cases h2⟩
          · refine ⟨by rw [h2]; simpa using hc.sorted.snoc hp, fun q hq => ?_, fun q hq => ?_⟩
            · rw [h2] at hq ⊢
              rw [status_append h1]
              split
              · rfl
              · rename_i e
                refine hc.loaded q ?_
                simpa [e] using hq
            · rw [h2]
              rcases List.mem_append.1 hq with hq | hq
              · have := hc.seen q hq
                simp only [List.map_append, List.mem_append]
                exact .inl this
              · simp [List.mem_singleton.1 hq]
        · refine (calm_children rest (seen ++ [p]) s1 h1.1 fun l1 a l2 he q hq => ?_).mono fun s2 h2 => ⟨?_, h2.2.trans h1.2⟩
          · have := hn (p :: l1) a l2 (by rw [hts, he]; rfl) q hq
            simpa using this
          · rw [hts]; simpa using h2.1
    · rw [visitChildren_other hu, targets_other hu]
      rw [targets_other hu] at hn
      refine Tr.bind (Tr.lift fun _ _ => trivial) fun r _ _ => ?_
      exact calm_children rest seen { s with rest := r } ⟨hc.sorted, hc.loaded, hc.seen⟩ hn

theorem calm_program {cfg : ICfg σ} (hb : PlainBuiltin cfg) {n : Nat} {main : Path} {init : σ} {t : Tree}
    (hp : parseFile cfg main = .ok t)
    (hn : ∀ l1 p l2, targets cfg t.stmts = l1 ++ p :: l2 → ∀ q, Imp cfg p q → q ∈ builtinPath cfg.files :: l1) :
    Tr (analyseProgram cfg n main init) (fun s => Sorted cfg (s.imports.map (·.1)) ∧ ∀ q, Imp cfg main q → q ∈ s.imports.map (·.1))
      (fun _ => True) := by
  unfold analyseProgram
  simp only [hp, liftE, except_bind_ok]
  refine Tr.bind ((newAnalyzer_tr (main := main) hb n main _).weaken fun _ _ => trivial) fun s _ hs => ?_
  obtain ⟨h1, h2, h3⟩ := hs
  unfold visitTree
  refine Tr.bind (Tr.lift fun _ _ => trivial) fun r _ _ => ?_
  refine Tr.bind (calm_children t.stmts [builtinPath cfg.files] _ ?_ hn) fun s' _ hs => ?_
  · refine ⟨?_, ?_, ?_⟩
    · simp only [h1]
      intro l1 p l2 he q hq
      have : p ∈ [(builtinPath cfg.files, true)].map (·.1) := by rw [he]; simp
      rw [List.mem_singleton.1 this] at hq
      exact absurd hq (hb q)
    · simp [h1, status]
    · simp [h1]
  · refine Tr.bind (Tr.lift fun _ _ => trivial) fun r' _ _ => ?_
    refine .pure ⟨hs.1.sorted, ?_⟩
    rintro q ⟨t', ht', a, b, c, hm, he⟩
    rw [hp] at ht'; cases ht'
    exact hs.1.seen q (by simp [targets_mem hm he])

end Amanda.Imports

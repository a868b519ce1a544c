import Verif.ImportsSpec
import Verif.ExceptLemmas

/-! # Lemmas about loading imports -/

namespace Amanda.Imports

variable {σ : Type}

abbrev Load (σ : Type) := Path → Token → UsaMode → LState σ → Except LErr (LState σ)

theorem liftE_ok {α : Type} {f : Path} {r : Except PyErr α} {a : α} (h : liftE f r = .ok a) : r = .ok a := by
  cases r <;> simp_all [liftE]

theorem liftE_py {α : Type} {f : Path} {r : Except PyErr α} {e : LErr} (h : liftE f r = .error e) : ∃ x, e = .py f x ∧ r = .error x := by
  cases r with
  | ok a => simp [liftE] at h
  | error x => simp [liftE] at h; exact ⟨x, h.symm, rfl⟩

/-- The files in `imports`. -/
def keys (s : LState σ) : List Path := s.imports.map (·.1)

theorem status_none {l : List (Path × Bool)} {p : Path} : status l p = none ↔ p ∉ l.map (·.1) := by
  unfold status
  rw [Option.map_eq_none_iff, List.find?_eq_none]
  simp only [List.mem_map, not_exists, not_and]
  constructor
  · intro h x hx e; exact h x hx (by simp [e])
  · intro h x hx e; exact h x hx (by simpa using e)

theorem status_append {l : List (Path × Bool)} {p q : Path} {b : Bool} (h : status l p = none) :
    status (l ++ [(p, b)]) q = if q = p then some b else status l q := by
  unfold status at *
  rw [List.find?_append]
  by_cases e : q = p
  · subst e
    rw [if_pos rfl]
    rw [Option.map_eq_none_iff] at h
    simp [h]
  · rw [if_neg e]
    have : (p == q) = false := by simp [Ne.symm e]
    simp [this]

theorem status_setLoaded {l : List (Path × Bool)} {p q : Path} :
    status (setLoaded l p) q = if q = p then (status l q).map (fun _ => true) else status l q := by
  unfold status setLoaded
  induction l with
  | nil => simp
  | cons e l ih =>
    simp only [List.map_cons, List.find?_cons]
    by_cases h : e.1 = p
    · simp only [h, beq_self_eq_true, if_true]
      by_cases hq : q = p
      · subst hq; simp
      · have h1 : (p == q) = false := by simp [Ne.symm hq]
        simp only [h1]
        rw [ih, if_neg hq]
    · have h0 : (e.1 == p) = false := by simp [h]
      simp only [h0, Bool.false_eq_true, if_false]
      by_cases he : e.1 = q
      · have h1 : (e.1 == q) = true := by simp [he]
        have hq : q ≠ p := fun x => h (he.trans x)
        simp [h1, if_neg hq]
      · have h1 : (e.1 == q) = false := by simp [he]
        simp only [h1]
        exact ih

theorem keys_setLoaded (l : List (Path × Bool)) (p : Path) : (setLoaded l p).map (·.1) = l.map (·.1) := by
  unfold setLoaded
  rw [List.map_map]
  apply List.map_congr_left
  intro e _
  simp only [Function.comp]
  split
  · rename_i h; simpa using (by simpa using h : e.1 = p).symm
  · rfl

/-! ## The parts of loading -/

theorem defineNames_ok {cfg : ICfg σ} {p prev : Path} {mode : UsaMode} {s s' : LState σ}
    (h : defineNames cfg p mode prev s = .ok s') : s'.imports = s.imports ∧ s'.ctx = s.ctx ∧ s'.log = s.log := by
  unfold defineNames at h
  split at h
  · cases h; simp
  all_goals
    obtain ⟨r, -, h⟩ := except_bind_eq_ok.1 h
    cases h; simp

theorem pathError_err {α : Type} {f p : Path} {e e' : LErr} (h : (pathError f p e : Except LErr α) = .error e') :
    e' = e ∨ noBraces p = false ∧ ∃ x, e' = .py f x := by
  unfold pathError at h
  split at h
  · cases h; exact .inl rfl
  · rename_i hb
    cases h; exact .inr ⟨by simpa using hb, _, rfl⟩

/-- A result whose state meets `Q` or whose error meets `E`. -/
def Tr {α : Type} (m : Except LErr α) (Q : α → Prop) (E : LErr → Prop) : Prop :=
  (∀ a, m = .ok a → Q a) ∧ ∀ e, m = .error e → E e

theorem Tr.bind {α β : Type} {m : Except LErr α} {f : α → Except LErr β} {Q : α → Prop} {R : β → Prop} {E : LErr → Prop}
    (h : Tr m Q E) (k : ∀ a, m = .ok a → Q a → Tr (f a) R E) : Tr (m >>= f) R E := by
  cases hm : m with
  | ok a => exact k a hm (h.1 a hm)
  | error e =>
    refine ⟨fun a ha => ?_, fun e' he => ?_⟩
    · cases ha
    · cases he; exact h.2 e hm

theorem Tr.pure {α : Type} {a : α} {Q : α → Prop} {E : LErr → Prop} (h : Q a) : Tr (.ok a : Except LErr α) Q E :=
  ⟨fun _ e => by cases e; exact h, fun _ e => by cases e⟩

theorem Tr.lift {α : Type} {f : Path} {r : Except PyErr α} {E : LErr → Prop} (hE : ∀ x, r = .error x → E (.py f x)) :
    Tr (liftE f r) (fun _ => True) E :=
  ⟨fun _ _ => trivial, fun e h => by obtain ⟨x, rfl, hx⟩ := liftE_py h; exact hE x hx⟩

theorem Tr.mono {α : Type} {m : Except LErr α} {Q R : α → Prop} {E : LErr → Prop} (h : Tr m Q E) (k : ∀ a, Q a → R a) : Tr m R E :=
  ⟨fun a ha => k a (h.1 a ha), h.2⟩

/-- What can be blamed for an exception that is not about a cycle. -/
inductive Blame (cfg : ICfg σ) (main : Path) (x : PyErr) : Prop
  | fresh {p : Path} {s : σ} : cfg.hooks.fresh p s = .error x → Blame cfg main x
  | embutidos {s : σ} : cfg.hooks.embutidos s = .error x → Blame cfg main x
  | annotations {p : Path} {a : List Annotation} {s : σ} : cfg.hooks.annotations p a s = .error x → Blame cfg main x
  | stmt {p : Path} {a : Stmt} {s : σ} : cfg.hooks.stmt p a s = .error x → Blame cfg main x
  | finish {p : Path} {a : Tree} {s : σ} : cfg.hooks.finish p a s = .error x → Blame cfg main x
  | named {p q : Path} {a : Token} {s : σ} : cfg.hooks.alias p a q s = .error x → Blame cfg main x
  | items {p q : Path} {a : List (List Char)} {s : σ} : cfg.hooks.items p a q s = .error x → Blame cfg main x
  | parsed {p : Path} : Read cfg main p → parseFile cfg p = .error x → Blame cfg main x
  | found {p : Path} {t : Tree} {tok module : Token} {mode : UsaMode} : Read cfg main p → parseFile cfg p = .ok t →
      Stmt.usa tok module mode ∈ t.stmts → target cfg.files module = none → Blame cfg main x
  | braces {p : Path} : Reachable cfg main p → noBraces p = false → Blame cfg main x

theorem Fine.blameless {cfg : ICfg σ} {main : Path} (h : Fine cfg main) {x : PyErr} : ¬ Blame cfg main x := by
  intro b
  cases b with
  | @fresh p s e => obtain ⟨r, hr⟩ := h.fresh p s; rw [hr] at e; cases e
  | @embutidos s e => obtain ⟨r, hr⟩ := h.embutidos s; rw [hr] at e; cases e
  | @annotations p a s e => obtain ⟨r, hr⟩ := h.annotations p a s; rw [hr] at e; cases e
  | @stmt p a s e => obtain ⟨r, hr⟩ := h.stmt p a s; rw [hr] at e; cases e
  | @finish p a s e => obtain ⟨r, hr⟩ := h.finish p a s; rw [hr] at e; cases e
  | @named p q a s e => obtain ⟨r, hr⟩ := h.named p a q s; rw [hr] at e; cases e
  | @items p q a s e => obtain ⟨r, hr⟩ := h.items p a q s; rw [hr] at e; cases e
  | @parsed p hp e => obtain ⟨r, hr⟩ := h.parsed p hp; rw [hr] at e; cases e
  | @found p t tok module mode hp ht hm e =>
    obtain ⟨q, hq⟩ := h.found p t hp ht tok module mode hm
    rw [hq] at e; cases e
  | @braces p hp e => rw [h.braces p hp] at e; cases e

/-- An error about a cycle names a file on one, and is reported in a file that imports it; for another one something else is to blame. -/
def Honest (cfg : ICfg σ) (main : Path) : LErr → Prop
  | .cyclic f p _ => Reachable cfg main p ∧ OnCycle cfg p ∧ Reachable cfg main f ∧ Imp cfg f p
  | .py _ x => Blame cfg main x
  | .fuel => True

/-- An exception that something other than a cycle is to blame for. -/
def Other (cfg : ICfg σ) (main : Path) (e : LErr) : Prop := ∃ f x, e = .py f x ∧ Blame cfg main x

theorem Other.honest {cfg : ICfg σ} {main : Path} {e : LErr} (h : Other cfg main e) : Honest cfg main e := by
  obtain ⟨_, x, rfl, hx⟩ := h; exact hx

theorem Tr.weaken {α : Type} {m : Except LErr α} {Q : α → Prop} {E E' : LErr → Prop} (h : Tr m Q E) (k : ∀ e, E e → E' e) : Tr m Q E' :=
  ⟨h.1, fun e he => k e (h.2 e he)⟩

theorem Tr.names {cfg : ICfg σ} {main p prev : Path} {mode : UsaMode} {s : LState σ} :
    Tr (defineNames cfg p mode prev s) (fun s' => s'.imports = s.imports ∧ s'.ctx = s.ctx ∧ s'.log = s.log) (Other cfg main) := by
  refine ⟨fun _ h => defineNames_ok h, fun e h => ?_⟩
  unfold defineNames at h
  split at h
  · cases h
  · rename_i a
    cases hr : liftE s.ctx (cfg.hooks.alias prev a p s.rest) with
    | ok r => rw [hr] at h; cases h
    | error x => rw [hr] at h; cases h; obtain ⟨y, rfl, hy⟩ := liftE_py hr; exact ⟨_, _, rfl, Blame.named hy⟩
  · rename_i a
    cases hr : liftE prev (cfg.hooks.items prev a p s.rest) with
    | ok r => rw [hr] at h; cases h
    | error x => rw [hr] at h; cases h; obtain ⟨y, rfl, hy⟩ := liftE_py hr; exact ⟨_, _, rfl, Blame.items hy⟩

/-- A `usa` that refers to no file. -/
theorem Tr.missing {cfg : ICfg σ} {main : Path} {load : Load σ} {tok module : Token} {mode : UsaMode} {s : LState σ}
    (ht : target cfg.files module = none) (hB : ∀ x, Blame cfg main x) :
    Tr (visitUsa cfg load tok module mode s) (fun _ => False) (Other cfg main) := by
  refine ⟨fun a h => ?_, fun e h => ?_⟩
  · simp only [visitUsa, ht, pathError] at h
    split at h <;> cases h
  · simp only [visitUsa, ht] at h
    rcases pathError_err h with rfl | ⟨-, x, rfl⟩ <;> exact ⟨_, _, rfl, hB _⟩

/-- A module is its imports and the other statements. -/
theorem visitChildren_other {cfg : ICfg σ} {load : Load σ} {st : Stmt} {rest : List Stmt} {s : LState σ}
    (hu : ¬ ∃ a b c, st = Stmt.usa a b c) : visitChildren cfg load (st :: rest) s =
      (liftE s.ctx (cfg.hooks.stmt s.ctx st s.rest) >>= fun r => visitChildren cfg load rest { s with rest := r }) := by
  cases st <;> first | rfl | exact absurd ⟨_, _, _, rfl⟩ hu

/-- Statements without imports. -/
theorem children_plain {cfg : ICfg σ} {load : Load σ} {main : Path} : ∀ (l : List Stmt) (s : LState σ),
    (∀ tok module mode, Stmt.usa tok module mode ∈ l → target cfg.files module = none) →
    (∀ tok module mode, Stmt.usa tok module mode ∈ l → target cfg.files module = none → ∀ x, Blame cfg main x) →
    Tr (visitChildren cfg load l s) (fun s' => s'.imports = s.imports ∧ s'.ctx = s.ctx ∧ s'.log = s.log) (Other cfg main)
  | [], s, _, _ => .pure ⟨rfl, rfl, rfl⟩
  | st :: rest, s, hn, hB => by
    have ih := fun s => children_plain (load := load) (main := main) rest s (fun a b c h => hn a b c (List.mem_cons_of_mem _ h))
      fun a b c h => hB a b c (List.mem_cons_of_mem _ h)
    by_cases hu : ∃ a b c, st = Stmt.usa a b c
    · obtain ⟨tok, module, mode, rfl⟩ := hu
      unfold visitChildren
      have ht := hn tok module mode (List.mem_cons_self ..)
      exact Tr.bind (Tr.missing ht (hB _ _ _ (List.mem_cons_self ..) ht)) fun a _ h => h.elim
    · rw [visitChildren_other hu]
      refine Tr.bind (Tr.lift fun _ hx => ⟨_, _, rfl, Blame.stmt hx⟩) fun r _ _ => ih _

theorem tree_plain {cfg : ICfg σ} {load : Load σ} {main : Path} {t : Tree} {s : LState σ}
    (hn : ∀ tok module mode, Stmt.usa tok module mode ∈ t.stmts → target cfg.files module = none)
    (hB : ∀ tok module mode, Stmt.usa tok module mode ∈ t.stmts → target cfg.files module = none → ∀ x, Blame cfg main x) :
    Tr (visitTree cfg load t s) (fun s' => s'.imports = s.imports ∧ s'.ctx = s.ctx ∧ s'.log = s.log ++ [s.ctx]) (Other cfg main) := by
  unfold visitTree
  refine Tr.bind (Tr.lift fun _ hx => ⟨_, _, rfl, Blame.annotations hx⟩) fun r _ _ => ?_
  refine Tr.bind (children_plain (main := main) t.stmts _ hn hB) fun s' _ hs => ?_
  refine Tr.bind (Tr.lift fun _ hx => ⟨_, _, rfl, Blame.finish hx⟩) fun r _ _ => ?_
  exact .pure hs

/-- A new analyzer has loaded the builtin module. -/
theorem newAnalyzer_other {cfg : ICfg σ} {main : Path} (hb : PlainBuiltin cfg) (n : Nat) (p : Path) (s : LState σ) :
    Tr (newAnalyzer cfg (loadModule cfg n) p s)
      (fun s' => s'.imports = [(builtinPath cfg.files, true)] ∧ s'.ctx = p ∧ s'.log = s.log ++ [builtinPath cfg.files])
      (fun e => Other cfg main e ∨ n = 0 ∧ e = .fuel) := by
  unfold newAnalyzer
  refine Tr.bind (Tr.lift fun _ hx => .inl ⟨_, _, rfl, Blame.fresh hx⟩) fun r _ _ => ?_
  refine Tr.bind (Q := fun s' : LState σ => s'.imports = [(builtinPath cfg.files, true)] ∧ s'.ctx = p ∧
    s'.log = s.log ++ [builtinPath cfg.files]) ?_ fun s' _ hs => ?_
  · cases n with
    | zero => exact ⟨fun _ h => by simp [loadModule] at h, fun e h => by simp [loadModule] at h; subst h; exact .inr ⟨rfl, rfl⟩⟩
    | succ n =>
      refine Tr.weaken ?_ (fun e he => .inl he)
      simp only [loadModule, status, List.find?_nil, Option.map_none, analyse]
      refine Tr.bind (Q := fun s' : LState σ => s'.imports = [(builtinPath cfg.files, false)] ∧ s'.log = s.log ++ [builtinPath cfg.files])
        ?_ fun s' _ hs => ?_
      · unfold visitModule
        cases hp : parseFile cfg (builtinPath cfg.files) with
        | error e => exact ⟨fun _ h => by simp [liftE] at h, fun x h => by
            simp [liftE] at h; subst h; exact ⟨_, _, rfl, Blame.parsed (.inr rfl) hp⟩⟩
        | ok t =>
          simp only [liftE, except_bind_ok]
          refine (tree_plain (main := main) ?_ fun tok module mode hm ht x => .found (.inr rfl) hp hm ht).mono
            fun s' h => ⟨h.1, h.2.2⟩
          intro tok module mode hm
          cases ht : target cfg.files module with
          | none => rfl
          | some q => exact absurd ⟨t, hp, tok, module, mode, hm, ht⟩ (hb q)
      · simp only [defineNames, except_bind_ok]
        refine .pure ⟨?_, rfl, hs.2⟩
        rw [hs.1]; simp [setLoaded]
  · refine Tr.bind (Tr.lift fun _ hx => .inl ⟨_, _, rfl, Blame.embutidos hx⟩) fun r _ _ => ?_
    exact .pure hs

theorem newAnalyzer_tr {cfg : ICfg σ} {main : Path} (hb : PlainBuiltin cfg) (n : Nat) (p : Path) (s : LState σ) :
    Tr (newAnalyzer cfg (loadModule cfg n) p s)
      (fun s' => s'.imports = [(builtinPath cfg.files, true)] ∧ s'.ctx = p ∧ s'.log = s.log ++ [builtinPath cfg.files])
      (Honest cfg main) :=
  (newAnalyzer_other hb n p s).weaken fun e he => by
    rcases he with he | ⟨-, rfl⟩
    · exact he.honest
    · trivial

/-! ## What loading maintains -/

/-- Between two steps: `imports` has no file twice; a loaded file's imports are loaded and it is on no cycle;
from a file being loaded the current one can be reached, and this one from the program; files are analysed
as often as they are in `imports`, the program once more. -/
structure Inv (cfg : ICfg σ) (main : Path) (imports : List (Path × Bool)) (ctx : Path) (log : List Path) : Prop where
  nodup : (imports.map (·.1)).Nodup
  closed : ∀ p, status imports p = some true → ∀ q, Imp cfg p q → status imports q = some true
  acyclic : ∀ p, status imports p = some true → ¬ OnCycle cfg p
  open_ : ∀ p, status imports p = some false → Reachable cfg p ctx
  here : Reachable cfg main ctx
  reach : ∀ p ∈ imports.map (·.1), p ≠ builtinPath cfg.files → Relation.TransGen (Imp cfg) main p
  log : ∀ p, p ≠ builtinPath cfg.files → log.count p = (imports.map (·.1)).count p + if p = main then 1 else 0
  parent : ∀ l1 q l2, imports.map (·.1) = l1 ++ q :: l2 → q ≠ builtinPath cfg.files → ∃ r, Imp cfg r q ∧ (r = main ∨ r ∈ l1)
  cur : ctx = main ∨ ctx ∈ imports.map (·.1)

/-- What a step keeps. -/
structure Post (cfg : ICfg σ) (main : Path) (s s' : LState σ) : Prop where
  inv : Inv cfg main s'.imports s'.ctx s'.log
  ctx : s'.ctx = s.ctx
  loaded : ∀ q, status s.imports q = some true → status s'.imports q = some true
  open_ : ∀ q, status s'.imports q = some false ↔ status s.imports q = some false
  pre : s.imports.map (·.1) <+: s'.imports.map (·.1)

theorem Post.trans {cfg : ICfg σ} {main : Path} {a b c : LState σ} (h : Post cfg main a b) (k : Post cfg main b c) :
    Post cfg main a c :=
  ⟨k.inv, k.ctx.trans h.ctx, fun q hq => k.loaded q (h.loaded q hq), fun q => (k.open_ q).trans (h.open_ q), h.pre.trans k.pre⟩

/-- What is asked of `load_module`. -/
def Good (cfg : ICfg σ) (main : Path) (load : Load σ) : Prop :=
  ∀ p tok mode s, Inv cfg main s.imports s.ctx s.log → Imp cfg s.ctx p →
    Tr (load p tok mode s) (fun s' => Post cfg main s s' ∧ status s'.imports p = some true) (Honest cfg main)

theorem children_tr {cfg : ICfg σ} {main : Path} {load : Load σ} (hl : Good cfg main load) : ∀ (l : List Stmt) (s : LState σ),
    Inv cfg main s.imports s.ctx s.log →
    (∀ tok module mode q, Stmt.usa tok module mode ∈ l → target cfg.files module = some q → Imp cfg s.ctx q) →
    (∀ tok module mode, Stmt.usa tok module mode ∈ l → target cfg.files module = none → ∀ x, Blame cfg main x) →
    Tr (visitChildren cfg load l s) (fun s' => Post cfg main s s' ∧ ∀ tok module mode q, Stmt.usa tok module mode ∈ l →
      target cfg.files module = some q → status s'.imports q = some true) (Honest cfg main)
  | [], s, hi, _, _ => .pure ⟨⟨hi, rfl, fun _ h => h, fun _ => Iff.rfl, List.prefix_rfl⟩, fun _ _ _ _ h => nomatch h⟩
  | st :: rest, s, hi, hn, hB => by
    by_cases hu : ∃ a b c, st = Stmt.usa a b c
    · obtain ⟨tok, module, mode, rfl⟩ := hu
      unfold visitChildren
      cases ht : target cfg.files module with
      | none =>
        exact Tr.bind ((Tr.missing ht (hB _ _ _ (List.mem_cons_self ..) ht)).weaken fun _ => Other.honest) fun a _ h => h.elim
      | some q =>
        simp only [visitUsa, ht]
        refine Tr.bind (Q := fun s' => Post cfg main s s' ∧ status s'.imports q = some true) ?_ fun s1 _ h1 => ?_
        · exact (hl q tok mode { s with rest := cfg.hooks.enter tok s.rest } hi (hn tok module mode q (List.mem_cons_self ..) ht)).mono
            fun s' h => ⟨⟨h.1.inv, h.1.ctx, h.1.loaded, h.1.open_, h.1.pre⟩, h.2⟩
        refine (children_tr hl rest s1 h1.1.inv ?_ fun a b c h => hB a b c (List.mem_cons_of_mem _ h)).mono fun s2 h2 => ⟨h1.1.trans h2.1, ?_⟩
        · rw [h1.1.ctx]
          exact fun a b c d h => hn a b c d (List.mem_cons_of_mem _ h)
        · intro a b c d hm he
          rcases List.mem_cons.1 hm with e | hm
          · cases e
            rw [ht] at he; cases he
            exact h2.1.loaded _ h1.2
          · exact h2.2 a b c d hm he
    · rw [visitChildren_other hu]
      refine Tr.bind (Tr.lift fun _ hx => Blame.stmt hx) fun r _ _ => ?_
      refine (children_tr hl rest { s with rest := r } hi (fun a b c d h => hn a b c d (List.mem_cons_of_mem _ h))
        fun a b c h => hB a b c (List.mem_cons_of_mem _ h)).mono fun s2 h2 => ⟨⟨h2.1.inv, h2.1.ctx, h2.1.loaded, h2.1.open_, h2.1.pre⟩, fun a b c d hm hd => ?_⟩
      rcases List.mem_cons.1 hm with e | hm
      · exact absurd ⟨_, _, _, e.symm⟩ hu
      · exact h2.2 a b c d hm hd

theorem tree_tr {cfg : ICfg σ} {main : Path} {load : Load σ} (hl : Good cfg main load) {t : Tree} {s : LState σ}
    (hp : parseFile cfg s.ctx = .ok t) (hi : Inv cfg main s.imports s.ctx (s.log ++ [s.ctx])) :
    Tr (visitTree cfg load t s) (fun s' => Post cfg main s s' ∧ ∀ q, Imp cfg s.ctx q → status s'.imports q = some true)
      (Honest cfg main) := by
  unfold visitTree
  refine Tr.bind (Tr.lift fun _ hx => Blame.annotations hx) fun r _ _ => ?_
  refine Tr.bind (children_tr hl t.stmts { s with log := s.log ++ [s.ctx], rest := r } hi
    (fun a b c d hm he => ⟨t, hp, a, b, c, hm, he⟩) fun a b c hm ht x => .found (.inl hi.here) hp hm ht) fun s' _ hs => ?_
  refine Tr.bind (Tr.lift fun _ hx => Blame.finish hx) fun r' _ _ => ?_
  refine .pure ⟨⟨hs.1.inv, hs.1.ctx, hs.1.loaded, hs.1.open_, hs.1.pre⟩, ?_⟩
  rintro q ⟨t', ht', a, b, c, hm, he⟩
  rw [hp] at ht'; cases ht'
  exact hs.2 a b c q hm he

theorem module_tr {cfg : ICfg σ} {main : Path} {load : Load σ} (hl : Good cfg main load) {s : LState σ}
    (hi : Inv cfg main s.imports s.ctx (s.log ++ [s.ctx])) :
    Tr (visitModule cfg load s) (fun s' => Post cfg main s s' ∧ ∀ q, Imp cfg s.ctx q → status s'.imports q = some true)
      (Honest cfg main) := by
  unfold visitModule
  cases hp : parseFile cfg s.ctx with
  | error e => exact ⟨fun _ h => by simp [liftE] at h, fun x h => by simp [liftE] at h; subst h; exact Blame.parsed (.inl hi.here) hp⟩
  | ok t => exact tree_tr hl hp hi

theorem count_filter_log {p b : Path} (h : p ≠ b) (l r : List Path) : (l ++ [b] ++ r).count p = (l ++ r).count p := by
  simp [List.count_append, Ne.symm h]

theorem analyse_tr {cfg : ICfg σ} {main : Path} (hb : PlainBuiltin cfg) {n : Nat} (hl : Good cfg main (loadModule cfg n))
    (mode : UsaMode) {s : LState σ} (hi : Inv cfg main s.imports s.ctx (s.log ++ [s.ctx])) :
    Tr (analyse cfg (loadModule cfg n) s.ctx mode s)
      (fun s' => Post cfg main s s' ∧ ∀ q, Imp cfg s.ctx q → status s'.imports q = some true) (Honest cfg main) := by
  have hsc : Tr (loadScoped cfg (loadModule cfg n) s.ctx s)
      (fun s' => Post cfg main s s' ∧ ∀ q, Imp cfg s.ctx q → status s'.imports q = some true) (Honest cfg main) := by
    unfold loadScoped
    refine Tr.bind (newAnalyzer_tr hb n s.ctx s) fun a _ ha => ?_
    have hi' : Inv cfg main s.imports s.ctx (a.log ++ [s.ctx]) :=
      { hi with log := fun p hp => by rw [ha.2.2, count_filter_log hp]; exact hi.log p hp }
    refine Tr.bind (module_tr hl (s := { a with imports := s.imports, ctx := s.ctx }) hi') fun s' _ hs => ?_
    exact .pure ⟨⟨hs.1.inv, hs.1.ctx, hs.1.loaded, hs.1.open_, hs.1.pre⟩, hs.2⟩
  cases mode
  case global => exact module_tr hl hi
  all_goals exact hsc

/-- `load_module` does what is asked of it. -/
theorem loadModule_good {cfg : ICfg σ} {main : Path} (hb : PlainBuiltin cfg) : ∀ n, Good cfg main (loadModule cfg n)
  | 0 => fun p tok mode s _ _ => ⟨fun _ h => (nomatch h), fun e h => by simp [loadModule] at h; subst h; trivial⟩
  | n + 1 => by
    intro p tok mode s hi hp
    have hl := loadModule_good (main := main) hb n
    unfold loadModule
    cases hs : status s.imports p with
    | some b =>
      cases b with
      | true =>
        refine (Tr.names.weaken fun _ => Other.honest).mono fun s' h => ?_
        obtain ⟨h1, h2, h3⟩ := h
        exact ⟨⟨by rw [h1, h2, h3]; exact hi, h2, fun q => by rw [h1]; exact id, fun q => by rw [h1], by rw [h1]; exact List.prefix_rfl⟩, by rw [h1]; exact hs⟩
      | false =>
        refine ⟨fun a h => ?_, fun e h => ?_⟩
        · simp only [pathError] at h
          split at h <;> cases h
        · rcases pathError_err h with rfl | ⟨hbr, x, rfl⟩
          · exact ⟨hi.here.tail hp, Relation.TransGen.tail' (hi.open_ p hs) hp, hi.here, hp⟩
          · exact Blame.braces (hi.here.tail hp) hbr
    | none =>
      have hk := status_none.1 hs
      have st : ∀ q, status (s.imports ++ [(p, false)]) q = if q = p then some false else status s.imports q :=
        fun q => status_append hs
      have hi1 : Inv cfg main (s.imports ++ [(p, false)]) p (s.log ++ [p]) :=
        { nodup := by
            rw [List.map_append]
            refine List.nodup_append.2 ⟨hi.nodup, by simp, fun a ha b hb' e => ?_⟩
            simp only [List.map_cons, List.map_nil, List.mem_singleton] at hb'
            subst hb' e
            exact hk ha
          closed := fun a ha q hq => by
            rw [st] at ha ⊢
            split at ha
            · cases ha
            · have := hi.closed a ha q hq
              rw [if_neg]
              · exact this
              · rintro rfl; rw [hs] at this; cases this
          acyclic := fun a ha => by
            rw [st] at ha
            split at ha
            · cases ha
            · exact hi.acyclic a ha
          open_ := fun a ha => by
            rw [st] at ha
            split at ha
            · rename_i e; subst e; exact .refl
            · exact (hi.open_ a ha).tail hp
          here := hi.here.tail hp
          reach := fun a ha hne => by
            rw [List.map_append] at ha
            rcases List.mem_append.1 ha with ha | ha
            · exact hi.reach a ha hne
            · simp only [List.map_cons, List.map_nil, List.mem_singleton] at ha
              subst ha
              exact Relation.TransGen.tail' hi.here hp
          log := fun a hne => by
            rw [List.map_append, List.count_append, List.count_append, hi.log a hne]
            simp only [List.map_cons, List.map_nil]
            omega
          parent := fun l1 q l2 he hne => by
            rw [List.map_append, List.map_cons, List.map_nil] at he
            rcases l2.eq_nil_or_concat with rfl | ⟨l3, z, rfl⟩
            · obtain ⟨h1, h2⟩ := List.append_inj' he rfl
              simp only [List.cons.injEq, and_true] at h2
              subst h2 h1
              exact ⟨s.ctx, hp, hi.cur⟩
            · rw [List.concat_eq_append, ← List.cons_append, ← List.append_assoc] at he
              obtain ⟨h1, -⟩ := List.append_inj' he rfl
              exact hi.parent l1 q l3 h1 hne
          cur := .inr (by simp) }
      refine Tr.bind (analyse_tr hb hl mode (s := { s with ctx := p, imports := s.imports ++ [(p, false)] }) hi1) fun s1 _ h1 => ?_
      refine Tr.bind (Tr.names.weaken fun _ => Other.honest) fun s2 _ h2 => ?_
      obtain ⟨e1, e2, e3⟩ := h2
      obtain ⟨post, all⟩ := h1
      have hp1 : status s1.imports p = some false := (post.open_ p).2 (by show status (_ ++ _) p = _; rw [st, if_pos rfl])
      have hin := post.inv
      have stl : ∀ q, status (setLoaded s2.imports p) q = if q = p then some true else status s1.imports q := by
        intro q
        rw [status_setLoaded, e1]
        split
        · rename_i e; subst e; rw [hp1]; rfl
        · rfl
      have notOn : ¬ OnCycle cfg p := by
        intro hc
        obtain ⟨r, h3, h4⟩ := Relation.TransGen.head'_iff.1 hc
        have : ∀ {a}, Relation.ReflTransGen (Imp cfg) r a → status s1.imports a = some true := by
          intro a ha
          induction ha with
          | refl => exact all r h3
          | tail _ hbc ih => exact hin.closed _ ih _ hbc
        have := this h4
        rw [hp1] at this; cases this
      have back : ∀ q, q ≠ p → (status s1.imports q = some false ↔ status s.imports q = some false) := by
        intro q hq
        refine (post.open_ q).trans ?_
        show status (_ ++ _) q = _ ↔ _
        rw [st, if_neg hq]
      refine .pure ⟨⟨?_, rfl, fun q hq => ?_, fun q => ?_, ?_⟩, ?_⟩
      · exact
          { nodup := by rw [keys_setLoaded, e1]; exact hin.nodup
            closed := fun a ha q hq => by
              rw [stl] at ha ⊢
              split
              · rfl
              · split at ha
                · rename_i e; subst e; exact all q hq
                · exact hin.closed a ha q hq
            acyclic := fun a ha => by
              rw [stl] at ha
              split at ha
              · rename_i e; subst e; exact notOn
              · exact hin.acyclic a ha
            open_ := fun a ha => by
              rw [stl] at ha
              split at ha
              · cases ha
              · rename_i e; exact hi.open_ a ((back a e).1 ha)
            here := hi.here
            reach := fun a ha hne => by
              rw [keys_setLoaded, e1] at ha
              exact hin.reach a ha hne
            log := fun a hne => by
              show s2.log.count a = _
              rw [keys_setLoaded, e1, e3]; exact hin.log a hne
            parent := fun l1 q l2 he hne => by
              rw [keys_setLoaded, e1] at he
              exact hin.parent l1 q l2 he hne
            cur := hi.cur.imp_right fun h => by
              rw [keys_setLoaded, e1]
              exact post.pre.subset (by simp [h]) }
      · show status (setLoaded s2.imports p) q = _
        rw [stl]
        split
        · rfl
        · rename_i e
          refine post.loaded q ?_
          show status (_ ++ _) q = _
          rw [st, if_neg e]; exact hq
      · show status (setLoaded s2.imports p) q = _ ↔ _
        rw [stl]
        split
        · rename_i e; subst e; rw [hs]; simp
        · rename_i e; exact back q e
      · show _ <+: (setLoaded s2.imports p).map (·.1)
        rw [keys_setLoaded, e1]
        exact List.IsPrefix.trans (by simp) post.pre
      · show status (setLoaded s2.imports p) p = _
        rw [stl, if_pos rfl]

/-- The analysis of a whole program. -/
theorem program_tr {cfg : ICfg σ} (hb : PlainBuiltin cfg) (n : Nat) (main : Path) (init : σ) :
    Tr (analyseProgram cfg n main init) (fun s => Inv cfg main s.imports s.ctx s.log ∧ s.ctx = main ∧
      (∀ p, status s.imports p ≠ some false) ∧ ∀ q, Imp cfg main q → status s.imports q = some true) (Honest cfg main) := by
  unfold analyseProgram
  cases hp : parseFile cfg main with
  | error e => exact ⟨fun _ h => by simp [liftE] at h, fun x h => by simp [liftE] at h; subst h; exact Blame.parsed (.inl .refl) hp⟩
  | ok t =>
    simp only [liftE, except_bind_ok]
    refine Tr.bind (newAnalyzer_tr hb n main _) fun s _ hs => ?_
    obtain ⟨h1, h2, h3⟩ := hs
    subst h2
    have st : ∀ q b, status s.imports q = some b → q = builtinPath cfg.files ∧ b = true := by
      intro q b hq
      rw [h1] at hq
      simp only [status, List.find?_cons, List.find?_nil] at hq
      split at hq
      · rename_i he
        simp only [Option.map_some, Option.some.injEq] at hq
        exact ⟨(by simpa using he : _ = q).symm, hq.symm⟩
      · cases hq
    refine (tree_tr (loadModule_good hb n) hp ?_).mono fun s' h => ⟨h.1.inv, h.1.ctx, fun p hc => ?_, h.2⟩
    · exact
        { nodup := by rw [h1]; simp
          closed := fun a ha q hq => by
            obtain ⟨rfl, -⟩ := st a _ ha
            exact absurd hq (hb q)
          acyclic := fun a ha hc => by
            obtain ⟨rfl, -⟩ := st a _ ha
            obtain ⟨r, h4, -⟩ := Relation.TransGen.head'_iff.1 hc
            exact hb r h4
          open_ := fun a ha => by
            obtain ⟨-, h⟩ := st a _ ha
            cases h
          here := .refl
          reach := fun a ha hne => by
            rw [h1] at ha
            simp at ha
            exact absurd ha hne
          log := fun a hne => by
            rw [h1, h3]
            by_cases e : a = s.ctx
            · subst e; simp [Ne.symm hne]
            · simp [Ne.symm hne, e, Ne.symm e]
          parent := fun l1 q l2 he hne => by
            rw [h1] at he
            have : q ∈ [builtinPath cfg.files] := by
              have := he ▸ (List.mem_append_right l1 (List.mem_cons_self ..) : q ∈ l1 ++ q :: l2)
              simpa using this
            simp at this
            exact absurd this hne
          cur := .inl rfl }
    · have := (h.1.open_ p).1 hc
      obtain ⟨-, h⟩ := st p _ this
      cases h

/-! ## The bound is never reached -/

/-- The files of `all` that are not in `imports`. -/
def left (all : List Path) (s : LState σ) : Nat := (all.filter fun p => (status s.imports p).isNone).length

/-- The same current module, and no file less in `imports`. -/
def Grow (s s' : LState σ) : Prop := s'.ctx = s.ctx ∧ ∀ q, status s'.imports q = none → status s.imports q = none

theorem Grow.left {all : List Path} {s s' : LState σ} (h : Grow s s') : left all s' ≤ left all s := by
  unfold Imports.left
  rw [← List.countP_eq_length_filter, ← List.countP_eq_length_filter]
  refine List.countP_mono_left fun q _ hq => ?_
  simp only [Option.isNone_iff_eq_none] at hq ⊢
  exact h.2 q hq

theorem Grow.trans {a b c : LState σ} (h : Grow a b) (k : Grow b c) : Grow a c :=
  ⟨k.1.trans h.1, fun q hq => h.2 q (k.2 q hq)⟩

/-- One file of the list more or less. -/
theorem countP_lt {f g : Path → Bool} {p : Path} : ∀ {l : List Path}, (∀ q, f q = true → g q = true) → p ∈ l → f p = false →
    g p = true → l.countP f < l.countP g
  | a :: l, h, hp, h1, h2 => by
    rcases List.mem_cons.1 hp with rfl | hp
    · rw [List.countP_cons_of_neg (by simp [h1]), List.countP_cons_of_pos h2]
      exact Nat.lt_succ_of_le (List.countP_mono_left fun q _ => h q)
    · have ih := countP_lt h hp h1 h2
      by_cases hf : f a = true
      · rw [List.countP_cons_of_pos hf, List.countP_cons_of_pos (h a hf)]; omega
      · rw [List.countP_cons_of_neg hf]
        by_cases hg : g a = true
        · rw [List.countP_cons_of_pos hg]; omega
        · rw [List.countP_cons_of_neg hg]; exact ih

theorem left_add {all : List Path} {s : LState σ} {p c : Path} (hp : p ∈ all) (hs : status s.imports p = none) :
    left all { s with ctx := c, imports := s.imports ++ [(p, false)] } < left all s := by
  unfold left
  rw [← List.countP_eq_length_filter, ← List.countP_eq_length_filter]
  have st : ∀ q, status (s.imports ++ [(p, false)]) q = if q = p then some false else status s.imports q :=
    fun q => status_append hs
  refine countP_lt (p := p) ?_ hp ?_ ?_
  · intro q hq
    simp only [st] at hq
    split at hq
    · cases hq
    · exact hq
  · simp [st]
  · simp [hs]

/-- What is asked of `load_module` with the bound `n`. -/
def Ends (all : List Path) (n : Nat) (load : Load σ) : Prop :=
  ∀ p tok mode s, p ∈ all → left all s < n → Tr (load p tok mode s) (Grow s) (· ≠ .fuel)

theorem children_ends {cfg : ICfg σ} {all : List Path} {n : Nat} {load : Load σ} (hl : Ends all n load) :
    ∀ (l : List Stmt) (s : LState σ), left all s < n →
    (∀ tok module mode q, Stmt.usa tok module mode ∈ l → target cfg.files module = some q → q ∈ all) →
    Tr (visitChildren cfg load l s) (Grow s) (· ≠ .fuel)
  | [], s, _, _ => .pure ⟨rfl, fun _ h => h⟩
  | st :: rest, s, hi, hn => by
    by_cases hu : ∃ a b c, st = Stmt.usa a b c
    · obtain ⟨tok, module, mode, rfl⟩ := hu
      unfold visitChildren
      refine Tr.bind (Q := Grow s) ?_ fun s1 _ h1 => ?_
      · cases ht : target cfg.files module with
        | none =>
          refine ⟨fun a h => ?_, fun e h => ?_⟩
          · simp only [visitUsa, ht, pathError] at h
            split at h <;> cases h
          · simp only [visitUsa, ht] at h
            rcases pathError_err h with rfl | ⟨-, x, rfl⟩ <;> exact fun h => nomatch h
        | some q =>
          simp only [visitUsa, ht]
          exact (hl q tok mode { s with rest := cfg.hooks.enter tok s.rest } (hn tok module mode q (List.mem_cons_self ..) ht) hi).mono
            fun _ h => ⟨h.1, h.2⟩
      · exact (children_ends hl rest s1 (Nat.lt_of_le_of_lt h1.left hi)
          fun a b c d h => hn a b c d (List.mem_cons_of_mem _ h)).mono fun s2 h2 => h1.trans h2
    · rw [visitChildren_other hu]
      refine Tr.bind (Tr.lift fun _ _ h => nomatch h) fun r _ _ => ?_
      exact children_ends hl rest { s with rest := r } hi fun a b c d h => hn a b c d (List.mem_cons_of_mem _ h)

theorem tree_ends {cfg : ICfg σ} {all : List Path} (hf : ∀ p q, Imp cfg p q → q ∈ all) {n : Nat} {load : Load σ}
    (hl : Ends all n load) {t : Tree} {s : LState σ} (hp : parseFile cfg s.ctx = .ok t) (hs : left all s < n) :
    Tr (visitTree cfg load t s) (Grow s) (· ≠ .fuel) := by
  unfold visitTree
  refine Tr.bind (Tr.lift fun _ _ h => nomatch h) fun r _ _ => ?_
  refine Tr.bind (children_ends hl t.stmts { s with log := s.log ++ [s.ctx], rest := r } hs
    fun a b c d hm he => hf s.ctx d ⟨t, hp, a, b, c, hm, he⟩) fun s' _ hs => ?_
  refine Tr.bind (Tr.lift fun _ _ h => nomatch h) fun r' _ _ => ?_
  exact .pure hs

theorem module_ends {cfg : ICfg σ} {all : List Path} (hf : ∀ p q, Imp cfg p q → q ∈ all) {n : Nat} {load : Load σ}
    (hl : Ends all n load) {s : LState σ} (hs : left all s < n) :
    Tr (visitModule cfg load s) (Grow s) (· ≠ .fuel) := by
  unfold visitModule
  cases hp : parseFile cfg s.ctx with
  | error e => exact ⟨fun _ h => by simp [liftE] at h, fun x h => by simp [liftE] at h; subst h; exact fun h => nomatch h⟩
  | ok t => exact tree_ends hf hl hp hs

theorem newAnalyzer_ends {cfg : ICfg σ} (hb : PlainBuiltin cfg) {n : Nat} (hn : 0 < n) (p : Path) (s : LState σ) :
    Tr (newAnalyzer cfg (loadModule cfg n) p s) (fun s' => s'.ctx = p) (· ≠ .fuel) :=
  ((newAnalyzer_other (main := p) hb n p s).weaken fun e he => by
    rcases he with ⟨_, x, rfl, -⟩ | ⟨h, -⟩
    · exact fun h => nomatch h
    · omega).mono fun s' h => h.2.1

theorem loadModule_ends {cfg : ICfg σ} (hb : PlainBuiltin cfg) {all : List Path} (hf : ∀ p q, Imp cfg p q → q ∈ all) :
    ∀ n, Ends all n (loadModule cfg n)
  | 0 => fun p tok mode s _ h => absurd h (Nat.not_lt_zero _)
  | n + 1 => by
    intro p tok mode s hp hlt
    have hl := loadModule_ends hb hf n
    unfold loadModule
    cases hs : status s.imports p with
    | some b =>
      cases b with
      | true =>
        refine ((Tr.names (main := p)).weaken fun e he => ?_).mono fun s' h => ⟨h.2.1, fun q => by rw [h.1]; exact id⟩
        obtain ⟨_, x, rfl, -⟩ := he
        exact fun h => nomatch h
      | false =>
        refine ⟨fun a h => ?_, fun e h => ?_⟩
        · simp only [pathError] at h
          split at h <;> cases h
        · rcases pathError_err h with rfl | ⟨-, x, rfl⟩ <;> exact fun h => nomatch h
    | none =>
      have h1 := left_add (c := p) hp hs
      have h2 : left all { s with ctx := p, imports := s.imports ++ [(p, false)] } < n := by omega
      have st : ∀ q, status (s.imports ++ [(p, false)]) q = if q = p then some false else status s.imports q :=
        fun q => status_append hs
      refine Tr.bind (Q := Grow { s with ctx := p, imports := s.imports ++ [(p, false)] }) ?_ fun s1 _ g1 => ?_
      · have hsc : Tr (loadScoped cfg (loadModule cfg n) p { s with ctx := p, imports := s.imports ++ [(p, false)] })
            (Grow { s with ctx := p, imports := s.imports ++ [(p, false)] }) (· ≠ .fuel) := by
          unfold loadScoped
          refine Tr.bind (newAnalyzer_ends hb (by omega) p _) fun a _ ha => ?_
          refine Tr.bind (module_ends hf hl (s := { a with imports := s.imports ++ [(p, false)], ctx := p }) h2) fun s' _ hs => ?_
          exact .pure hs
        cases mode
        case global => exact module_ends hf hl h2
        all_goals exact hsc
      · refine Tr.bind ((Tr.names (main := p)).weaken fun e he => ?_) fun s2 _ g2 => ?_
        · obtain ⟨_, x, rfl, -⟩ := he
          exact fun h => nomatch h
        · refine .pure ⟨rfl, fun q hq => ?_⟩
          have hq : status (setLoaded s2.imports p) q = none := hq
          rw [status_setLoaded, g2.1] at hq
          have : status s1.imports q = none := by
            split at hq
            · simpa using hq
            · exact hq
          have := g1.2 q this
          simp only [st] at this
          split at this
          · cases this
          · exact this

/-- Loading ends: with a bound above the number of files it is never reached. -/
theorem program_ends {cfg : ICfg σ} (hb : PlainBuiltin cfg) {all : List Path} (hf : ∀ p q, Imp cfg p q → q ∈ all)
    {n : Nat} (hn : all.length < n) (main : Path) (init : σ) : analyseProgram cfg n main init ≠ .error .fuel := by
  have : Tr (analyseProgram cfg n main init) (fun _ => True) (· ≠ .fuel) := by
    unfold analyseProgram
    cases hp : parseFile cfg main with
    | error e => exact ⟨fun _ _ => trivial, fun x h => by simp [liftE] at h; subst h; exact fun h => nomatch h⟩
    | ok t =>
      simp only [liftE, except_bind_ok]
      refine Tr.bind (newAnalyzer_ends hb (by omega) main _) fun s _ hs => ?_
      subst hs
      exact (tree_ends hf (loadModule_ends hb hf n) hp
        (Nat.lt_of_le_of_lt (List.length_filter_le ..) hn)).mono fun _ _ => trivial
  exact fun h => this.2 _ h rfl

/-! ## A higher bound changes nothing -/

/-- The same result, unless the bound is reached. -/
def Le {α : Type} (a b : Except LErr α) : Prop := a = .error .fuel ∨ a = b

theorem Le.refl {α : Type} (a : Except LErr α) : Le a a := .inr rfl

theorem Le.bind {α β : Type} {a b : Except LErr α} {f g : α → Except LErr β} (h : Le a b) (k : ∀ x, Le (f x) (g x)) :
    Le (a >>= f) (b >>= g) := by
  rcases h with rfl | rfl
  · exact .inl rfl
  · cases a with
    | error e => exact .inr rfl
    | ok x => exact k x

/-- One `load_module` below another. -/
def LeL (l l' : Load σ) : Prop := ∀ p tok mode s, Le (l p tok mode s) (l' p tok mode s)

theorem children_le {cfg : ICfg σ} {l l' : Load σ} (h : LeL l l') : ∀ (c : List Stmt) (s : LState σ),
    Le (visitChildren cfg l c s) (visitChildren cfg l' c s)
  | [], s => .refl _
  | st :: rest, s => by
    by_cases hu : ∃ a b c, st = Stmt.usa a b c
    · obtain ⟨tok, module, mode, rfl⟩ := hu
      unfold visitChildren
      refine Le.bind ?_ fun s => children_le h rest s
      unfold visitUsa
      cases target cfg.files module with
      | none => exact .refl _
      | some q => exact h q tok mode _
    · rw [visitChildren_other hu, visitChildren_other hu]
      exact Le.bind (.refl _) fun r => children_le h rest _

theorem tree_le {cfg : ICfg σ} {l l' : Load σ} (h : LeL l l') (t : Tree) (s : LState σ) :
    Le (visitTree cfg l t s) (visitTree cfg l' t s) := by
  unfold visitTree
  exact Le.bind (.refl _) fun r => Le.bind (children_le h _ _) fun s => .refl _

theorem module_le {cfg : ICfg σ} {l l' : Load σ} (h : LeL l l') (s : LState σ) :
    Le (visitModule cfg l s) (visitModule cfg l' s) := by
  unfold visitModule
  exact Le.bind (.refl _) fun t => tree_le h t s

theorem newAnalyzer_le {cfg : ICfg σ} {l l' : Load σ} (h : LeL l l') (p : Path) (s : LState σ) :
    Le (newAnalyzer cfg l p s) (newAnalyzer cfg l' p s) := by
  unfold newAnalyzer
  exact Le.bind (.refl _) fun r => Le.bind (h _ _ _ _) fun s => .refl _

theorem loadModule_le (cfg : ICfg σ) : ∀ n, LeL (loadModule cfg n) (loadModule cfg (n + 1))
  | 0 => fun _ _ _ _ => .inl rfl
  | n + 1 => by
    intro p tok mode s
    have ih := loadModule_le cfg n
    rw [loadModule, loadModule]
    cases status s.imports p with
    | some b => cases b <;> exact .refl _
    | none =>
      refine Le.bind ?_ fun s => .refl _
      have hsc : ∀ s, Le (loadScoped cfg (loadModule cfg n) p s) (loadScoped cfg (loadModule cfg (n + 1)) p s) := by
        intro s
        unfold loadScoped
        exact Le.bind (newAnalyzer_le ih _ _) fun a => Le.bind (module_le ih _) fun _ => .refl _
      cases mode
      case global => exact module_le ih _
      all_goals exact hsc _

theorem program_le (cfg : ICfg σ) (n : Nat) (main : Path) (init : σ) :
    Le (analyseProgram cfg n main init) (analyseProgram cfg (n + 1) main init) := by
  unfold analyseProgram
  exact Le.bind (.refl _) fun t => Le.bind (newAnalyzer_le (loadModule_le cfg n) _ _) fun s => tree_le (loadModule_le cfg n) _ _

theorem program_stable {cfg : ICfg σ} (hb : PlainBuiltin cfg) {all : List Path} (hf : ∀ p q, Imp cfg p q → q ∈ all)
    (main : Path) (init : σ) : ∀ k, analyseProgram cfg (all.length + 1 + k) main init = analyseProgram cfg (all.length + 1) main init
  | 0 => rfl
  | k + 1 => by
    rw [← program_stable hb hf main init k]
    rcases program_le cfg (all.length + 1 + k) main init with h | h
    · exact absurd h (program_ends hb hf (by omega) main init)
    · exact h.symm

end Amanda.Imports

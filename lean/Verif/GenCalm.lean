import Verif.GenFrame
import Verif.Typed
import Verif.Compile
import Verif.Props.Image

/-!
# Code generation of typed programs raises only for programs that are too big

`Calm`: a step of code generation raises nothing but `Limit`, and what it leaves can be written.  Shown for
the trees typed by `Verif.Typed` in which no loop is left from the body of a `para`.
-/

namespace Amanda

namespace Codegen

open Source

/-- What is raised when a table or the code gets too long (codegen.py:310-314, 467-469). -/
def Limit (e : PyErr) : Prop := e = .exc "AssertionError" ∨ e = .exc "Exception"

/-- Operands that can be written when there are `n` labels. -/
structure InsOk (n : Nat) (op : Op) (args : List Nat) : Prop where
  arity : (vmOperands op).length ≤ args.length
  jump : (op = .jumpIfFalse ∨ op = .jump) → ∃ l, args[0]? = some l ∧ l < n

theorem InsOk.mono {n m : Nat} {op : Op} {args : List Nat} (h : InsOk n op args) (hm : n ≤ m) : InsOk m op args :=
  ⟨h.arity, fun hj => by
    obtain ⟨l, h1, h2⟩ := h.jump hj
    exact ⟨l, h1, Nat.lt_of_lt_of_le h2 hm⟩⟩

theorem insOk_plain {n : Nat} {op : Op} {args : List Nat} (h : (vmOperands op).length ≤ args.length) (h1 : op ≠ .jumpIfFalse)
    (h2 : op ≠ .jump) : InsOk n op args := ⟨h, fun h => by rcases h with h | h <;> contradiction⟩

theorem insOk_jump {n l : Nat} {op : Op} (ho : op = .jumpIfFalse ∨ op = .jump) (h : l < n) : InsOk n op [l] :=
  ⟨by rcases ho with rfl | rfl <;> simp [vmOperands], fun _ => ⟨l, rfl, h⟩⟩

/-- One or two offsets of a line (codegen.py:318-325). -/
def Offs (l : List Nat) : Prop := (∃ a, l = [a]) ∨ ∃ a b, l = [a, b]

/-- What has been generated can be written. -/
structure Sane (s : Gen) : Prop where
  ops : ∀ i ∈ s.ops, InsOk s.labels.length i.op i.args
  start : ∀ l, s.loopStart = some l → l < s.labels.length
  exit : ∀ l, s.loopExit = some l → l < s.labels.length
  src : ∀ p ∈ s.srcMap, Offs p.2

/-- What stays as it is. -/
structure Stays (s s' : Gen) : Prop where
  scope : s'.scope = s.scope
  start : s'.loopStart = s.loopStart
  exit : s'.loopExit = s.loopExit
  depth : s'.depth = s.depth
  locals : ∀ k, (lookup s.funcLocals k).isSome = true → (lookup s'.funcLocals k).isSome = true
  labels : s.labels.length ≤ s'.labels.length

theorem Stays.refl (s : Gen) : Stays s s := ⟨rfl, rfl, rfl, rfl, fun _ h => h, Nat.le_refl _⟩

theorem Stays.trans {a b c : Gen} (h : Stays a b) (k : Stays b c) : Stays a c :=
  ⟨k.scope.trans h.scope, k.start.trans h.start, k.exit.trans h.exit, k.depth.trans h.depth,
    fun x hx => k.locals x (h.locals x hx), Nat.le_trans h.labels k.labels⟩

/-- The local variables have slots. -/
def Slots (E : SymEnv) (Γ : List SymId) (s : Gen) : Prop :=
  ∀ i ∈ Γ, ∀ x, E.syms[i]? = some x → x.isGlobal = false → (lookup s.funcLocals x.outId).isSome = true

theorem Slots.stays {E : SymEnv} {Γ : List SymId} {s s' : Gen} (h : Slots E Γ s) (k : Stays s s') : Slots E Γ s' :=
  fun i hi x hx hg => k.locals _ (h i hi x hx hg)

/-- In scope `sc`, in a loop if `lp`, with at least `n` labels, where the variables `Γ` have slots. -/
structure At (E : SymEnv) (sc : Option ScopeId) (lp : Bool) (n : Nat) (Γ : List SymId) (s : Gen) : Prop where
  scope : s.scope = sc
  start : lp = true → s.loopStart.isSome = true
  exit : lp = true → s.loopExit.isSome = true
  labels : n ≤ s.labels.length
  slots : Slots E Γ s

theorem At.stays {E : SymEnv} {sc : Option ScopeId} {lp : Bool} {n : Nat} {Γ Γ' : List SymId} {s s' : Gen} (h : At E sc lp n Γ s)
    (k : Stays s s') (hs : Slots E Γ' s') : At E sc lp n Γ' s' :=
  ⟨k.scope.trans h.scope, fun e => by rw [k.start]; exact h.start e, fun e => by rw [k.exit]; exact h.exit e,
    Nat.le_trans h.labels k.labels, hs⟩

/-- A step of code generation that raises only `Limit`, and after which the variables `Γ'` have slots. -/
def Calm (E : SymEnv) (sc : Option ScopeId) (lp : Bool) (n : Nat) (Γ : List SymId) (m : G α) (Γ' : List SymId) : Prop :=
  ∀ s, Sane s → At E sc lp n Γ s →
    match m s with
    | .error e => Limit e
    | .ok (_, s') => Sane s' ∧ Stays s s' ∧ Slots E Γ' s'

section
variable {E : SymEnv} {sc : Option ScopeId} {lp : Bool} {n : Nat} {Γ Γ' Γ'' : List SymId}

theorem calm_pure {a : α} : Calm E sc lp n Γ (G.pure a) Γ := fun s hs ha => ⟨hs, Stays.refl s, ha.slots⟩

theorem calm_bind {m : G α} {f : α → G β} (h : Calm E sc lp n Γ m Γ') (k : ∀ a, Calm E sc lp n Γ' (f a) Γ'') :
    Calm E sc lp n Γ (m >>= f) Γ'' := by
  intro s hs ha
  have h1 := h s hs ha
  show match G.bind m f s with | .error e => _ | .ok (_, s') => _
  unfold G.bind
  cases hm : m s with
  | error e => rw [hm] at h1; exact h1
  | ok r =>
      obtain ⟨a, s1⟩ := r
      rw [hm] at h1
      obtain ⟨hs1, hk1, hg1⟩ := h1
      have h2 := k a s1 hs1 (ha.stays hk1 hg1)
      simp only
      cases hf : f a s1 with
      | error e => rw [hf] at h2; exact h2
      | ok r =>
          rw [hf] at h2
          exact ⟨h2.1, hk1.trans h2.2.1, h2.2.2⟩

/-- More is known than is needed. -/
theorem Calm.weaken {lp' : Bool} {n' : Nat} {Δ Δ' : List SymId} {m : G α} (h : Calm E sc lp n Γ m Γ') (hl : lp = true → lp' = true)
    (hn : n ≤ n') (hΓ : Γ ⊆ Δ) (hΔ : Δ' ⊆ Γ') : Calm E sc lp' n' Δ m Δ' := by
  intro s hs ha
  have := h s hs ⟨ha.scope, fun e => ha.start (hl e), fun e => ha.exit (hl e), Nat.le_trans hn ha.labels,
    fun i hi => ha.slots i (hΓ hi)⟩
  cases hm : m s with
  | error e => rw [hm] at this; exact this
  | ok r => rw [hm] at this; exact ⟨this.1, this.2.1, fun i hi => this.2.2 i (hΔ hi)⟩

theorem Calm.more {n' : Nat} {m : G α} (h : Calm E sc lp n Γ m Γ') (hn : n ≤ n') : Calm E sc lp n' Γ m Γ' :=
  h.weaken id hn (fun _ h => h) (fun _ h => h)

/-- What was known before is still known. -/
theorem Calm.keep {m : G α} (h : Calm E sc lp n Γ m Γ') : Calm E sc lp n Γ m (Γ' ++ Γ) := by
  intro s hs ha
  have := h s hs ha
  cases hm : m s with
  | error e => rw [hm] at this; exact this
  | ok r =>
      rw [hm] at this
      refine ⟨this.1, this.2.1, fun i hi => ?_⟩
      rcases List.mem_append.mp hi with hi | hi
      · exact this.2.2 i hi
      · exact (ha.slots.stays this.2.1) i hi

theorem Calm.back {m : G α} (h : Calm E sc lp n Γ m Γ') : Calm E sc lp n Γ m Γ :=
  h.keep.weaken id (Nat.le_refl _) (fun _ h => h) (fun _ h => List.mem_append_right _ h)

theorem calm_get {f : Gen → G β} (h : ∀ s, Sane s → At E sc lp n Γ s → Calm E sc lp n Γ (f s) Γ') :
    Calm E sc lp n Γ (G.get >>= f) Γ' := fun s hs ha => h s hs ha s hs ha

/-- A change of what does not matter. -/
theorem calm_same {m : G α} (h : ∀ s, ∃ a s', m s = .ok (a, s') ∧ s'.ops = s.ops ∧ s'.labels = s.labels ∧
    s'.loopStart = s.loopStart ∧ s'.loopExit = s.loopExit ∧ s'.srcMap = s.srcMap ∧ s'.scope = s.scope ∧ s'.depth = s.depth ∧
    s'.funcLocals = s.funcLocals) : Calm E sc lp n Γ m Γ := by
  intro s hs ha
  obtain ⟨a, s', e, h1, h2, h3, h4, h5, h6, h7, h8⟩ := h s
  rw [e]
  refine ⟨⟨by rw [h1, h2]; exact hs.ops, by rw [h3, h2]; exact hs.start, by rw [h4, h2]; exact hs.exit, by rw [h5]; exact hs.src⟩,
    ⟨h6, h3, h4, h7, fun k hk => by rw [h8]; exact hk, by rw [h2]; exact Nat.le_refl _⟩, ?_⟩
  intro i hi x hx hg
  rw [h8]
  exact ha.slots i hi x hx hg

theorem calm_setLine (line : Nat) : Calm E sc lp n Γ (setLine line) Γ :=
  calm_same fun _ => ⟨(), _, rfl, rfl, rfl, rfl, rfl, rfl, rfl, rfl, rfl⟩

theorem calm_checkIndex (i : Nat) : Calm E sc lp n Γ (checkIndex i) Γ := by
  unfold checkIndex
  split
  · exact calm_pure
  · exact fun s _ _ => .inl rfl

theorem calm_constIndex (c : ConstKey) : Calm E sc lp n Γ (constIndex c) Γ :=
  calm_bind (calm_same fun _ => ⟨_, _, rfl, rfl, rfl, rfl, rfl, rfl, rfl, rfl, rfl⟩) fun i => calm_checkIndex i

theorem calm_nameIndex (c : String) : Calm E sc lp n Γ (nameIndex c) Γ :=
  calm_bind (calm_same fun _ => ⟨_, _, rfl, rfl, rfl, rfl, rfl, rfl, rfl, rfl, rfl⟩) fun i => calm_checkIndex i

theorem noteLine_offs {line : Int} {ip : Nat} : ∀ {m : List (Int × List Nat)}, (∀ p ∈ m, Offs p.2) → ∀ p ∈ noteLine line ip m, Offs p.2
  | [], _, p, hp => by
      simp only [noteLine, List.mem_singleton] at hp
      subst hp
      exact .inl ⟨ip, rfl⟩
  | (l, offs) :: rest, h, p, hp => by
      unfold noteLine at hp
      split at hp
      · rcases List.mem_cons.mp hp with rfl | hp
        · rcases h (l, offs) (by simp) with ⟨a, e⟩ | ⟨a, b, e⟩
          · simp only at e
            subst e
            exact .inr ⟨a, ip, rfl⟩
          · simp only at e
            subst e
            simp only
            split
            · exact .inr ⟨a, ip, rfl⟩
            · exact .inr ⟨a, b, rfl⟩
        · exact h p (by simp [hp])
      · rcases List.mem_cons.mp hp with rfl | hp
        · exact h (l, offs) (by simp)
        · exact noteLine_offs (fun q hq => h q (by simp [hq])) p hp

theorem calm_emit {op : Op} {args : List Nat} (h : InsOk n op args) : Calm E sc lp n Γ (emit op args) Γ := by
  intro s hs ha
  refine ⟨⟨?_, hs.start, hs.exit, ?_⟩, ⟨rfl, rfl, rfl, rfl, fun _ h => h, Nat.le_refl _⟩, ha.slots⟩
  · intro i hi
    rcases List.mem_append.mp hi with hi | hi
    · exact hs.ops i hi
    · rw [List.mem_singleton] at hi
      subst hi
      exact h.mono ha.labels
  · exact noteLine_offs hs.src

theorem calm_newLabel {f : Nat → G β} (h : ∀ l, n ≤ l → Calm E sc lp (l + 1) Γ (f l) Γ') : Calm E sc lp n Γ (newLabel >>= f) Γ' := by
  intro s hs ha
  have hlen : (s.labels ++ [s.ip]).length = s.labels.length + 1 := by simp
  have hst : Stays s { s with labels := s.labels ++ [s.ip] } := ⟨rfl, rfl, rfl, rfl, fun _ h => h, by simp⟩
  have hsane : Sane { s with labels := s.labels ++ [s.ip] } :=
    ⟨fun i hi => (hs.ops i hi).mono (by simp), fun l hl => by have := hs.start l hl; simp only [hlen]; omega,
      fun l hl => by have := hs.exit l hl; simp only [hlen]; omega, hs.src⟩
  have := h s.labels.length ha.labels { s with labels := s.labels ++ [s.ip] } hsane
    ⟨ha.scope, ha.start, ha.exit, by simp only [hlen]; omega, ha.slots⟩
  show match f s.labels.length { s with labels := s.labels ++ [s.ip] } with | .error e => _ | .ok (_, s') => _
  cases hm : f s.labels.length { s with labels := s.labels ++ [s.ip] } with
  | error e => rw [hm] at this; exact this
  | ok r => rw [hm] at this; exact ⟨this.1, hst.trans this.2.1, this.2.2⟩

theorem calm_patch (l : Nat) : Calm E sc lp n Γ (patchLabel l) Γ := by
  intro s hs ha
  unfold patchLabel
  split
  · rename_i h
    split at h
    · cases h; exact .inr rfl
    · cases h
  · rename_i h
    split at h
    · cases h
    · cases h
      refine ⟨⟨?_, ?_, ?_, hs.src⟩, ⟨rfl, rfl, rfl, rfl, fun _ h => h, by simp⟩, ha.slots⟩
      · intro i hi; simpa using hs.ops i hi
      · intro l' hl; simpa using hs.start l' hl
      · intro l' hl; simpa using hs.exit l' hl

theorem calm_loadConst (c : ConstKey) : Calm E sc lp n Γ (loadConst c) Γ :=
  calm_bind (calm_constIndex c) fun _ => calm_emit (insOk_plain (by simp [vmOperands]) (by decide) (by decide))

theorem need_some {o : Option α} {a : α} {exc : String} (h : o = some a) (f : α → G β) : (G.need o exc >>= f) = f a := by
  subst h; rfl

theorem symOf_some {ctx : GenCtx} {o : Option SymId} {i : SymId} {x : Sym} (ho : o = some i) (h : ctx.env.syms[i]? = some x) (f : Sym → G β) :
    (symOf ctx o >>= f) = f x := need_some (by rw [ho]; exact h) f

/-! ## Variables -/

/-- A symbol that can be loaded. -/
structure CanLoad (ctx : GenCtx) (Γ : List SymId) (x : SymRef) : Prop where
  module : x.modPath ≠ ctx.modPath → (indexIn x.modPath ctx.modules).isSome = true
  local_ : x.modPath = ctx.modPath → x.isGlobal = false → ∃ i ∈ Γ, ∃ y, ctx.env.syms[i]? = some y ∧ y.isGlobal = false ∧ y.outId = x.outId

theorem calm_loadVariable {ctx : GenCtx} {x : SymRef} (h : CanLoad ctx Γ x) : Calm ctx.env sc lp n Γ (loadVariable ctx x) Γ := by
  unfold loadVariable
  refine calm_bind (calm_nameIndex _) fun i => ?_
  split
  · rename_i hm
    obtain ⟨k, hk⟩ := Option.isSome_iff_exists.mp (h.module hm)
    rw [need_some hk]
    exact calm_emit (insOk_plain (by simp [vmOperands]) (by decide) (by decide))
  · rename_i hm
    split
    · exact calm_emit (insOk_plain (by simp [vmOperands]) (by decide) (by decide))
    · rename_i hg
      refine calm_get fun s hs ha => ?_
      obtain ⟨i, hi, y, hy, hyg, hyo⟩ := h.local_ (by simpa using hm) (by simpa using hg)
      obtain ⟨l, hl⟩ := Option.isSome_iff_exists.mp (ha.slots i hi y hy hyg)
      rw [hyo] at hl
      rw [need_some hl]
      exact calm_emit (insOk_plain (by simp [vmOperands]) (by decide) (by decide))

theorem lookup_store {d : List (String × Nat)} {k : String} {v : Nat} {k' : String} (h : k' = k ∨ (lookup d k').isSome = true) :
    (lookup (store d k v) k').isSome = true := by
  unfold store
  split
  · rename_i hk
    have hk' : (lookup d k').isSome = true := by
      rcases h with rfl | h
      · exact hk
      · exact h
    unfold lookup at hk' ⊢
    rw [Option.isSome_map, List.find?_isSome] at hk' ⊢
    obtain ⟨p, hp, hpk⟩ := hk'
    refine ⟨_, List.mem_map_of_mem hp, ?_⟩
    split
    · rename_i hc
      simp only [beq_iff_eq] at hc hpk ⊢
      rw [← hc, hpk]
    · exact hpk
  · unfold lookup at h ⊢
    rw [Option.isSome_map, List.find?_isSome]
    rcases h with rfl | h
    · exact ⟨(k', v), by simp, by simp⟩
    · rw [Option.isSome_map, List.find?_isSome] at h
      obtain ⟨p, hp, hpk⟩ := h
      exact ⟨p, by simp [hp], hpk⟩

/-- A variable that is set has a slot. -/
theorem calm_setVariable {i : SymId} {x : Sym} (hx : E.syms[i]? = some x) :
    Calm E sc lp n Γ (setVariable x.toSymRef) (i :: Γ) := by
  unfold setVariable
  split
  · rename_i hg
    intro s hs ha
    have : Calm E sc lp n Γ (do let i ← nameIndex x.toSymRef.name; emit .setGlobal [i]) Γ :=
      calm_bind (calm_nameIndex _) fun _ => calm_emit (insOk_plain (by simp [vmOperands]) (by decide) (by decide))
    have := this s hs ha
    generalize hm : (do let i ← nameIndex x.toSymRef.name; emit .setGlobal [i] : G Unit) s = r at this ⊢
    cases r with
    | error e => exact this
    | ok r =>
        refine ⟨this.1, this.2.1, fun j hj y hy hyg => ?_⟩
        rcases List.mem_cons.mp hj with rfl | hj
        · rw [hx] at hy
          cases hy
          exact absurd hyg (by simp [show x.isGlobal = true from hg])
        · exact this.2.2 j hj y hy hyg
  · refine calm_bind (Γ' := i :: Γ) ?_ fun l => calm_emit (insOk_plain (by simp [vmOperands]) (by decide) (by decide))
    intro s hs ha
    have hls : localSlot x.toSymRef s = match lookup s.funcLocals x.outId with
        | some l => .ok (l, s)
        | none => .ok (s.funcLocals.length, { s with funcLocals := store s.funcLocals x.outId s.funcLocals.length }) := by
      show (match lookup s.funcLocals x.outId with | some l => G.pure l | none => declareLocal x.toSymRef) s = _
      cases lookup s.funcLocals x.outId with
      | none => rfl
      | some l => rfl
    rw [hls]
    cases hl : lookup s.funcLocals x.outId with
    | some l =>
        refine ⟨hs, Stays.refl s, fun j hj y hy hyg => ?_⟩
        rcases List.mem_cons.mp hj with rfl | hj
        · rw [hx] at hy
          cases hy
          rw [hl]; rfl
        · exact ha.slots j hj y hy hyg
    | none =>
        refine ⟨⟨hs.ops, hs.start, hs.exit, hs.src⟩, ⟨rfl, rfl, rfl, rfl, fun k hk => lookup_store (.inr hk), Nat.le_refl _⟩, ?_⟩
        intro j hj y hy hyg
        rcases List.mem_cons.mp hj with rfl | hj
        · rw [hx] at hy
          cases hy
          exact lookup_store (.inl rfl)
        · exact lookup_store (.inr (ha.slots j hj y hy hyg))

end

/-! ## Expressions -/

/-- Where the symbols of a typed module are. -/
structure Sites (ctx : GenCtx) (L : Lang) (T : Table) : Prop where
  env : L.env = ctx.env
  var : ∀ i t, T.vty i = some t → ∃ x, ctx.env.syms[i]? = some x ∧ x.modPath = ctx.modPath
  fn : ∀ i f, T.fn i = some f → ∃ x, ctx.env.syms[i]? = some x ∧ x.modPath = ctx.modPath ∧ x.isGlobal = true
  lib : ∀ i m, T.lib i = some m → ∃ x, ctx.env.syms[i]? = some x ∧ x.isGlobal = true ∧
    (x.modPath ≠ ctx.modPath → (indexIn x.modPath ctx.modules).isSome = true)
  prim : ctx.builtinPath ≠ ctx.modPath → (indexIn ctx.builtinPath ctx.modules).isSome = true

section
variable {F : Type} [FloatOps F] {ctx : GenCtx} {L : Lang} {T : Table} {sc : Option ScopeId} {lp : Bool} {n : Nat} {Γ Γ' : List SymId}

omit [FloatOps F] in
theorem Sites.load (h : Sites ctx L T) {i : SymId} {t : Ty} (hi : i ∈ Γ) (ht : T.vty i = some t) :
    ∃ x, ctx.env.syms[i]? = some x ∧ CanLoad ctx Γ x.toSymRef := by
  obtain ⟨x, hx, hm⟩ := h.var i t ht
  exact ⟨x, hx, fun hc => absurd hm hc, fun _ hg => ⟨i, hi, x, hx, hg, rfl⟩⟩

omit [FloatOps F] in
theorem Sites.tyRef (h : Sites ctx L T) {p : PTag} : CanLoad ctx Γ (tyRef ctx (.prim p)) :=
  ⟨fun hm => h.prim hm, fun _ hg => by cases hg⟩

omit [FloatOps F] in
theorem calm_autoCast (h : Sites ctx L T) (prom : Ty) : Calm ctx.env sc lp n Γ (autoCast ctx prom) Γ := by
  unfold autoCast
  split
  · rename_i hp
    subst hp
    exact calm_bind (calm_loadVariable h.tyRef) fun _ => calm_emit (insOk_plain (by simp [vmOperands]) (by decide) (by decide))
  · exact calm_pure

omit [FloatOps F] in
theorem calm_atLine {line : Nat} {m : G Unit} (h : Calm ctx.env sc lp n Γ m Γ') : Calm ctx.env sc lp n Γ (atLine line m) Γ' :=
  calm_bind (calm_setLine line) fun _ => h

theorem binOpcode_of {a b t : Ty} {op : TT} (ha : Basic a) (h : Ty.binop a op b = some t) :
    ∃ o, binOpcode op = some o ∧ (vmOperands o).length = 0 ∧ o ≠ .jump ∧ o ≠ .jumpIfFalse := by
  have hp : Ty.primitiveBinop a op b = some t := by
    cases ha <;> exact h
  unfold Ty.primitiveBinop at hp
  split at hp
  · cases hp
  · split at hp
    · cases hp
    · split at hp <;> first | cases hp | exact ⟨_, rfl, rfl, by decide, by decide⟩

theorem unOpcode_of {a t : Ty} {op : TT} (h : Ty.unaryop a op = some t) (hp : op ≠ .plus) :
    ∃ o, unOpcode op = some o ∧ (vmOperands o).length = 0 ∧ o ≠ .jump ∧ o ≠ .jumpIfFalse := by
  unfold Ty.unaryop at h
  split at h <;> first | cases h; done | contradiction | exact ⟨_, rfl, rfl, by decide, by decide⟩

omit [FloatOps F] in
theorem calm_var (h : Sites ctx L T) {i : SymId} {t prom : Ty} {name : String} (hi : i ∈ Γ) (ht : T.vty i = some t) :
    Calm ctx.env sc lp n Γ (genVariable ctx name (some i) prom) Γ := by
  obtain ⟨x, hx, hl⟩ := h.load hi ht
  unfold genVariable
  refine calm_get fun s hs ha => ?_
  rw [symOf_some (i := i) (Option.orElse_some ..) hx]
  exact calm_bind (calm_loadVariable hl) fun _ => calm_autoCast h prom

omit [FloatOps F] in
theorem calm_lib (h : Sites ctx L T) {i : SymId} {m : String} {prom : Ty} {name : String} {id : Option SymId}
    (hid : (id.orElse fun _ => L.env.resolve sc name) = some i) (hf : T.lib i = some m) :
    Calm ctx.env sc lp n Γ (genVariable ctx name id prom) Γ := by
  obtain ⟨x, hx, hg, hm⟩ := h.lib i m hf
  unfold genVariable
  refine calm_get fun s hs ha => ?_
  rw [symOf_some (i := i) (by rw [ha.scope, ← h.env]; exact hid) hx]
  exact calm_bind (calm_loadVariable ⟨hm, fun _ hg' => by rw [show x.toSymRef.isGlobal = true from hg] at hg'; cases hg'⟩)
    fun _ => calm_autoCast h prom

omit [FloatOps F] in
theorem calm_callee (h : Sites ctx L T) {i : SymId} {f : FnTy} {prom : Ty} {name : String} {id : Option SymId}
    (hid : (id.orElse fun _ => L.env.resolve sc name) = some i) (hf : T.fn i = some f) :
    Calm ctx.env sc lp n Γ (genVariable ctx name id prom) Γ := by
  obtain ⟨x, hx, hm, hg⟩ := h.fn i f hf
  unfold genVariable
  refine calm_get fun s hs ha => ?_
  rw [symOf_some (i := i) (by rw [ha.scope, ← h.env]; exact hid) hx]
  exact calm_bind (calm_loadVariable ⟨fun hc => absurd hm hc, fun _ hg' => by rw [show x.toSymRef.isGlobal = true from hg] at hg'; cases hg'⟩)
    fun _ => calm_autoCast h prom

omit [FloatOps F] in
theorem calm_converta (h : Sites ctx L T) {target : G Unit} {a b t : Ty} (ht : Calm ctx.env sc lp n Γ target Γ) (hc : ConvTy a b t) :
    Calm ctx.env sc lp n Γ (genConverta ctx target a b) Γ := by
  unfold genConverta
  refine calm_bind ht fun _ => ?_
  split
  · exact calm_pure
  · rename_i hne
    cases hc with
    | same he => simp [he] at hne
    | cast _ hb _ =>
        have : ∃ p, b = .prim p := by cases hb <;> exact ⟨_, rfl⟩
        obtain ⟨p, rfl⟩ := this
        exact calm_bind (calm_loadVariable h.tyRef) fun _ => calm_emit (insOk_plain (by simp [vmOperands]) (by decide) (by decide))

/-- What an assignment on the right side leaves. -/
theorem calm_chain (h : Sites ctx L T) {u : Use} {e : TExpr} {t : Ty} (he : TE F L T u Γ sc e t) :
    Calm ctx.env sc lp n Γ (genChain ctx (assignedSym e)) Γ := by
  cases he with
  | assign _ hi ht _ =>
      obtain ⟨x, hx, hl⟩ := h.load hi ht
      show Calm ctx.env sc lp n Γ (symOf ctx (some _) >>= _) Γ
      rw [symOf_some rfl hx]
      exact calm_loadVariable hl
  | _ => exact calm_pure

mutual
theorem calm_expr (h : Sites ctx L T) {u : Use} {e : TExpr} {t : Ty} : TE F L T u Γ sc e t → Calm ctx.env sc lp n Γ (genExpr ctx e) Γ
  | .const .. => by
      simp only [genExpr]
      exact calm_atLine (calm_bind (calm_loadConst _) fun _ => calm_autoCast h _)
  | .fmtStr he => by
      simp only [genExpr]
      exact calm_atLine (calm_bind (calm_exprs h he) fun _ => calm_emit (insOk_plain (by simp [vmOperands]) (by decide) (by decide)))
  | .var i hi ht _ => by
      simp only [genExpr]
      exact calm_atLine (calm_var h hi ht)
  | .converta he hc => by
      simp only [genExpr]
      exact calm_atLine (calm_converta h (calm_expr h he) hc)
  | .bin hl hr ha hb _ hn ht _ _ => by
      simp only [genExpr]
      refine calm_atLine ?_
      unfold genBinop
      rw [hn]
      obtain ⟨o, ho, h0, h1, h2⟩ := binOpcode_of ha ht
      simp only [genOperator]
      refine calm_bind (calm_expr h hl) fun _ => calm_bind (calm_expr h hr) fun _ => ?_
      rw [need_some ho]
      exact calm_bind (calm_emit (insOk_plain (by rw [h0]; exact Nat.zero_le _) h2 h1)) fun _ => calm_autoCast h _
  | .un he _ ht hp _ => by
      simp only [genExpr]
      refine calm_atLine ?_
      obtain ⟨o, ho, h0, h1, h2⟩ := unOpcode_of ht hp
      simp only [genUnaryop]
      refine calm_bind (calm_expr h he) fun _ => ?_
      rw [need_some ho]
      exact calm_bind (calm_emit (insOk_plain (by rw [h0]; exact Nat.zero_le _) h2 h1)) fun _ => calm_autoCast h _
  | .assign _ hi ht he => by
      simp only [genExpr]
      refine calm_atLine ?_
      obtain ⟨x, hx, -⟩ := h.load hi ht
      simp only [genAssign]
      refine calm_bind (calm_expr h he) fun _ => calm_bind (calm_chain h he) fun _ => ?_
      rw [symOf_some rfl hx]
      exact (calm_setVariable hx).back
  | .call i f hk _ hid hf ha _ _ => by
      simp only [genExpr]
      refine calm_atLine ?_
      simp only [genCall]
      refine calm_bind (calm_exprs h ha) fun _ => calm_bind (calm_atLine (calm_callee h hid hf)) fun _ => ?_
      rw [h.env] at hk
      obtain ⟨x, hx, hxk⟩ := Option.map_eq_some_iff.mp hk
      rw [symOf_some rfl hx]
      unfold genCallOp
      rw [hxk]
      exact calm_bind (calm_emit (insOk_plain (by simp [vmOperands]) (by decide) (by decide))) fun _ => calm_autoCast h _
  | .lib i f hk _ hid hf ha _ _ => by
      simp only [genExpr]
      refine calm_atLine ?_
      simp only [genCall]
      refine calm_bind (calm_exprs h ha) fun _ => calm_bind (calm_atLine (calm_lib h hid hf)) fun _ => ?_
      rw [h.env] at hk
      obtain ⟨x, hx, hxk⟩ := Option.map_eq_some_iff.mp hk
      rw [symOf_some rfl hx]
      unfold genCallOp
      rw [hxk]
      exact calm_bind (calm_emit (insOk_plain (by simp [vmOperands]) (by decide) (by decide))) fun _ => calm_autoCast h _
  | .list _ he _ => by
      simp only [genExpr]
      exact calm_atLine (calm_bind (calm_exprs h he) fun _ => calm_emit (insOk_plain (by simp [vmOperands]) (by decide) (by decide)))
  | .index he hi => by
      simp only [genExpr]
      exact calm_atLine (calm_bind (calm_expr h he) fun _ => calm_bind (calm_expr h hi) fun _ =>
        calm_emit (insOk_plain (by simp [vmOperands]) (by decide) (by decide)))
  | .charAt he hi => by
      simp only [genExpr]
      exact calm_atLine (calm_bind (calm_expr h he) fun _ => calm_bind (calm_expr h hi) fun _ =>
        calm_emit (insOk_plain (by simp [vmOperands]) (by decide) (by decide)))
  | .indexSet he hi hv => by
      simp only [genExpr]
      exact calm_atLine (calm_bind (calm_expr h he) fun _ => calm_bind (calm_expr h hi) fun _ => calm_bind (calm_expr h hv) fun _ =>
        calm_emit (insOk_plain (by simp [vmOperands]) (by decide) (by decide)))
theorem calm_exprs (h : Sites ctx L T) {es : List TExpr} {ts : List Ty} : TEs F L T Γ sc es ts → Calm ctx.env sc lp n Γ (genExprs ctx es) Γ
  | .nil => by simp only [genExprs]; exact calm_pure
  | .cons he hes => by
      simp only [genExprs]
      exact calm_bind (calm_expr h he) fun _ => calm_exprs h hes
end

/-! ## Statements -/

theorem bind_assoc' {m : G α} {f : α → G β} {g : β → G γ} : ((m >>= f) >>= g) = (m >>= fun a => f a >>= g) := by
  funext s
  show G.bind (G.bind m f) g s = G.bind m (fun a => G.bind (f a) g) s
  unfold G.bind
  cases m s with
  | error e => rfl
  | ok r => rfl

theorem bind_run_ok {m : G α} {f : α → G β} {s s' : Gen} {a : α} (h : m s = .ok (a, s')) : (m >>= f) s = f a s' := by
  show G.bind m f s = _
  unfold G.bind
  rw [h]

theorem bind_run_error {m : G α} {f : α → G β} {s : Gen} {e : PyErr} (h : m s = .error e) : (m >>= f) s = .error e := by
  show G.bind m f s = _
  unfold G.bind
  rw [h]

omit [FloatOps F] in
/-- A block. -/
theorem calm_scoped (h : Sites ctx L T) {k : ScopeId} {body : G Unit} (hw : Within L k sc) (hb : Calm ctx.env (some k) lp n Γ body Γ') :
    Calm ctx.env sc lp n Γ (genScoped ctx k body) Γ := by
  intro s hs ha
  have h1 := hb { s with depth := s.depth + 1, scope := some k } ⟨hs.ops, hs.start, hs.exit, hs.src⟩
    ⟨rfl, ha.start, ha.exit, ha.labels, ha.slots⟩
  have e : genScoped ctx k body s = match body { s with depth := s.depth + 1, scope := some k } with
      | .ok (_, t) => .ok ((), { t with depth := t.depth - 1, scope := (t.scope.bind (ctx.env.scopes[·]?)).bind (·.parent) })
      | .error e => .error e := by
    show G.bind (enterBlock k) (fun _ => G.bind body fun _ => exitBlock ctx) s = _
    unfold G.bind
    simp only [enterBlock, G.modify]
    cases body { s with depth := s.depth + 1, scope := some k } with
    | error e => rfl
    | ok r => rfl
  rw [e]
  cases hm : body { s with depth := s.depth + 1, scope := some k } with
  | error e => rw [hm] at h1; exact h1
  | ok r =>
      obtain ⟨u, t⟩ := r
      rw [hm] at h1
      obtain ⟨hs1, hk1, hg1⟩ := h1
      have hst : Stays s { t with depth := t.depth - 1, scope := (t.scope.bind (ctx.env.scopes[·]?)).bind (·.parent) } := by
        refine ⟨?_, hk1.start, hk1.exit, ?_, hk1.locals, hk1.labels⟩
        · show (t.scope.bind (ctx.env.scopes[·]?)).bind (·.parent) = s.scope
          rw [show t.scope = some k from hk1.scope, ha.scope]
          unfold Within at hw
          rw [h.env] at hw
          exact hw
        · show t.depth - 1 = s.depth
          rw [show t.depth = s.depth + 1 from hk1.depth]
          omega
      exact ⟨⟨hs1.ops, hs1.start, hs1.exit, hs1.src⟩, hst, ha.slots.stays hst⟩

omit [FloatOps F] in
theorem calm_branch {cond body : G Unit} {a b : Nat} (hc : Calm ctx.env sc lp n Γ cond Γ) (hb : Calm ctx.env sc lp n Γ body Γ)
    (ha : a < n) (hb' : b < n) : Calm ctx.env sc lp n Γ (genBranch cond body a b) Γ :=
  calm_bind hc fun _ => calm_bind (calm_emit (insOk_jump (.inl rfl) hb')) fun _ => calm_bind hb fun _ =>
    calm_bind (calm_emit (insOk_jump (.inr rfl) ha)) fun _ => calm_patch _

omit [FloatOps F] in
/-- The loop between its labels. -/
theorem calm_loopBody (h : Sites ctx L T) {k : ScopeId} {cond body : G Unit} {a b : Nat} (hw : Within L k sc)
    (hc : Calm ctx.env (some k) lp n Γ cond Γ) (hb : Calm ctx.env (some k) lp n Γ body Γ') (ha : a < n) (hb' : b < n) :
    Calm ctx.env sc lp n Γ (genLoopBody ctx k cond body a b) Γ := by
  have e : genLoopBody ctx k cond body a b = genScoped ctx k (do
      patchLabel b
      cond
      emit .jumpIfFalse [a]
      body
      emit .jump [b]
      patchLabel a) := by
    simp only [genLoopBody, genScoped, bind_assoc']
  rw [e]
  exact calm_scoped h hw (calm_bind (calm_patch _) fun _ => calm_bind hc fun _ => calm_bind (calm_emit (insOk_jump (.inl rfl) ha)) fun _ =>
    calm_bind hb fun _ => calm_bind (calm_emit (insOk_jump (.inr rfl) hb')) fun _ => calm_patch _)

omit [FloatOps F] in
/-- `enquanto`. -/
theorem calm_enquanto (h : Sites ctx L T) {k : ScopeId} {cond body : G Unit} (hw : Within L k sc)
    (hc : ∀ n, Calm ctx.env (some k) true n Γ cond Γ) (hb : ∀ n, Calm ctx.env (some k) true n Γ body Γ') :
    Calm ctx.env sc lp n Γ (genEnquanto ctx k cond body) Γ := by
  unfold genEnquanto
  refine calm_newLabel fun a _ => ?_
  intro s hs ha
  have hlen : (s.labels ++ [s.ip]).length = s.labels.length + 1 := by simp
  have hla := ha.labels
  have h1 := calm_loopBody (lp := true) (n := s.labels.length + 1) (a := a) (b := s.labels.length) h hw (hc _) (hb _) (by omega) (by omega)
    { s with labels := s.labels ++ [s.ip], loopStart := some s.labels.length, loopExit := some a }
    ⟨fun i hi => (hs.ops i hi).mono (by simp), fun l hl => by cases hl; simp, fun l hl => by cases hl; simp only [hlen]; omega, hs.src⟩
    ⟨ha.scope, fun _ => rfl, fun _ => rfl, by simp, ha.slots⟩
  have e : (do
        let s ← G.get
        let loop ← newLabel
        setLoop (some loop) (some a)
        genLoopBody ctx k cond body a loop
        setLoop s.loopStart s.loopExit : G Unit) s =
      match genLoopBody ctx k cond body a s.labels.length
        { s with labels := s.labels ++ [s.ip], loopStart := some s.labels.length, loopExit := some a } with
      | .ok (_, t) => .ok ((), { t with loopStart := s.loopStart, loopExit := s.loopExit })
      | .error e => .error e := by
    show G.bind (genLoopBody ctx k cond body a s.labels.length) (fun _ => setLoop s.loopStart s.loopExit)
      { s with labels := s.labels ++ [s.ip], loopStart := some s.labels.length, loopExit := some a } = _
    unfold G.bind
    cases genLoopBody ctx k cond body a s.labels.length
        { s with labels := s.labels ++ [s.ip], loopStart := some s.labels.length, loopExit := some a } with
    | error e => rfl
    | ok r => rfl
  rw [e]
  generalize genLoopBody ctx k cond body a s.labels.length
    { s with labels := s.labels ++ [s.ip], loopStart := some s.labels.length, loopExit := some a } = r at h1 ⊢
  cases r with
  | error e => exact h1
  | ok r =>
      obtain ⟨u, t⟩ := r
      obtain ⟨hs1, hk1, hg1⟩ := h1
      have hlab : s.labels.length + 1 ≤ t.labels.length := by
        have := hk1.labels
        simp only [hlen] at this
        exact this
      refine ⟨⟨hs1.ops, fun l hl => ?_, fun l hl => ?_, hs1.src⟩, ⟨hk1.scope, rfl, rfl, hk1.depth, hk1.locals, by show _ ≤ t.labels.length; omega⟩, hg1⟩
      · have := hs.start l hl
        show l < t.labels.length
        omega
      · have := hs.exit l hl
        show l < t.labels.length
        omega

omit [FloatOps F] in
/-- `para`. -/
theorem calm_para (h : Sites ctx L T) {name : String} {k : ScopeId} {i : SymId} {t : Ty} {start stop inc body : G Unit} (hw : Within L k sc)
    (hr : L.env.resolve (some k) name = some i) (ht : T.vty i = some t)
    (h1 : ∀ n, Calm ctx.env (some k) lp n Γ start Γ) (h2 : ∀ n, Calm ctx.env (some k) lp n (i :: Γ) stop (i :: Γ))
    (h3 : ∀ n, Calm ctx.env (some k) lp n (i :: Γ) inc (i :: Γ)) (h4 : ∀ n, Calm ctx.env (some k) lp n (i :: Γ) body Γ') :
    Calm ctx.env sc lp n Γ (genPara ctx name k start stop inc body) Γ := by
  obtain ⟨x, hx, hl⟩ := h.load (Γ := i :: Γ) (List.mem_cons_self ..) ht
  rw [h.env] at hr
  unfold genPara
  refine calm_newLabel fun a _ => calm_newLabel fun b hab => ?_
  have e : (do
      enterBlock k
      start
      let control ← symOf ctx (ctx.env.resolve (some k) name)
      setVariable control.toSymRef
      patchLabel b
      genParaTest ctx control.toSymRef stop a
      body
      genParaStep ctx control.toSymRef inc
      emit .jump [b]
      patchLabel a
      exitBlock ctx : G Unit) = genScoped ctx k (do
      start
      let control ← symOf ctx (ctx.env.resolve (some k) name)
      setVariable control.toSymRef
      patchLabel b
      genParaTest ctx control.toSymRef stop a
      body
      genParaStep ctx control.toSymRef inc
      emit .jump [b]
      patchLabel a) := by
    simp only [genScoped, bind_assoc']
  rw [e]
  refine calm_scoped (Γ' := i :: Γ) h hw (calm_bind (h1 _) fun _ => ?_)
  rw [symOf_some hr hx]
  refine calm_bind (calm_setVariable hx) fun _ => calm_bind (calm_patch _) fun _ => calm_bind ?_ fun _ => calm_bind (h4 _).back fun _ =>
    calm_bind ?_ fun _ => calm_bind (calm_emit (insOk_jump (.inr rfl) (by omega))) fun _ => calm_patch _
  · exact calm_bind (calm_loadVariable hl) fun _ => calm_bind (h2 _) fun _ =>
      calm_bind (calm_emit (insOk_plain (by simp [vmOperands]) (by decide) (by decide))) fun _ =>
        calm_emit (insOk_jump (.inl rfl) (by omega))
  · exact calm_bind (h3 _) fun _ => calm_bind (calm_loadVariable hl) fun _ =>
      calm_bind (calm_emit (insOk_plain (by simp [vmOperands]) (by decide) (by decide))) fun _ => (calm_setVariable hx).back

omit [FloatOps F] in
theorem calm_loopCtl (isBreak : Bool) (hl : lp = true) : Calm ctx.env sc lp n Γ (genLoopCtl isBreak) Γ := by
  intro s hs ha
  have : ∃ l, (if isBreak then s.loopExit else s.loopStart) = some l ∧ l < s.labels.length := by
    cases isBreak with
    | true =>
        obtain ⟨l, hl⟩ := Option.isSome_iff_exists.mp (ha.exit hl)
        exact ⟨l, hl, hs.exit l hl⟩
    | false =>
        obtain ⟨l, hl⟩ := Option.isSome_iff_exists.mp (ha.start hl)
        exact ⟨l, hl, hs.start l hl⟩
  obtain ⟨l, h1, h2⟩ := this
  have e : genLoopCtl isBreak s = emit .jump [l] s := by
    show (G.need (if isBreak then s.loopExit else s.loopStart) "KeyError" >>= fun l => emit .jump [l]) s = _
    rw [need_some h1]
  rw [e]
  exact calm_emit (E := ctx.env) (lp := lp) (n := s.labels.length) (insOk_jump (.inr rfl) h2) s hs
    ⟨ha.scope, ha.start, ha.exit, Nat.le_refl _, ha.slots⟩

mutual
theorem calm_stmt (h : Sites ctx L T) {ret : Option Ty} {m : Mode} {sc : Option ScopeId} {Γ Γ' : List SymId} {st : TStmt} (hm : m.strict = true)
    (hf : ∀ line sym b, st = .func line sym b → m.top = true → ∀ n, Calm ctx.env sc m.loop n Γ (genStmt ctx st) Γ) {n : Nat} :
    TS F L T ret m Γ sc st Γ' → Calm ctx.env sc m.loop n Γ (genStmt ctx st) Γ'
  | .expr he _ => by
      simp only [genStmt]
      exact calm_expr h he
  | .decl ht _ he => by
      obtain ⟨x, hx, -⟩ := h.var _ _ ht
      simp only [genStmt]
      refine calm_atLine (calm_bind (calm_expr h he) fun _ => calm_bind (calm_chain h he) fun _ => ?_)
      rw [symOf_some rfl hx]
      exact calm_setVariable hx
  | .default i v hr _ ht _ _ => by
      obtain ⟨x, hx, -⟩ := h.var _ _ ht
      simp only [genStmt]
      refine calm_atLine (calm_get fun s hs ha => calm_bind (calm_loadConst _) fun _ => ?_)
      rw [symOf_some (by rw [ha.scope, ← h.env]; exact hr) hx]
      exact calm_setVariable hx
  | .loopCtl hl => by
      simp only [genStmt]
      exact calm_atLine (calm_loopCtl _ hl)
  | .retorna he => by
      simp only [genStmt, genOpt, genRetorna]
      exact calm_atLine (calm_bind (calm_expr h he) fun _ => calm_emit (insOk_plain (by simp [vmOperands]) (by decide) (by decide)))
  | .retornaVazio => by
      simp only [genStmt, genOpt, genRetorna]
      exact calm_atLine (calm_bind (calm_loadConst _) fun _ => calm_emit (insOk_plain (by simp [vmOperands]) (by decide) (by decide)))
  | .mostra he => by
      simp only [genStmt]
      exact calm_atLine (calm_bind (calm_expr h he) fun _ => calm_emit (insOk_plain (by simp [vmOperands]) (by decide) (by decide)))
  | .se (s := k) hc _ hw hb he => by
      simp only [genStmt]
      refine calm_atLine (calm_newLabel fun a _ => calm_newLabel fun b hab => ?_)
      have hels := calm_elses h hm he a (n := b + 1) (by omega)
      have hbody := calm_stmts h (m := m.block) hm (fun _ _ _ _ h => by cases h) (n := b + 1) hb
      refine calm_bind (calm_branch (calm_expr h hc) ?_ (by omega) (by omega)) fun _ =>
        calm_bind hels.1 fun _ => calm_bind hels.2 fun _ => calm_patch _
      simp only [genBlock]
      exact calm_scoped h hw hbody
  | .enquanto (s := k) hc _ hw hb => by
      simp only [genStmt]
      exact calm_atLine (calm_enquanto h hw (fun n => calm_expr h hc)
        fun n => calm_stmts h (m := m.loopIn) hm (fun _ _ _ _ h => by cases h) hb)
  | .para (s := k) (inc := inc) i _ hw h1 hr _ ht h2 hi hb => by
      simp only [genStmt]
      refine calm_atLine (calm_para h hw hr ht (fun n => calm_expr h h1) (fun n => calm_expr h h2) (fun n => ?_) fun n =>
        (calm_stmts h (m := m.paraIn) hm (fun _ _ _ _ h => by cases h) hb).weaken (fun e => by simp [hm] at e) (Nat.le_refl _)
          (fun _ h => h) (fun _ h => h))
      cases inc with
      | none => simp only [genOpt, genInc]; exact calm_loadConst _
      | some e =>
          cases hi with
          | some _ h3 => simp only [genOpt, genInc]; exact calm_expr h h3
  | .func ht => hf _ _ _ rfl ht _
  | .noop => by
      simp only [genStmt]
      exact calm_setLine _
theorem calm_stmts (h : Sites ctx L T) {ret : Option Ty} {m : Mode} {sc : Option ScopeId} {Γ Γ' : List SymId} {ss : List TStmt} (hm : m.strict = true)
    (hf : ∀ line sym b, .func line sym b ∈ ss → m.top = true → ∀ n Γ, Calm ctx.env sc m.loop n Γ (genStmt ctx (.func line sym b)) Γ)
    {n : Nat} : TSs F L T ret m Γ sc ss Γ' → Calm ctx.env sc m.loop n Γ (genStmts ctx ss) Γ'
  | .nil => by simp only [genStmts]; exact calm_pure
  | .cons h1 h2 => by
      simp only [genStmts]
      exact calm_bind (calm_stmt h hm (fun l i b e ht n => by subst e; exact hf l i b (by simp) ht n _) h1) fun _ =>
        calm_stmts h hm (fun l i b hb => hf l i b (by simp [hb])) h2
theorem calm_elses (h : Sites ctx L T) {ret : Option Ty} {m : Mode} {sc : Option ScopeId} {Γ : List SymId} {es : List TElse} {e : Option TBlock}
    (hm : m.strict = true) : TElses F L T ret m Γ sc es e → ∀ (a : Nat) {n : Nat}, a < n →
      Calm ctx.env sc m.loop n Γ (genElses ctx a es) Γ ∧ Calm ctx.env sc m.loop n Γ (genOptBlock ctx e) Γ
  | .nil, _, _, _ => by
      simp only [genElses, genOptBlock]
      exact ⟨calm_pure, calm_pure⟩
  | .senao (s := k) _ hw hb, _, _, _ => by
      have hbody := fun n => calm_stmts h (m := m.block) hm (fun _ _ _ _ h => by cases h) (n := n) hb
      simp only [genElses, genOptBlock, genBlock]
      exact ⟨calm_pure, calm_scoped h hw (hbody _)⟩
  | .cons (s := k) hc _ hw hb hr, a, n, ha => by
      have hbody := fun n => calm_stmts h (m := m.block) hm (fun _ _ _ _ h => by cases h) (n := n) hb
      have hrest := fun n ha => calm_elses h hm hr a (n := n) ha
      simp only [genElses, genBlock]
      refine ⟨calm_newLabel fun b hab => calm_bind (calm_branch (calm_expr h hc) (calm_scoped h hw (hbody _)) (by omega) (by omega)) fun _ =>
        (hrest _ (by omega)).1, (hrest _ ha).2⟩
end

/-! ## Functions -/

omit [FloatOps F] in
theorem paramLocals_ok : ∀ {ps : List SymId} {acc : List (String × Nat)}, (∀ p ∈ ps, ∃ x, ctx.env.syms[p]? = some x) →
    ∃ l, paramLocals ctx ps acc = .ok l ∧ (∀ k, (lookup acc k).isSome = true → (lookup l k).isSome = true) ∧
      ∀ p ∈ ps, ∀ x, ctx.env.syms[p]? = some x → (lookup l x.outId).isSome = true
  | [], acc, _ => ⟨acc, rfl, fun _ h => h, by simp⟩
  | p :: ps, acc, h => by
      obtain ⟨x, hx⟩ := h p (by simp)
      obtain ⟨l, h1, h2, h3⟩ := paramLocals_ok (ps := ps) (acc := store acc x.outId acc.length) fun q hq => h q (by simp [hq])
      refine ⟨l, by simp only [paramLocals, hx]; exact h1, fun k hk => h2 k (lookup_store (.inr hk)), fun q hq y hy => ?_⟩
      rcases List.mem_cons.mp hq with rfl | hq
      · rw [hx] at hy
        cases hy
        exact h2 _ (lookup_store (.inl rfl))
      · exact h3 q hq y hy

/-- What follows the code of a function (codegen.py:853-864). -/
def funcTail (ctx : GenCtx) (sym : Sym) (funcEnd funcStart num : Nat) : G Unit := do
  patchLabel funcEnd
  let s ← G.get
  let start ← G.need s.labels[funcStart]? "KeyError"
  let module : Int := match indexIn sym.modPath ctx.modules with
    | some i => i
    | none => -1
  G.modify fun s => { s with funcs := s.funcs ++ [⟨sym.name, start, num, module⟩] }

omit [FloatOps F] in
theorem calm_funcTail {x : Sym} {e st num : Nat} (h : st < n) : Calm ctx.env sc lp n Γ (funcTail ctx x e st num) Γ := by
  refine calm_bind (calm_patch _) fun _ => calm_get fun s hs ha => ?_
  have hlt : st < s.labels.length := Nat.lt_of_lt_of_le h ha.labels
  rw [need_some (List.getElem?_eq_getElem hlt)]
  exact calm_same fun _ => ⟨(), _, rfl, rfl, rfl, rfl, rfl, rfl, rfl, rfl, rfl⟩

omit [FloatOps F] in
/-- A function. -/
theorem calm_func (h : Sites ctx L T) {sym : SymId} {x : Sym} {k : ScopeId} {body : G Unit} {Δ Δ' : List SymId}
    (hx : ctx.env.syms[sym]? = some x) (hb : x.builtin = false) (hp : ∀ p ∈ x.params, ∃ y, ctx.env.syms[p]? = some y)
    (hΔ : ∀ i ∈ Δ, i ∈ x.params ∨ ∀ y, ctx.env.syms[i]? = some y → y.isGlobal = true) (hw : Within L k sc)
    (hbody : ∀ n, Calm ctx.env (some k) false n Δ body Δ') : Calm ctx.env sc lp n Γ (genFunc ctx sym k body) Γ := by
  unfold genFunc
  rw [symOf_some rfl hx]
  refine calm_bind (calm_nameIndex _) fun _ => calm_newLabel fun a _ => calm_bind (calm_emit (insOk_jump (.inr rfl) (by omega))) fun _ =>
    calm_newLabel fun b hab => ?_
  intro s hs ha
  obtain ⟨l, h1, h2, h3⟩ := paramLocals_ok (ctx := ctx) (acc := []) hp
  have hinner : Calm ctx.env sc false (b + 1) Δ (do genScoped ctx k body; loadConst (.str "falso"); emit .ret) Δ :=
    calm_bind (calm_scoped h hw (hbody _)) fun _ => calm_bind (calm_loadConst _) fun _ =>
      calm_emit (insOk_plain (by simp [vmOperands]) (by decide) (by decide))
  have h4 := hinner { s with funcLocals := l } ⟨hs.ops, hs.start, hs.exit, hs.src⟩
    ⟨ha.scope, (fun e => by cases e), (fun e => by cases e), ha.labels, fun i hi y hy hg => by
      rcases hΔ i hi with hi | hi
      · exact h3 i hi y hy
      · rw [hi y hy] at hg; cases hg⟩
  have e : (do
        let s ← G.get
        startLocals ctx x.params
        genFuncBody ctx x.builtin k body
        endFunc ctx x a b s.funcLocals : G Unit) s =
      match (do genScoped ctx k body; loadConst (.str "falso"); emit .ret : G Unit) { s with funcLocals := l } with
      | .ok (_, t) => funcTail ctx x a b t.funcLocals.length
          { t with funcLocals := s.funcLocals, finished := t.finished ++ [t.funcLocals] }
      | .error e => .error e := by
    have e1 : startLocals ctx x.params s = .ok ((), { s with funcLocals := l }) := by
      unfold startLocals
      rw [h1]
      rfl
    have e2 : genFuncBody ctx x.builtin k body = genScoped ctx k body := by
      unfold genFuncBody
      rw [hb]
      rfl
    show (startLocals ctx x.params >>= fun _ => genFuncBody ctx x.builtin k body >>= fun _ => endFunc ctx x a b s.funcLocals) s = _
    rw [e2]
    rw [bind_run_ok e1]
    cases hm : genScoped ctx k body { s with funcLocals := l } with
    | error e => rw [bind_run_error hm, bind_run_error hm]
    | ok r =>
        obtain ⟨u, t⟩ := r
        rw [bind_run_ok hm, bind_run_ok hm]
        unfold endFunc
        cases hc : loadConst (.str "falso") t with
        | error e => rw [bind_run_error hc, bind_run_error hc]
        | ok r =>
            obtain ⟨u, t'⟩ := r
            rw [bind_run_ok hc, bind_run_ok hc]
            rfl
  rw [e]
  generalize (do genScoped ctx k body; loadConst (.str "falso"); emit .ret : G Unit) { s with funcLocals := l } = r at h4 ⊢
  cases r with
  | error e => exact h4
  | ok r =>
      obtain ⟨u, t⟩ := r
      obtain ⟨hs1, hk1, hg1⟩ := h4
      have hst : Stays s { t with funcLocals := s.funcLocals, finished := t.finished ++ [t.funcLocals] } :=
        ⟨hk1.scope, hk1.start, hk1.exit, hk1.depth, fun _ h => h, hk1.labels⟩
      have h5 := calm_funcTail (ctx := ctx) (x := x) (e := a) (st := b) (num := t.funcLocals.length) (n := b + 1) (sc := sc) (lp := lp) (Γ := Γ)
        (by omega) { t with funcLocals := s.funcLocals, finished := t.finished ++ [t.funcLocals] }
        ⟨hs1.ops, hs1.start, hs1.exit, hs1.src⟩ (ha.stays hst (ha.slots.stays hst))
      simp only
      generalize funcTail ctx x a b t.funcLocals.length
        { t with funcLocals := s.funcLocals, finished := t.finished ++ [t.funcLocals] } = r at h5 ⊢
      cases r with
      | error e => exact h5
      | ok r => exact ⟨h5.1, hst.trans h5.2.1, h5.2.2⟩

/-! ## Modules -/

omit [FloatOps F] in
theorem calm_globals : ∀ {l : List (String × SymId)}, (∀ p ∈ l, ∃ x, ctx.env.syms[p.2]? = some x) →
    Calm ctx.env sc lp n Γ (genGlobals ctx l) Γ
  | [], _ => calm_pure
  | (name, id) :: rest, h => by
      obtain ⟨x, hx⟩ := h (name, id) (by simp)
      have hr := calm_globals (l := rest) fun p hp => h p (List.mem_cons_of_mem _ hp)
      unfold genGlobals
      rw [symOf_some rfl hx]
      split
      · exact calm_bind (calm_nameIndex _) fun _ => hr
      · exact hr

omit [FloatOps F] in
/-- What code generation of a module comes to. -/
theorem calm_module {m : ModuleIn} {tab : ScopeTab} (htab : ctx.env.scopes[m.scope]? = some tab)
    (hsyms : ∀ p ∈ tab.symbols, ∃ x, ctx.env.syms[p.2]? = some x) (hbody : Calm ctx.env (some m.scope) false 0 [] (genStmts ctx m.body) Γ') :
    match genModule ctx m {} with
    | .error e => Limit e
    | .ok (_, s') => Sane s' := by
  have hstart : Sane {} := ⟨by simp, by simp, by simp, by simp⟩
  have hat : At ctx.env none false 0 [] {} := ⟨rfl, (fun e => by cases e), (fun e => by cases e), Nat.le_refl _, fun i hi => by cases hi⟩
  have h1 : Calm ctx.env none false 0 [] (do
      let _ ← constIndex (.str "verdadeiro")
      let _ ← constIndex (.str "falso")
      genGlobals ctx tab.symbols) [] :=
    calm_bind (calm_constIndex _) fun _ => calm_bind (calm_constIndex _) fun _ => calm_globals hsyms
  have h2 := h1 {} hstart hat
  have e : genModule ctx m = (do
      let _ ← constIndex (.str "verdadeiro")
      let _ ← constIndex (.str "falso")
      genGlobals ctx tab.symbols) >>= fun _ => (do
        enterBlock m.scope
        genStmts ctx m.body
        exitBlock ctx
        let s ← G.get
        if s.depth = -1 then do
          setLine 0
          emit .halt
        else G.raise (.exc "AssertionError")) := by
    unfold genModule
    simp only [bind_assoc', need_some htab]
  rw [e]
  generalize hm : (do
      let _ ← constIndex (.str "verdadeiro")
      let _ ← constIndex (.str "falso")
      genGlobals ctx tab.symbols : G Unit) {} = r at h2
  cases r with
  | error e => rw [bind_run_error hm]; exact h2
  | ok r =>
      obtain ⟨u, s1⟩ := r
      rw [bind_run_ok hm]
      obtain ⟨hs1, hk1, -⟩ := h2
      have hd1 : s1.depth = -1 := hk1.depth
      have h3 := hbody { s1 with depth := s1.depth + 1, scope := some m.scope } ⟨hs1.ops, hs1.start, hs1.exit, hs1.src⟩
        ⟨rfl, (fun e => by cases e), (fun e => by cases e), Nat.zero_le _, fun i hi => by cases hi⟩
      rw [bind_run_ok (show enterBlock m.scope s1 = .ok ((), { s1 with depth := s1.depth + 1, scope := some m.scope }) from rfl)]
      generalize hm2 : genStmts ctx m.body { s1 with depth := s1.depth + 1, scope := some m.scope } = r at h3
      cases r with
      | error e => rw [bind_run_error hm2]; exact h3
      | ok r =>
          obtain ⟨u, s2⟩ := r
          rw [bind_run_ok hm2]
          obtain ⟨hs2, hk2, -⟩ := h3
          have hd2 : s2.depth - 1 = -1 := by
            rw [show s2.depth = s1.depth + 1 from hk2.depth, hd1]
            rfl
          rw [bind_run_ok (show exitBlock ctx s2 = .ok ((), { s2 with depth := s2.depth - 1, scope := (s2.scope.bind (ctx.env.scopes[·]?)).bind (·.parent) }) from rfl)]
          rw [bind_run_ok (show G.get _ = .ok (_, _) from rfl)]
          simp only [hd2, if_true]
          have h4 : Calm ctx.env ((s2.scope.bind (ctx.env.scopes[·]?)).bind (·.parent)) false 0 [] (do setLine 0; emit .halt) [] :=
            calm_bind (calm_setLine 0) fun _ => calm_emit (insOk_plain (by simp [vmOperands]) (by decide) (by decide))
          have h5 := h4 { s2 with depth := -1, scope := (s2.scope.bind (ctx.env.scopes[·]?)).bind (·.parent) }
            ⟨hs2.ops, hs2.start, hs2.exit, hs2.src⟩ ⟨rfl, (fun e => by cases e), (fun e => by cases e), Nat.zero_le _, fun i hi => by cases hi⟩
          generalize (do setLine 0; emit .halt : G Unit) { s2 with depth := -1, scope := (s2.scope.bind (ctx.env.scopes[·]?)).bind (·.parent) } = r at h5 ⊢
          cases r with
          | error e => exact h5
          | ok r => exact h5.1

/-! ## Writing -/

/-- What is raised when something is too big for its place in the file (codegen.py:310-314, 340, 357, 467-469,
bindump.py:6-11, 25-30). -/
def TooBig (e : PyErr) : Prop :=
  e = .exc "AssertionError" ∨ e = .exc "Exception" ∨ e = .exc "ValueError" ∨ e = .exc "struct.error" ∨ e = .exc "OverflowError"

theorem Limit.tooBig {e : PyErr} (h : Limit e) : TooBig e := by
  rcases h with h | h
  · exact .inl h
  · exact .inr (.inl h)

theorem argAt_ok {args : List Nat} {i : Nat} (h : i < args.length) : argAt args i = .ok args[i] := by
  unfold argAt
  rw [List.getElem?_eq_getElem h]

theorem writeOp_error {labels : List Nat} {ins : Ins} {e : EncErr} (hi : InsOk labels.length ins.op ins.args)
    (h : writeOpBytes labels ins = .error e) : e = .valueError ∨ e = .structError := by
  obtain ⟨op, args⟩ := ins
  obtain ⟨harity, hjump⟩ := hi
  simp only at harity hjump
  unfold writeOpBytes at h
  have hres : ∃ args', resolveLabels labels ⟨op, args⟩ = .ok args' ∧ (vmOperands op).length ≤ args'.length := by
    unfold resolveLabels
    simp only
    split
    · rename_i hj
      obtain ⟨l, hl, hlt⟩ := hjump hj
      have : argAt args 0 = .ok l := by unfold argAt; rw [hl]
      rw [this, except_bind_ok, List.getElem?_eq_getElem hlt]
      exact ⟨_, rfl, by rcases hj with rfl | rfl <;> simp [vmOperands]⟩
    · exact ⟨args, rfl, harity⟩
  obtain ⟨args', h1, h2⟩ := hres
  rw [h1, except_bind_ok] at h
  simp only at h
  have u64 : ∀ {a : Nat} {e : EncErr}, formatU64 a = .error e → e = .structError := by
    intro a e h
    unfold formatU64 at h
    split at h
    · cases h
    · cases h; rfl
  have a0 : 1 ≤ (vmOperands op).length → argAt args' 0 = .ok (args'[0]?.getD 0) := by
    intro h3
    have : 0 < args'.length := by omega
    rw [argAt_ok this, List.getElem?_eq_getElem this]
    rfl
  have a1 : 2 ≤ (vmOperands op).length → argAt args' 1 = .ok (args'[1]?.getD 0) := by
    intro h3
    have : 1 < args'.length := by omega
    rw [argAt_ok this, List.getElem?_eq_getElem this]
    rfl
  split at h
  · cases h
  · rename_i hs1
    split at h
    · rename_i hs2
      rw [a0 (by cases op <;> simp_all [Op.size, vmOperands]), except_bind_ok] at h
      split at h
      · cases h
      · cases h; exact .inl rfl
    · rename_i hs2
      split at h
      · rw [a0 (by cases op <;> simp_all [Op.size, vmOperands]), except_bind_ok] at h
        cases h
      · rename_i hs3
        split at h
        · rw [a0 (by cases op <;> simp_all [Op.size, vmOperands]), except_bind_ok] at h
          cases hf : formatU64 (args'[0]?.getD 0) with
          | error e' => rw [hf] at h; cases h; exact .inr (u64 hf)
          | ok b => rw [hf] at h; cases h
        · rename_i hs4
          rw [a0 (by cases op <;> simp_all [Op.size, vmOperands]), except_bind_ok] at h
          cases hf : formatU64 (args'[0]?.getD 0) with
          | error e' => rw [hf] at h; cases h; exact .inr (u64 hf)
          | ok b =>
              rw [hf, except_bind_ok, a1 (by cases op <;> simp_all [Op.size, vmOperands]), except_bind_ok] at h
              cases hf' : formatU64 (args'[1]?.getD 0) with
              | error e' => rw [hf'] at h; cases h; exact .inr (u64 hf')
              | ok b => rw [hf'] at h; cases h

theorem writeAll_error {labels : List Nat} {e : EncErr} : ∀ {is : List Ins}, (∀ i ∈ is, InsOk labels.length i.op i.args) →
    Amanda.writeAll labels is = .error e → e = .valueError ∨ e = .structError
  | [], _, h => by cases h
  | i :: is, hi, h => by
      unfold Amanda.writeAll at h
      cases h1 : writeOpBytes labels i with
      | error e' => rw [h1] at h; cases h; exact writeOp_error (hi i (by simp)) h1
      | ok b =>
          rw [h1, except_bind_ok] at h
          cases h2 : Amanda.writeAll labels is with
          | error e' => rw [h2] at h; cases h; exact writeAll_error (fun j hj => hi j (by simp [hj])) h2
          | ok r => rw [h2] at h; cases h

theorem flattenSrc_ok : ∀ {m : List (Int × List Nat)}, (∀ p ∈ m, Offs p.2) → ∃ r, flattenSrc m = .ok r
  | [], _ => ⟨[], rfl⟩
  | (line, offs) :: rest, h => by
      obtain ⟨r, hr⟩ := flattenSrc_ok fun p hp => h p (List.mem_cons_of_mem _ hp)
      unfold flattenSrc
      split
      · exact ⟨r, hr⟩
      · rcases h (line, offs) (by simp) with ⟨a, e⟩ | ⟨a, b, e⟩ <;>
        · simp only at e
          subst e
          simp only [srcEntry, except_bind_ok, hr]
          exact ⟨_, rfl⟩

theorem finish_error {m : ModuleIn} {s : Gen} {e : PyErr} (hs : Sane s) (h : finish m s = .error e) : TooBig e := by
  unfold finish at h
  cases hw : Amanda.writeAll s.labels s.ops with
  | error e' =>
      rw [hw] at h
      cases h
      rcases writeAll_error hs.ops hw with rfl | rfl
      · exact .inr (.inr (.inl rfl))
      · exact .inr (.inr (.inr (.inl rfl)))
  | ok code =>
      obtain ⟨r, hr⟩ := flattenSrc_ok hs.src
      rw [hw, hr] at h
      cases h

end

end Codegen

namespace Bson

mutual
/-- Values of the types the format has. -/
def Known : Bson → Bool
  | .doc fields => knownFields fields
  | .arr items => knownItems items
  | .other => false
  | _ => true
def knownFields : List (String × Bson) → Bool
  | [] => true
  | (_, v) :: rest => Known v && knownFields rest
def knownItems : List Bson → Bool
  | [] => true
  | v :: rest => Known v && knownItems rest
end

theorem int32Len_error {n : Nat} {e : DumpErr} (h : int32Len n = .error e) : e ≠ .notImplemented := by
  unfold int32Len at h
  split at h <;> cases h
  simp

theorem packInt32_error {n : Nat} {e : DumpErr} (h : packInt32 n = .error e) : e ≠ .notImplemented := by
  unfold packInt32 at h
  split at h <;> cases h
  simp

theorem packInt64_error {n : Int} {e : DumpErr} (h : packInt64 n = .error e) : e ≠ .notImplemented := by
  unfold packInt64 at h
  split at h <;> cases h
  simp

theorem wrapDoc_error {b : Bytes} {e : DumpErr} (h : wrapDoc b = .error e) : e ≠ .notImplemented := by
  unfold wrapDoc at h
  cases hl : int32Len b.length with
  | error e' => rw [hl] at h; cases h; exact int32Len_error hl
  | ok l => rw [hl] at h; cases h

mutual
theorem dumpValue_error {e : DumpErr} : ∀ {v : Bson}, Known v = true → dumpValue v = .error e → e ≠ .notImplemented
  | .dbl _, _, h => by simp [dumpValue] at h
  | .str s, _, h => by
      simp only [dumpValue] at h
      cases hl : int32Len (encodeStr s).length with
      | error e' => rw [hl] at h; cases h; exact int32Len_error hl
      | ok l => rw [hl] at h; cases h
  | .doc fields, hk, h => by
      simp only [dumpValue] at h
      simp only [Known] at hk
      cases hl : dumpFields fields with
      | error e' => rw [hl] at h; cases h; exact dumpFields_error hk hl
      | ok b =>
          rw [hl, except_bind_ok] at h
          cases hw : wrapDoc b with
          | error e' => rw [hw] at h; cases h; exact wrapDoc_error hw
          | ok d => rw [hw] at h; cases h
  | .arr items, hk, h => by
      simp only [dumpValue] at h
      simp only [Known] at hk
      cases hl : dumpItems 0 items with
      | error e' => rw [hl] at h; cases h; exact dumpItems_error hk hl
      | ok b =>
          rw [hl, except_bind_ok] at h
          cases hw : wrapDoc b with
          | error e' => rw [hw] at h; cases h; exact wrapDoc_error hw
          | ok d => rw [hw] at h; cases h
  | .bin b, _, h => by
      simp only [dumpValue] at h
      cases hl : packInt32 b.length with
      | error e' => rw [hl] at h; cases h; exact packInt32_error hl
      | ok l => rw [hl] at h; cases h
  | .int n, _, h => by
      simp only [dumpValue] at h
      cases hl : packInt64 n with
      | error e' => rw [hl] at h; cases h; exact packInt64_error hl
      | ok l => rw [hl] at h; cases h
  | .other, hk, _ => by simp [Known] at hk
theorem dumpFields_error {e : DumpErr} : ∀ {l : List (String × Bson)}, knownFields l = true → dumpFields l = .error e → e ≠ .notImplemented
  | [], _, h => by simp [dumpFields] at h
  | (k, v) :: rest, hk, h => by
      simp only [knownFields, Bool.and_eq_true] at hk
      simp only [dumpFields] at h
      cases hv : dumpValue v with
      | error e' => rw [hv] at h; cases h; exact dumpValue_error hk.1 hv
      | ok p =>
          rw [hv, except_bind_ok] at h
          cases hr : dumpFields rest with
          | error e' => rw [hr] at h; cases h; exact dumpFields_error hk.2 hr
          | ok r => rw [hr] at h; cases h
theorem dumpItems_error {e : DumpErr} : ∀ {l : List Bson} {i : Nat}, knownItems l = true → dumpItems i l = .error e → e ≠ .notImplemented
  | [], _, _, h => by simp [dumpItems] at h
  | v :: rest, i, hk, h => by
      simp only [knownItems, Bool.and_eq_true] at hk
      simp only [dumpItems] at h
      cases hv : dumpValue v with
      | error e' => rw [hv] at h; cases h; exact dumpValue_error hk.1 hv
      | ok p =>
          rw [hv, except_bind_ok] at h
          cases hr : dumpItems (i + 1) rest with
          | error e' => rw [hr] at h; cases h; exact dumpItems_error hk.2 hr
          | ok r => rw [hr] at h; cases h
end

theorem dumps_error {e : DumpErr} {l : List (String × Bson)} (hk : knownFields l = true) (h : dumps l = .error e) :
    e = .overflow ∨ e = .structError := by
  have : e ≠ .notImplemented := by
    unfold dumps at h
    cases hl : dumpFields l with
    | error e' => rw [hl] at h; cases h; exact dumpFields_error hk hl
    | ok b => rw [hl, except_bind_ok] at h; exact wrapDoc_error h
  cases e with
  | overflow => exact .inl rfl
  | structError => exact .inr rfl
  | notImplemented => exact absurd rfl this

theorem knownItems_iff : ∀ {l : List Bson}, knownItems l = true ↔ ∀ v ∈ l, Known v = true
  | [] => by simp [knownItems]
  | v :: l => by simp [knownItems, knownItems_iff (l := l)]

end Bson

namespace Codegen

open Bson

theorem doc_known (m : ModuleOut) (imports : List Bson) (h : ∀ v ∈ imports, Known v = true) : knownFields (m.doc imports) = true := by
  have h1 : ∀ l : List ConstKey, knownItems (l.map ConstKey.bson) = true := fun l => by
    rw [knownItems_iff]
    intro v hv
    obtain ⟨c, -, rfl⟩ := List.mem_map.mp hv
    cases c <;> rfl
  have h2 : ∀ l : List String, knownItems (l.map Bson.str) = true := fun l => by
    rw [knownItems_iff]
    intro v hv
    obtain ⟨c, -, rfl⟩ := List.mem_map.mp hv
    rfl
  have h3 : ∀ l : List FuncOut, knownItems (l.map FuncOut.bson) = true := fun l => by
    rw [knownItems_iff]
    intro v hv
    obtain ⟨c, -, rfl⟩ := List.mem_map.mp hv
    rfl
  have h4 : ∀ l : List RegistoOut, knownItems (l.map RegistoOut.bson) = true := fun l => by
    rw [knownItems_iff]
    intro v hv
    obtain ⟨c, -, rfl⟩ := List.mem_map.mp hv
    simp [RegistoOut.bson, Known, knownFields, h2]
  have h5 : ∀ l : List Int, knownItems (l.map Bson.int) = true := fun l => by
    rw [knownItems_iff]
    intro v hv
    obtain ⟨c, -, rfl⟩ := List.mem_map.mp hv
    rfl
  simp [ModuleOut.doc, knownFields, Known, h1, h2, h3, h4, h5, knownItems_iff.mpr h]

/-- A program with one module, beside modules of the library. -/
theorem compile_error {env : SymEnv} {builtinPath : String} {main : ModuleIn} {imports : List ModuleIn} {e : PyErr}
    (hi : ∀ m ∈ imports, m.builtin = true) (hb : main.builtin = false)
    (hm : match genModule { env := env, modPath := main.path, builtinPath := builtinPath, modules := imports.map ModuleIn.path } main {} with
      | .error e => Limit e
      | .ok (_, s') => Sane s')
    (h : compileProgram env builtinPath main imports = .error e) : TooBig e := by
  have himp : ∀ {ctx : GenCtx} {ms : List ModuleIn}, (∀ m ∈ ms, m.builtin = true) →
      ∃ l, compileImports ctx ms = .ok l ∧ ∀ v ∈ l, Known v = true := by
    intro ctx ms
    induction ms with
    | nil => exact fun _ => ⟨[], rfl, by simp⟩
    | cons m ms ih =>
        intro h
        obtain ⟨l, h1, h2⟩ := ih fun x hx => h x (by simp [hx])
        unfold compileImports compileModule
        rw [if_pos (h m (by simp)), except_bind_ok, h1, except_bind_ok]
        refine ⟨_, rfl, fun v hv => ?_⟩
        rcases List.mem_cons.mp hv with rfl | hv
        · simp only [Known]
          exact doc_known _ _ (by simp)
        · exact h2 v hv
  unfold compileProgram at h
  obtain ⟨l, h1, h2⟩ := himp (ctx := { env := env, modPath := main.path, builtinPath := builtinPath, modules := imports.map ModuleIn.path }) hi
  simp only [h1, except_bind_ok, compileModule, hb] at h
  generalize genModule { env := env, modPath := main.path, builtinPath := builtinPath, modules := imports.map ModuleIn.path } main {} = r at h hm
  cases r with
  | error e' => cases h; exact hm.tooBig
  | ok r =>
      obtain ⟨u, s⟩ := r
      simp only [Bool.false_eq_true, if_false] at h
      cases hf : finish main s with
      | error e' => rw [hf] at h; cases h; exact finish_error hm hf
      | ok out =>
          rw [hf, except_bind_ok] at h
          cases hd : Bson.dumps (ModuleOut.doc out l) with
          | ok b => rw [hd] at h; cases h
          | error e' =>
              rw [hd] at h
              rcases dumps_error (doc_known out l h2) hd with rfl | rfl
              · cases h; exact .inr (.inr (.inr (.inr rfl)))
              · cases h; exact .inr (.inr (.inr (.inl rfl)))

end Codegen

end Amanda

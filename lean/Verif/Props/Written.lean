import Verif.VmState
import Verif.ExceptLemmas
import Verif.FloatModel

/-!
# C68: what was written stays written

For every image, also one that no compiler makes, and every state: an instruction only adds to the output, takes
lines only from the front of the input, and changes a cell of the storage only in the way its kind allows.
-/

namespace Amanda

variable {F : Type}

/-- What a cell may become: vectors can be changed at will, records get other values of their fields, the values
in a variant never change. -/
def Cell.Becomes : Cell F → Cell F → Prop
  | .vec _, .vec _ => True
  | .obj r st, .obj r' st' => r = r' ∧ ∀ k, k ∈ st.map Prod.fst → k ∈ st'.map Prod.fst
  | .payload l, .payload l' => l = l'
  | _, _ => False

/-- The world `w'` can come after the world `w`. -/
structure After (w w' : World F) : Prop where
  out : ∃ s, w'.out = w.out ++ s
  inp : ∃ n, w'.inp = w.inp.drop n
  heap : ∀ (a : Nat) c, w.heap[a]? = some c → ∃ c', w'.heap[a]? = some c' ∧ c.Becomes c'

theorem Cell.Becomes.refl (c : Cell F) : c.Becomes c := by
  cases c <;> simp [Cell.Becomes]

theorem Cell.Becomes.trans {a b c : Cell F} (h : a.Becomes b) (h' : b.Becomes c) : a.Becomes c := by
  cases a <;> cases b <;> simp only [Cell.Becomes] at h <;> cases c <;> simp only [Cell.Becomes] at h' ⊢
  · exact ⟨h.1.trans h'.1, fun k hk => h'.2 k (h.2 k hk)⟩
  · exact h.trans h'

theorem After.refl (w : World F) : After w w :=
  ⟨⟨"", by simp⟩, ⟨0, rfl⟩, fun _ c h => ⟨c, h, .refl c⟩⟩

theorem After.trans {a b c : World F} (h : After a b) (h' : After b c) : After a c := by
  obtain ⟨s, hs⟩ := h.out
  obtain ⟨s', hs'⟩ := h'.out
  obtain ⟨n, hn⟩ := h.inp
  obtain ⟨n', hn'⟩ := h'.inp
  refine ⟨⟨s ++ s', by rw [hs', hs, String.append_assoc]⟩, ⟨n + n', by rw [hn', hn, List.drop_drop]⟩, fun i x hx => ?_⟩
  obtain ⟨y, hy, h1⟩ := h.heap i x hx
  obtain ⟨z, hz, h2⟩ := h'.heap i y hy
  exact ⟨z, hz, h1.trans h2⟩

/-- Output added. -/
theorem After.write {w v : World F} (h : After w v) (s : String) : After w { v with out := v.out ++ s } :=
  h.trans ⟨⟨s, rfl⟩, ⟨0, rfl⟩, fun _ c h => ⟨c, h, .refl c⟩⟩

/-- A line taken. -/
theorem After.read {w v : World F} (h : After w v) : After w (readLine v).2 := by
  unfold readLine
  cases hi : v.inp with
  | nil => exact h
  | cons l ls => exact h.trans ⟨⟨"", by simp⟩, ⟨1, by simp [hi]⟩, fun _ c h => ⟨c, h, .refl c⟩⟩

/-- New cells. -/
theorem After.fresh {w v : World F} (h : After w v) (l : Heap F) : After w { v with heap := v.heap ++ l } :=
  h.trans ⟨⟨"", by simp⟩, ⟨0, rfl⟩, fun a c hc => ⟨c, by
    have : a < v.heap.length := (List.getElem?_eq_some_iff.1 hc).1
    simp only [List.getElem?_append_left this]
    exact hc, .refl c⟩⟩

/-- A cell changed. -/
theorem After.store {w v : World F} (h : After w v) {a : Nat} {c c' : Cell F} (hc : v.heap[a]? = some c) (hb : c.Becomes c') :
    After w { v with heap := v.heap.set a c' } :=
  h.trans ⟨⟨"", by simp⟩, ⟨0, rfl⟩, fun b x hx => by
    have hl : a < v.heap.length := (List.getElem?_eq_some_iff.1 hc).1
    by_cases e : b = a
    · subst e
      rw [hc] at hx
      cases hx
      exact ⟨c', by simp [hl], hb⟩
    · exact ⟨x, by simp only [List.getElem?_set_ne (fun h => e h.symm)]; exact hx, .refl x⟩⟩

/-! ## Library functions -/

/-- A native call ends in a world after `w`. -/
def NAfter {α : Type} (w : World F) (g : α → World F) : NM F α → Prop
  | .ok a => After w (g a)
  | .error (_, v) => After w v

section
variable [FloatOps F] {α β : Type} {w v : World F}

omit [FloatOps F] in
theorem NAfter.bind {g : α → World F} {g' : β → World F} {r : NM F α} {k : α → NM F β} (h : NAfter w g r)
    (hk : ∀ a, After w (g a) → NAfter w g' (k a)) : NAfter w g' (r >>= k) := by
  cases r with
  | ok a => exact hk a h
  | error e => exact h

omit [FloatOps F] in
theorem NAfter.val {g' : β → World F} {r : Res α} {k : α → NM F β} (h : After w v)
    (hk : ∀ a, NAfter w g' (k a)) : NAfter w g' (r.at v >>= k) := by
  cases r with
  | ok a => exact hk a
  | error e => exact h

theorem escreva_after (args : List (Val F)) (h : After w v) : NAfter w Prod.snd (nEscreva args v) := by
  unfold nEscreva
  exact .val h fun _ => .val h fun s => h.write s

theorem leia_after (cfg : Cfg) (args : List (Val F)) (h : After w v) : NAfter w Prod.snd (nLeia cfg args v) := by
  unfold nLeia
  refine .bind (escreva_after args h) fun p hp => ?_
  have := hp.read
  simp only
  split
  · split
    · exact this
    · exact this
  · exact this

omit [FloatOps F] in
theorem copies_after (inner : List (Val F)) : ∀ (n : Nat) (hp : Heap F), ∃ l, (allocCopies hp inner n).2 = hp ++ l
  | 0, hp => ⟨[], by simp [allocCopies]⟩
  | n + 1, hp => by
      obtain ⟨l, hl⟩ := copies_after inner n (hp ++ [.vec inner])
      exact ⟨.vec inner :: l, by simp [allocCopies, hl]⟩

theorem buildVec_after (t : VTy) : ∀ (ds : List Nat) (hp : Heap F) {x : List (Val F) × Heap F},
    buildVec t ds hp = .ok x → ∃ l, x.2 = hp ++ l
  | [], _, _, h => by simp [buildVec] at h
  | [_], hp, x, h => by
      unfold buildVec at h
      cases hi : (initValue t : Res (Val F)) with
      | error e => rw [hi] at h; cases h
      | ok v => rw [hi] at h; cases h; exact ⟨[], by simp⟩
  | size :: d :: ds, hp, x, h => by
      unfold buildVec at h
      split at h
      · cases h; exact ⟨[], by simp⟩
      · cases hb : buildVec t (d :: ds) hp with
        | error e => rw [hb] at h; cases h
        | ok y =>
            rw [hb] at h
            cases h
            obtain ⟨l, hl⟩ := buildVec_after t (d :: ds) hp hb
            obtain ⟨l', hl'⟩ := copies_after y.1 size y.2
            exact ⟨l ++ l', by rw [hl', hl, List.append_assoc]⟩

theorem native_after (cfg : Cfg) (module name : String) (args : List (Val F)) (h : After w v) :
    NAfter w Prod.snd (callNative cfg module name args v) := by
  unfold callNative
  split
  · split
    · unfold nEscrevaln
      refine .val h fun _ => .val h fun s => ?_
      have := (h.write s).write "\n"
      exact this
    · exact escreva_after args h
    · exact leia_after cfg args h
    · unfold nLeiaInt
      refine .bind (leia_after cfg args h) fun p hp => .val hp fun s => ?_
      split <;> exact hp
    · unfold nLeiaReal
      refine .bind (leia_after cfg args h) fun p hp => .val hp fun s => ?_
      split <;> exact hp
    · unfold nTam
      refine .val h fun x => ?_
      split
      · exact h
      · split <;> exact h
      · exact h
    · unfold nVec
      refine .val h fun x => .val h fun t => .val h fun ds => ?_
      cases hb : buildVec t ds v.heap with
      | error e => exact h
      | ok y =>
          obtain ⟨l, hl⟩ := buildVec_after t ds v.heap hb
          have := h.fresh (l ++ [.vec y.1])
          rw [← List.append_assoc, ← hl] at this
          exact this
    · unfold nAnexa
      refine .val h fun x => ?_
      split
      · refine .val h fun y => ?_
        split
        · rename_i hc
          exact h.store hc trivial
        · exact h
      · exact h
    · unfold nRemova
      refine .val h fun x => .val h fun i => .val h fun n => .val h fun _ => ?_
      split
      · split
        · rename_i hc
          split
          · exact h.store hc trivial
          · exact h
        · exact h
      · exact h
    · unfold nTxtContem
      refine .val h fun x => .val h fun y => ?_
      split <;> exact h
    · exact h
  · unfold nMat
    refine .val h fun x => .val h fun f => ?_
    simp only
    have h2 : ∀ k : F → NM F (Val F × World F), (∀ a, NAfter w Prod.snd (k a)) →
        NAfter w Prod.snd ((do let v' ← (nArg args 1).at v; v'.takeFloat.at v) >>= k) := by
      intro k hk
      rw [bind_assoc]
      exact .val h fun _ => .val h hk
    split <;> first | exact h | exact h2 _ fun _ => h

/-! ## Instructions -/

omit [FloatOps F] in
/-- The state in which an instruction ends the run. -/
def Stop.vm : Stop F → VM F
  | .halt vm => vm
  | .err _ vm => vm
  | .panic vm => vm

/-- The state at the end of a run, or where it was left. -/
def Outcome.vm : Outcome F → VM F
  | .done vm => vm
  | .err _ vm => vm
  | .panic vm => vm
  | .outOfFuel vm => vm

/-- An instruction ends in a world after `w`. -/
def Onto (w : World F) (g : α → World F) : Except (Stop F) α → Prop
  | .ok a => After w (g a)
  | .error s => After w s.vm.world

variable {vm : VM F} {prog : Program F}

omit [FloatOps F] in
theorem Onto.bind {g : α → World F} {g' : β → World F} {r : Except (Stop F) α} {k : α → Except (Stop F) β} (h : Onto w g r)
    (hk : ∀ a, After w (g a) → Onto w g' (k a)) : Onto w g' (r >>= k) := by
  cases r with
  | ok a => exact hk a h
  | error e => exact h

omit [FloatOps F] in
theorem Onto.opt {g' : β → World F} {o : Option α} {k : α → Except (Stop F) β} (h : After w vm.world)
    (hk : ∀ a, o = some a → Onto w g' (k a)) : Onto w g' (orPanic o vm >>= k) := by
  cases o with
  | some a => exact hk a rfl
  | none => exact h

omit [FloatOps F] in
theorem throwErr_vm (prog : Program F) (vm : VM F) (e : String) : (throwErr prog vm e).vm = vm := by
  unfold throwErr
  split
  · rfl
  · split <;> rfl

omit [FloatOps F] in
theorem Onto.lift {g' : β → World F} {r : Res α} {k : α → Except (Stop F) β} (h : After w vm.world)
    (hk : ∀ a, r = .ok a → Onto w g' (k a)) : Onto w g' (r.lift prog vm >>= k) := by
  cases r with
  | ok a => exact hk a rfl
  | error e =>
      cases e with
      | err m => show After w (throwErr prog vm m).vm.world; rw [throwErr_vm]; exact h
      | panic => exact h

omit [FloatOps F] in
theorem Onto.thrown {g : α → World F} {e : String} (h : After w vm.world) : Onto w g (.error (throwErr prog vm e)) := by
  show After w (throwErr prog vm e).vm.world
  rw [throwErr_vm]; exact h

omit [FloatOps F] in
theorem Onto.pop (h : After w vm.world) : Onto w (fun p => p.2.world) vm.pop := by
  unfold VM.pop
  simp only
  split
  · exact .opt h fun _ _ => h
  · split
    · split
      · exact h
      · exact .opt h fun _ _ => h
    · exact h

omit [FloatOps F] in
theorem Onto.push {x : Val F} (h : After w vm.world) : Onto w VM.world (vm.push x) := by
  unfold VM.push
  simp only
  split
  · exact h
  · split
    · split <;> exact h
    · exact h

omit [FloatOps F] in
theorem Onto.advance (h : After w vm.world) : Onto w VM.world vm.advance := by
  unfold VM.advance
  split <;> exact h

omit [FloatOps F] in
theorem Onto.dropAbove (h : After w vm.world) : Onto w VM.world vm.dropAbove := by
  unfold VM.dropAbove
  split <;> exact h

omit [FloatOps F] in
theorem Onto.pushed {x : Val F} (h : After w vm.world) : Onto w VM.world (do let vm ← vm.push x; vm.advance) :=
  .bind (.push h) fun _ h => .advance h

theorem execBin_after (op : Op) (h : After w vm.world) : Onto w VM.world (execBin prog vm op) := by
  unfold execBin
  exact .bind (.pop h) fun _ h => .bind (.pop h) fun _ h => .lift h fun _ _ => .pushed h

theorem execUnary_after (cfg : Cfg) (op : Op) (h : After w vm.world) : Onto w VM.world (execUnary cfg vm op) := by
  unfold execUnary
  exact .bind (.pop h) fun _ h => .opt h fun _ _ => .pushed h

theorem execIndexGet_after (cfg : Cfg) (h : After w vm.world) : Onto w VM.world (execIndexGet cfg prog vm) := by
  unfold execIndexGet
  exact .bind (.pop h) fun _ h => .lift h fun _ _ => .bind (.pop h) fun _ h => .lift h fun _ _ => .pushed h

omit [FloatOps F] in
theorem indexSet_after {target x : Val F} {idx : Int} {hp : Heap F} (h : After w v) (hs : indexSet v.heap target idx x = .ok hp) :
    After w { v with heap := hp } := by
  unfold indexSet at hs
  split at hs
  · rename_i c
    cases hc : vecIndexCheck v.heap (.vector c) idx with
    | error e => rw [hc] at hs; cases hs
    | ok _ =>
        rw [hc] at hs
        simp only [except_bind_ok] at hs
        split at hs
        · rename_i hv
          cases hs
          exact h.store hv trivial
        · cases hs
  · cases hs

theorem execIndexSet_after (h : After w vm.world) : Onto w VM.world (execIndexSet prog vm) := by
  unfold execIndexSet
  exact .bind (.pop h) fun _ h => .bind (.pop h) fun _ h => .lift h fun _ _ => .bind (.pop h) fun _ h => .lift h fun _ hs =>
    .advance (indexSet_after h hs)

theorem execCall_after (cfg : Cfg) (n : Nat) (h : After w vm.world) : Onto w VM.world (execCall cfg prog vm n) := by
  unfold execCall
  refine .bind (.pop h) fun p h => ?_
  simp only
  split
  · unfold callAma
    refine .bind (g := fun p => p.2.world) ?_ fun q h => .bind (.advance h) fun vm' h => ?_
    · unfold prepareCall
      split
      · split <;> exact h
      · split <;> exact h
    · have h' : After w (switchModule q.1 vm').world := by
        unfold switchModule
        split <;> exact h
      simp only
      split
      · exact .thrown h'
      · exact h'
  · rename_i md nm _
    unfold callNativeFn
    refine .bind (g := fun p => p.2.world) ?_ fun q h => ?_
    · unfold nativeArgs
      split
      · exact .opt h fun _ _ => h
      · exact h
    · have hn := native_after cfg md nm q.1 (v := q.2.world) h
      simp only
      split
      · rename_i hc; rw [hc] at hn; exact .thrown hn
      · rename_i hc; rw [hc] at hn; exact hn
      · rename_i hc
        rw [hc] at hn
        exact .bind (.push hn) fun _ h => .bind (.dropAbove h) fun _ h => .advance h
  · exact h

omit [FloatOps F] in
theorem execReturn_after (h : After w vm.world) : Onto w VM.world (execReturn vm) := by
  unfold execReturn
  refine .bind (.pop h) fun p h => ?_
  simp only
  split
  · exact h
  · refine .bind (.push h) fun vm' h => ?_
    split <;> exact h

theorem execBuildStr_after (n : Nat) (h : After w vm.world) : Onto w VM.world (execBuildStr prog vm n) := by
  unfold execBuildStr
  exact .opt h fun _ _ => .lift h fun _ _ => .bind (.dropAbove h) fun _ h => .pushed h

omit [FloatOps F] in
theorem alloc_after (h : After w v) (c : Cell F) : After w { v with heap := (alloc v.heap c).1 } := h.fresh [c]

omit [FloatOps F] in
theorem execBuildVec_after (n : Nat) (h : After w vm.world) : Onto w VM.world (execBuildVec vm n) := by
  unfold execBuildVec
  split
  · exact .pushed (alloc_after h _)
  · exact .opt h fun _ _ => .bind (.push (alloc_after h _)) fun _ h => .bind (.dropAbove h) fun _ h => .advance h

omit [FloatOps F] in
theorem execBuildObj_after (n : Nat) (h : After w vm.world) : Onto w VM.world (execBuildObj vm n) := by
  unfold execBuildObj
  refine .bind (.pop h) fun p h => ?_
  simp only
  split
  · split
    · exact .pushed (alloc_after h _)
    · exact .opt h fun _ _ => .opt h fun _ _ => .pushed (alloc_after h _)
  · exact h

theorem execBuildVariant_after (cfg : Cfg) (n : Nat) (h : After w vm.world) : Onto w VM.world (execBuildVariant cfg prog vm n) := by
  unfold execBuildVariant
  refine .bind (.pop h) fun p h => .lift h fun _ _ => ?_
  simp only
  split
  · exact .pushed h
  · refine .opt h fun _ _ => ?_
    split
    · exact h
    · exact .pushed (alloc_after h _)

theorem execBindMatchArgs_after (cfg : Cfg) (n : Nat) (h : After w vm.world) : Onto w VM.world (execBindMatchArgs cfg prog vm n) := by
  unfold execBindMatchArgs
  split
  · exact h
  · refine .opt h fun _ _ => .lift h fun _ _ => ?_
    split
    · exact h
    · refine .bind (.pop h) fun p h => ?_
      simp only
      split
      · split
        · refine .opt h fun _ _ => ?_
          split
          · exact .opt h fun _ _ => .advance h
          · exact h
        · exact h
      · exact h

omit [FloatOps F] in
theorem execGetProp_after (h : After w vm.world) : Onto w VM.world (execGetProp vm) := by
  unfold execGetProp
  refine .bind (.pop h) fun p h => .bind (.pop h) fun q h => ?_
  simp only
  split
  · split
    · exact .opt h fun _ _ => .pushed h
    · exact h
  · exact h

omit [FloatOps F] in
theorem assocSet_keys {V : Type} (k : String) (x : V) : ∀ (st : List (String × V)) (j : String),
    j ∈ st.map Prod.fst → j ∈ (assocSet st k x).map Prod.fst
  | [], j, h => by simp at h
  | (k', v') :: rest, j, h => by
      unfold assocSet
      simp only [List.map_cons, List.mem_cons] at h
      split
      · rename_i e
        simp only [List.map_cons, List.mem_cons]
        exact h.imp (fun h => h.trans e) id
      · simp only [List.map_cons, List.mem_cons]
        exact h.imp id (assocSet_keys k x rest j)

omit [FloatOps F] in
theorem execSetProp_after (h : After w vm.world) : Onto w VM.world (execSetProp vm) := by
  unfold execSetProp
  refine .bind (.pop h) fun p h => .bind (.pop h) fun q h => .bind (.pop h) fun r h => ?_
  simp only
  split
  · split
    · rename_i hc
      exact .advance (h.store hc ⟨rfl, assocSet_keys _ _ _⟩)
    · exact h
  · exact h

omit [FloatOps F] in
theorem execUnwrap_after (n : Nat) (h : After w vm.world) : Onto w VM.world (execUnwrap prog vm n) := by
  unfold execUnwrap
  split
  · exact .bind (.pop h) fun _ h => .bind (.pop h) fun _ h => .pushed h
  · refine .bind (.pop h) fun p h => ?_
    simp only
    split
    · exact .thrown h
    · exact .pushed h

theorem execCast_after (n : Nat) (h : After w vm.world) : Onto w VM.world (execCast prog vm n) := by
  unfold execCast
  refine .bind (.pop h) fun p h => .lift h fun _ _ => .bind (.pop h) fun q h => ?_
  simp only
  split
  · exact .lift h fun _ _ => .pushed h
  · split
    · refine .lift h fun _ _ => ?_
      split
      · exact .pushed h
      · exact .thrown h
    · exact .advance h

/-- Every instruction. -/
theorem exec_after (cfg : Cfg) (prog : Program F) (m : Module F) (op : Op) (args : List Nat) (h : After w vm.world) :
    Onto w VM.world (exec cfg prog m vm op args) := by
  cases op <;> simp only [exec, operand]
  case loadConst | loadName | loadRegisto => exact .opt h fun _ _ => .opt h fun _ _ => .pushed h
  case loadModuleDef =>
    refine .opt h fun _ _ => .opt h fun _ _ => ?_
    split
    · exact .opt h fun _ _ => .opt h fun _ _ => .pushed h
    · exact h
  case mostra =>
    refine .bind (.pop h) fun _ h => .lift h fun s _ => .advance ?_
    exact (h.write s).write "\n"
  case matchVariant =>
    refine .opt h fun _ _ => .bind (.pop h) fun p h => ?_
    split
    · exact .pushed h
    · exact h
  case opIsnull => exact .bind (.pop h) fun _ h => .pushed h
  case opInvert | opNot => exact execUnary_after cfg _ h
  case opIndexGet => exact execIndexGet_after cfg h
  case opIndexSet => exact execIndexSet_after h
  case getGlobal => exact .opt h fun _ _ => .opt h fun _ _ => .opt h fun _ _ => .pushed h
  case setGlobal => exact .opt h fun _ _ => .opt h fun _ _ => .bind (.pop h) fun _ h => .advance h
  case jump =>
    refine .opt h fun _ _ => ?_
    split <;> exact h
  case jumpIfFalse =>
    refine .opt h fun _ _ => .bind (.pop h) fun p h => ?_
    split
    · split <;> exact h
    · exact .advance h
  case getLocal => exact .opt h fun _ _ => .opt h fun _ _ => .opt h fun _ _ => .opt h fun _ _ => .pushed h
  case setLocal =>
    refine .opt h fun _ _ => .opt h fun _ _ => .opt h fun _ _ => .bind (.pop h) fun p h => ?_
    split
    · exact .advance h
    · exact h
  case callFunction => exact .opt h fun _ _ => execCall_after cfg _ h
  case ret => exact execReturn_after h
  case buildStr => exact .opt h fun _ _ => execBuildStr_after _ h
  case buildVec => exact .opt h fun _ _ => execBuildVec_after _ h
  case buildObj => exact .opt h fun _ _ => execBuildObj_after _ h
  case buildVariant => exact .opt h fun _ _ => execBuildVariant_after cfg _ h
  case bindMatchArgs => exact .opt h fun _ _ => execBindMatchArgs_after cfg _ h
  case getProp => exact execGetProp_after h
  case setProp => exact execSetProp_after h
  case opUnwrap => exact .opt h fun _ _ => execUnwrap_after _ h
  case cast => exact .opt h fun _ _ => execCast_after _ h
  case halt => unfold execHalt; split <;> exact h
  all_goals exact execBin_after _ h

/-- **C68**, one instruction: whether it goes on, ends the run, raises an error or panics. -/
theorem step_after (cfg : Cfg) (prog : Program F) (vm : VM F) : Onto vm.world VM.world (step cfg prog vm) := by
  unfold step
  split
  · split
    · exact exec_after cfg prog _ _ _ (.refl _)
    · exact After.refl _
  · exact After.refl _

theorem runLoop_after (cfg : Cfg) (prog : Program F) : ∀ (n : Nat) (vm : VM F), After vm.world (runLoop cfg prog n vm).vm.world
  | 0, vm => .refl _
  | n + 1, vm => by
      have h := step_after cfg prog vm
      unfold runLoop
      cases hs : step cfg prog vm with
      | ok vm' => rw [hs] at h; exact After.trans h (runLoop_after cfg prog n vm')
      | error s => rw [hs] at h; cases s <;> exact h

/-- A run goes on where it was left. -/
theorem runLoop_more (cfg : Cfg) (prog : Program F) (k : Nat) : ∀ (n : Nat) (vm : VM F), runLoop cfg prog (n + k) vm =
    match runLoop cfg prog n vm with
    | .outOfFuel vm' => runLoop cfg prog k vm'
    | o => o
  | 0, vm => by simp [runLoop]
  | n + 1, vm => by
      rw [show n + 1 + k = (n + k) + 1 from by omega]
      simp only [runLoop]
      cases hs : step cfg prog vm with
      | ok vm' => exact runLoop_more cfg prog k n vm'
      | error s => cases s <;> rfl

/-- The observed run `o` can go on to `o'`. -/
def Outcome.Grows (o o' : Outcome F) : Prop := o' = o ∨ (∃ vm, o = .outOfFuel vm) ∧ After o.vm.world o'.vm.world

theorem runModule_grows (cfg : Cfg) (prog : Program F) (n k : Nat) (ref : ModRef) (m : Module F) (vm : VM F) :
    (runModule cfg prog n ref m vm).Grows (runModule cfg prog (n + k) ref m vm) := by
  unfold runModule
  split
  · exact .inl rfl
  · rename_i vm1 _
    rw [runLoop_more]
    cases h : runLoop cfg prog n (enter ref m vm1) with
    | outOfFuel vm' => exact .inr ⟨⟨_, rfl⟩, runLoop_after cfg prog k vm'⟩
    | _ => exact .inl rfl

theorem runModule_after (cfg : Cfg) (prog : Program F) (n : Nat) (ref : ModRef) (m : Module F) (vm : VM F) :
    After vm.world (runModule cfg prog n ref m vm).vm.world := by
  unfold runModule
  split
  · exact .refl _
  · rename_i vm1 h
    have e : (enter ref m vm1).world = vm.world := by
      unfold initModule at h
      split at h
      · simp only [Option.bind_eq_bind, Option.bind_eq_some_iff] at h
        obtain ⟨_, -, h⟩ := h
        cases h; rfl
      · cases h; rfl
    exact e ▸ runLoop_after cfg prog n (enter ref m vm1)

theorem runImports_after (cfg : Cfg) (prog : Program F) (n : Nat) : ∀ (ms : List (Module F)) (i : Nat) (vm : VM F),
    After vm.world (runImports cfg prog n i ms vm).vm.world
  | [], _, vm => .refl _
  | m :: ms, i, vm => by
      have h := runModule_after cfg prog n (.imp i) m vm
      unfold runImports
      cases hr : runModule cfg prog n (.imp i) m vm with
      | done vm' => rw [hr] at h; exact h.trans (runImports_after cfg prog n ms (i + 1) vm')
      | _ => rw [hr] at h; exact h

theorem runImports_grows (cfg : Cfg) (prog : Program F) (n k : Nat) : ∀ (ms : List (Module F)) (i : Nat) (vm : VM F),
    (runImports cfg prog n i ms vm).Grows (runImports cfg prog (n + k) i ms vm)
  | [], _, vm => .inl rfl
  | m :: ms, i, vm => by
      have h := runModule_grows cfg prog n k (.imp i) m vm
      unfold runImports
      rcases h with h | ⟨⟨vm', h1⟩, h2⟩
      · rw [h]
        cases hr : runModule cfg prog n (.imp i) m vm with
        | done vm' => exact runImports_grows cfg prog n k ms (i + 1) vm'
        | _ => exact .inl rfl
      · rw [h1] at h2 ⊢
        refine .inr ⟨⟨_, rfl⟩, ?_⟩
        cases hr : runModule cfg prog (n + k) (.imp i) m vm with
        | done vm'' => rw [hr] at h2; exact h2.trans (runImports_after cfg prog (n + k) ms (i + 1) vm'')
        | _ => rw [hr] at h2; exact h2

/-- **C68**, observing a program twice: what it had written the first time is the beginning of what it has written the
second time, it has read the input in order, the cells of its storage are still there, with the kind they had and, for
variants, with the values they had; and if it had ended, it ended in this way. -/
theorem written_stays (cfg : Cfg) (prog : Program F) (inp : List String) {n n' : Nat} (h : n ≤ n') :
    (∃ s, (runProgram cfg prog n' inp).vm.world.out = (runProgram cfg prog n inp).vm.world.out ++ s) ∧
    (∃ read later, inp = read ++ (runProgram cfg prog n inp).vm.world.inp ∧
      (runProgram cfg prog n inp).vm.world.inp = later ++ (runProgram cfg prog n' inp).vm.world.inp) ∧
    (∀ (a : Nat) c, (runProgram cfg prog n inp).vm.world.heap[a]? = some c →
      ∃ c', (runProgram cfg prog n' inp).vm.world.heap[a]? = some c' ∧ c.Becomes c') ∧
    ((∀ vm, runProgram cfg prog n inp ≠ .outOfFuel vm) → runProgram cfg prog n' inp = runProgram cfg prog n inp) := by
  obtain ⟨k, rfl⟩ := Nat.exists_eq_add_of_le h
  have hs : After (World.mk [] "" inp : World F) (runProgram cfg prog n inp).vm.world := by
    have h1 := runImports_after cfg prog n prog.imports 0 (VM.new inp)
    unfold runProgram
    cases hr : runImports cfg prog n 0 prog.imports (VM.new inp) with
    | done vm => rw [hr] at h1; exact After.trans h1 (runModule_after cfg prog n .main prog.main vm)
    | _ => rw [hr] at h1; exact h1
  have hg : (runProgram cfg prog n inp).Grows (runProgram cfg prog (n + k) inp) := by
    unfold runProgram
    rcases runImports_grows cfg prog n k prog.imports 0 (VM.new inp) with h | ⟨⟨vm', h1⟩, h2⟩
    · rw [h]
      cases hr : runImports cfg prog n 0 prog.imports (VM.new inp) with
      | done vm' => exact runModule_grows cfg prog n k .main prog.main vm'
      | _ => exact .inl rfl
    · rw [h1] at h2 ⊢
      refine .inr ⟨⟨_, rfl⟩, ?_⟩
      cases hr : runImports cfg prog (n + k) 0 prog.imports (VM.new inp) with
      | done vm'' => rw [hr] at h2; exact h2.trans (runModule_after cfg prog (n + k) .main prog.main vm'')
      | _ => rw [hr] at h2; exact h2
  have ha : After (runProgram cfg prog n inp).vm.world (runProgram cfg prog (n + k) inp).vm.world := by
    rcases hg with h | ⟨-, h⟩
    · rw [h]; exact .refl _
    · exact h
  refine ⟨ha.out, ?_, ha.heap, fun hn => ?_⟩
  · obtain ⟨i, hi⟩ := hs.inp
    obtain ⟨j, hj⟩ := ha.inp
    exact ⟨inp.take i, _, by rw [hi]; exact (List.take_append_drop i inp).symm,
      by rw [hj]; exact (List.take_append_drop j _).symm⟩
  · rcases hg with h | ⟨⟨vm, h⟩, -⟩
    · exact h
    · exact absurd h (hn vm)

end

/-- `[int: 7]` made and shown again and again. -/
def endlessProgram : Program WholeFloat :=
  { main :=
      { name := "p", builtin := false, constants := [.int 7], names := [], code := [1, 0, 0, 31, 1, 0, 23, 0, 0, 0, 0, 0, 0, 0, 0],
        main := { name := "_inicio_", startIp := 0, ip := 0, lastI := 0, bp := -1, locals := 0, module := .main },
        functions := [], registos := [], srcMap := [] },
    imports := [] }

/-- Observed after 3 and after 12 instructions. -/
example : (runProgram ⟨false, fun _ => []⟩ endlessProgram 3 []).vm.world = ⟨[.vec [.int 7]], "[7]\n", []⟩ ∧
    (runProgram ⟨false, fun _ => []⟩ endlessProgram 12 []).vm.world =
      ⟨[.vec [.int 7], .vec [.int 7], .vec [.int 7]], "[7]\n[7]\n[7]\n", []⟩ := by decide +kernel

/-- The cells of a record and of a variant. -/
example : Cell.Becomes (F := WholeFloat) (.obj ⟨"P", ["x"]⟩ [("x", .int 1)]) (.obj ⟨"P", ["x"]⟩ [("x", .int 2)]) ∧
    ¬ Cell.Becomes (F := WholeFloat) (.payload [.int 1]) (.payload [.int 2]) := by
  simp [Cell.Becomes]

end Amanda

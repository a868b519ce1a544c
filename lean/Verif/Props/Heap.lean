import Verif.VmState
import Verif.VmCalls
import Verif.FloatModel

/-!
# C19-C23: vectors, records, optional values
-/

namespace Amanda

variable {F : Type} [FloatOps F]

/-- The contents of a vector: what `tam`, indexing and display see. -/
def vecAt (heap : Heap F) (c : Nat) : Option (List (Val F)) :=
  match heap[c]? with
  | some (.vec items) => some items
  | _ => none

/-- The fields of a record object. -/
def objAt (heap : Heap F) (c : Nat) : Option (Registo × List (String × Val F)) :=
  match heap[c]? with
  | some (.obj r st) => some (r, st)
  | _ => none

omit [FloatOps F] in
theorem vecAt_eq {heap : Heap F} {c : Nat} {items : List (Val F)} :
    vecAt heap c = some items ↔ heap[c]? = some (.vec items) := by
  unfold vecAt
  split
  · simp_all
  · rename_i h
    constructor
    · simp
    · intro h'
      exact absurd h' (h items)

omit [FloatOps F] in
theorem objAt_eq {heap : Heap F} {c : Nat} {r : Registo} {st : List (String × Val F)} :
    objAt heap c = some (r, st) ↔ heap[c]? = some (.obj r st) := by
  unfold objAt
  split
  · simp_all
  · rename_i h
    constructor
    · simp
    · intro h'
      exact absurd h' (h r st)

/-! ## C19 -/

/-- The instruction ends in the reported error `msg` (vm.rs:558-582), traced for the frames
and the module it started with, and has changed neither the globals nor the world. -/
def RaisesAt (prog : Program F) (fr : List AmaFunc) (c : ModRef)
    (g : List ((ModRef × String) × Val F)) (w : World F) (r : Except (Stop F) (VM F))
    (msg : String) : Prop :=
  ∃ vm' l, r = .error (throwErr prog vm' msg) ∧ At vm' fr l c g w

section
variable {prog : Program F} {vm : VM F} {f : AmaFunc} {fs : List AmaFunc} {c : ModRef}
  {g : List ((ModRef × String) × Val F)} {w : World F} {base : List (Val F)}

/-- C19, reading. `v[i]` gives the element at `i` when `0 <= i < tam(v)`, and otherwise
stops with an index error and no effect. -/
theorem vector_read (cfg : Cfg) (m : Module F) {items : List (Val F)} {a : Nat} {i : Int}
    (h : At vm (f :: fs) (base ++ [.vector a, .int i]) c g w)
    (ha : vecAt w.heap a = some items) :
    (∀ v, 0 ≤ i → items[i.toNat]? = some v → ∃ vm',
      exec cfg prog m vm .opIndexGet [] = .ok vm' ∧ At vm' (f.next :: fs) (base ++ [v]) c g w) ∧
    (i < 0 → RaisesAt prog (f :: fs) c g w (exec cfg prog m vm .opIndexGet []) msgNegIndex) ∧
    ((items.length : Int) ≤ i →
      RaisesAt prog (f :: fs) c g w (exec cfg prog m vm .opIndexGet []) (msgIndex items.length i)) := by
  rw [vecAt_eq] at ha
  obtain ⟨vm1, e1, h1⟩ := At.pop (l := base ++ [.vector a]) (by simpa using h)
  obtain ⟨vm2, e2, h2⟩ := At.pop h1
  simp only [exec, execIndexGet, e1, except_bind_ok, Val.takeInt, Res.lift, e2, h2.world]
  refine ⟨?_, ?_, ?_⟩
  · intro v h0 hv
    have hlt : i.toNat < items.length := by
      rcases Nat.lt_or_ge i.toNat items.length with h | h
      · exact h
      · rw [List.getElem?_eq_none h] at hv; cases hv
    have hg : indexGet cfg w.heap (.vector a) i = .ok v := by
      simp only [indexGet, vecIndexCheck, ha]
      rw [if_neg (by omega), if_neg (by omega)]
      simp [hv]
    obtain ⟨vm3, e3, h3⟩ := h2.push v
    obtain ⟨vm4, e4, h4⟩ := h3.advance
    exact ⟨vm4, by simp [hg, e3, e4], h4⟩
  · intro h0
    have hg : indexGet cfg w.heap (.vector a) i = .error (.err msgNegIndex) := by
      simp [indexGet, vecIndexCheck, h0]
    exact ⟨vm2, _, by simp [hg], h2⟩
  · intro h0
    have hg : indexGet cfg w.heap (.vector a) i = .error (.err (msgIndex items.length i)) := by
      simp only [indexGet, vecIndexCheck, ha]
      rw [if_neg (by omega), if_pos (by omega)]
      rfl
    exact ⟨vm2, _, by simp [hg], h2⟩

/-- C19, writing. `v[i] = x` succeeds exactly when `0 <= i < tam(v)`; then element `i` of that
vector is `x`, its length and other elements are as before, and so is every other cell of the
storage.  Otherwise the program stops with an index error and no effect. -/
theorem vector_write (cfg : Cfg) (m : Module F) {items : List (Val F)} {a : Nat} {i : Int}
    {x : Val F} (h : At vm (f :: fs) (base ++ [.vector a, .int i, x]) c g w)
    (ha : vecAt w.heap a = some items) :
    (0 ≤ i → i < items.length → ∃ vm' heap' items', exec cfg prog m vm .opIndexSet [] = .ok vm' ∧
      At vm' (f.next :: fs) base c g { w with heap := heap' } ∧ vecAt heap' a = some items' ∧
      items'.length = items.length ∧ items'[i.toNat]? = some x ∧
      (∀ j, j ≠ i.toNat → items'[j]? = items[j]?) ∧
      (∀ b, b ≠ a → heap'[b]? = w.heap[b]?)) ∧
    (i < 0 → RaisesAt prog (f :: fs) c g w (exec cfg prog m vm .opIndexSet []) msgNegIndex) ∧
    ((items.length : Int) ≤ i →
      RaisesAt prog (f :: fs) c g w (exec cfg prog m vm .opIndexSet []) (msgIndex items.length i)) := by
  rw [vecAt_eq] at ha
  obtain ⟨vm0, e0, h0⟩ := At.pop (l := base ++ [.vector a, .int i]) (by simpa using h)
  obtain ⟨vm1, e1, h1⟩ := At.pop (l := base ++ [.vector a]) (v := .int i) (by simpa using h0)
  obtain ⟨vm2, e2, h2⟩ := At.pop h1
  have hal : a < w.heap.length := by
    rcases Nat.lt_or_ge a w.heap.length with h | h
    · exact h
    · rw [List.getElem?_eq_none h] at ha; cases ha
  simp only [exec, execIndexSet, e0, e1, except_bind_ok, Val.takeInt, Res.lift, e2, h2.world]
  refine ⟨?_, ?_, ?_⟩
  · intro h0 h1
    have hg : indexSet w.heap (.vector a) i x =
        .ok (w.heap.set a (.vec (items.set i.toNat x))) := by
      simp only [indexSet, vecIndexCheck, ha]
      rw [if_neg (by omega), if_neg (by omega)]
      rfl
    obtain ⟨vm3, e3, h3⟩ := (h2.setWorld { w with heap := w.heap.set a (.vec (items.set i.toNat x)) }).advance
    refine ⟨vm3, _, items.set i.toNat x, ?_, h3, ?_, by simp, ?_, ?_, ?_⟩
    · simp [hg, e3]
    · rw [vecAt_eq]
      simp [hal]
    · rw [List.getElem?_set_self (by omega)]
    · intro j hj
      rw [List.getElem?_set_ne (by omega)]
    · intro b hb
      rw [List.getElem?_set_ne (by omega)]
  · intro h0
    have hg : indexSet w.heap (.vector a) i x = .error (.err msgNegIndex) := by
      simp [indexSet, vecIndexCheck, h0]
    exact ⟨vm2, _, by simp [hg], h2⟩
  · intro h0
    have hg : indexSet w.heap (.vector a) i x = .error (.err (msgIndex items.length i)) := by
      simp only [indexSet, vecIndexCheck, ha]
      rw [if_neg (by omega), if_pos (by omega)]
      rfl
    exact ⟨vm2, _, by simp [hg], h2⟩

end


/-- A machine in the middle of `v[1]` with `v = [10, 20, 30]`. -/
def sampleVM (stack : List (Val WholeFloat)) : VM WholeFloat :=
  { frames := [{ name := "main", startIp := 0, ip := 0, lastI := 0, bp := 0, locals := 0, module := .main }],
    values := stack, sp := (stack.length : Int) - 1, ctx := .main, globals := [],
    world := { heap := [.vec [.int 10, .int 20, .int 30], .vec [.int 7]], out := "", inp := [] } }

theorem sampleVM_at (stack : List (Val WholeFloat)) :
    At (sampleVM stack) (sampleVM stack).frames stack .main [] (sampleVM stack).world :=
  ⟨rfl, ⟨by simp [sampleVM], [], by simp [sampleVM]⟩, rfl, rfl, rfl⟩

/-- `v[1]` reads 20, `v[3]` is out of bounds. -/
example (cfg : Cfg) (prog : Program WholeFloat) (m : Module WholeFloat) :
    (∃ vm', exec cfg prog m (sampleVM [.vector 0, .int 1]) .opIndexGet [] = .ok vm' ∧ Live vm' [.int 20]) ∧
    (∃ vm', exec cfg prog m (sampleVM [.vector 0, .int 3]) .opIndexGet [] =
      .error (throwErr prog vm' (msgIndex 3 3))) := by
  refine ⟨?_, ?_⟩
  · obtain ⟨vm', e, h⟩ := (vector_read (base := []) cfg m (sampleVM_at [.vector 0, .int 1])
      (items := [.int 10, .int 20, .int 30]) rfl).1 (.int 20) (by decide) rfl
    exact ⟨vm', e, h.live⟩
  · obtain ⟨vm', l, e, _⟩ := (vector_read (base := []) cfg m (sampleVM_at [.vector 0, .int 3])
      (items := [.int 10, .int 20, .int 30]) rfl).2.2 (by decide)
    exact ⟨vm', e⟩

/-- `v[1] = 5` leaves the other vector alone. -/
example (cfg : Cfg) (prog : Program WholeFloat) (m : Module WholeFloat) :
    ∃ vm', exec cfg prog m (sampleVM [.vector 0, .int 1, .int 5]) .opIndexSet [] = .ok vm' ∧
      vecAt vm'.world.heap 1 = some [.int 7] := by
  obtain ⟨vm', heap', items', e, h, _, _, _, _, hb⟩ :=
    (vector_write (base := []) cfg m (sampleVM_at [.vector 0, .int 1, .int 5])
      (items := [.int 10, .int 20, .int 30]) rfl).1 (by decide) (by decide)
  refine ⟨vm', e, ?_⟩
  rw [h.world, vecAt, hb 1 (by decide)]
  rfl

/-! ## C20 -/

/-- The value reached from `v` by a list of indices. -/
def reach (heap : Heap F) (v : Val F) : List Nat → Option (Val F)
  | [] => some v
  | i :: is =>
      match v with
      | .vector a => (vecAt heap a).bind fun items => (items[i]?).bind fun x => reach heap x is
      | _ => none

/-- `v` is a nested vector with the dimensions given, all of whose elements are `z`. -/
def HasShape (heap : Heap F) (z : Val F) : List Nat → Val F → Prop
  | [], v => v = z
  | d :: ds, v => ∃ a items, v = .vector a ∧ vecAt heap a = some items ∧ items.length = d ∧
      ∀ x ∈ items, HasShape heap z ds x

/-- The value a new element of each primitive type has. -/
def emptyOf : VTy → Option (Val F)
  | .int => some (.int 0)
  | .real => some (.f64 FloatOps.zero)
  | .bool => some (.bool false)
  | .texto => some (.str "")
  | .vector => none

omit [FloatOps F] in
theorem allocCopies_eq (inner : List (Val F)) (n : Nat) (heap : Heap F) :
    allocCopies heap inner n =
      ((List.range n).map (fun i => Val.vector (heap.length + i)),
        heap ++ List.replicate n (.vec inner)) := by
  induction n generalizing heap with
  | zero => simp [allocCopies]
  | succ n ih =>
      simp only [allocCopies, ih]
      rw [List.range_succ_eq_map]
      simp only [List.map_cons, List.map_map, Nat.add_zero, Prod.mk.injEq, List.cons.injEq, true_and]
      refine ⟨?_, ?_⟩
      · apply List.map_congr_left
        intro i _
        simp
        omega
      · simp [List.replicate_succ]

omit [FloatOps F] in
theorem vecAt_mono {heap ext : Heap F} {a : Nat} {items : List (Val F)}
    (h : vecAt heap a = some items) : vecAt (heap ++ ext) a = some items := by
  rw [vecAt_eq] at *
  rw [List.getElem?_append_left]
  · exact h
  · rcases Nat.lt_or_ge a heap.length with h' | h'
    · exact h'
    · rw [List.getElem?_eq_none h'] at h; cases h

omit [FloatOps F] in
theorem HasShape.mono {heap ext : Heap F} {z : Val F} {ds : List Nat} {v : Val F}
    (h : HasShape heap z ds v) : HasShape (heap ++ ext) z ds v := by
  induction ds generalizing v with
  | nil => exact h
  | cons d ds ih =>
      obtain ⟨a, items, e, h1, h2, h3⟩ := h
      exact ⟨a, items, e, vecAt_mono h1, h2, fun x hx => ih (h3 x hx)⟩

theorem initValue_eq {t : VTy} {z : Val F} (h : emptyOf t = some z) : initValue t = .ok z := by
  cases t <;> simp [emptyOf] at h <;> simp [initValue, h]

theorem buildVec_shape {t : VTy} {z : Val F} (hz : emptyOf t = some z) (d : Nat) (ds : List Nat)
    (heap : Heap F) : ∃ items ext, buildVec t (d :: ds) heap = .ok (items, heap ++ ext) ∧
      items.length = d ∧ ∀ x ∈ items, HasShape (heap ++ ext) z ds x := by
  induction ds generalizing d heap with
  | nil =>
      refine ⟨List.replicate d z, [], by simp [buildVec, initValue_eq hz], by simp, ?_⟩
      intro x hx
      exact (List.mem_replicate.1 hx).2
  | cons d' ds ih =>
      unfold buildVec
      by_cases h0 : d = 0
      · exact ⟨[], [], by simp [h0], by simp [h0], by simp⟩
      · obtain ⟨inner, ext, e, hl, hs⟩ := ih d' heap
        rw [if_neg h0, e]
        simp only [except_bind_ok, allocCopies_eq]
        refine ⟨_, ext ++ List.replicate d (.vec inner), by rw [List.append_assoc], by simp, ?_⟩
        intro x hx
        simp only [List.mem_map, List.mem_range] at hx
        obtain ⟨i, hi, rfl⟩ := hx
        refine ⟨_, inner, rfl, ?_, hl, ?_⟩
        · rw [vecAt_eq, ← List.append_assoc, List.getElem?_append_right (by simp)]
          rw [List.getElem?_replicate]
          simp
          omega
        · intro y hy
          rw [← List.append_assoc]
          exact (hs y hy).mono

theorem checkDims_ints (dims : List Nat) :
    checkDims (dims.map fun (n : Nat) => (Val.int n : Val F)) = .ok dims := by
  induction dims with
  | nil => rfl
  | cons d ds ih =>
      simp only [List.map_cons, checkDims, Val.takeInt, except_bind_ok, ih]
      rw [if_neg (by omega)]
      simp

/-- C20, shape. `vec(t, d1, ..., dn)` returns a new nested vector of exactly these dimensions,
filled with the empty value of `t`, and changes nothing that existed. -/
theorem vec_shape (cfg : Cfg) {t : VTy} {z : Val F} (hz : emptyOf t = some z) (d : Nat)
    (ds : List Nat) (w : World F) :
    ∃ v w', callNative cfg "embutidos" "vec"
        (.type t :: (d :: ds).map fun (n : Nat) => (Val.int n : Val F)) w = .ok (v, w') ∧
      HasShape w'.heap z (d :: ds) v ∧ w'.out = w.out ∧ w'.inp = w.inp ∧
      ∀ b, b < w.heap.length → w'.heap[b]? = w.heap[b]? := by
  obtain ⟨items, ext, e, hl, hs⟩ := buildVec_shape hz d ds w.heap
  refine ⟨.vector (w.heap ++ ext).length, { w with heap := w.heap ++ ext ++ [.vec items] }, ?_, ?_,
    rfl, rfl, ?_⟩
  · simp only [callNative, if_true, nVec, nArg, List.getElem?_cons_zero, Res.at, Val.takeType,
      except_bind_ok, List.drop_one, List.tail_cons, checkDims_ints, e, alloc]
  · refine ⟨_, items, rfl, ?_, hl, fun x hx => (hs x hx).mono⟩
    rw [vecAt_eq]
    simp
  · intro b hb
    simp only [List.append_assoc]
    rw [List.getElem?_append_left hb]

/-- A negative dimension is refused. -/
theorem vec_negative_dimension (cfg : Cfg) (t : VTy) (pre : List Nat) (d : Int) (hd : d < 0)
    (post : List (Val F)) (w : World F) :
    callNative cfg "embutidos" "vec"
      (.type t :: ((pre.map fun (n : Nat) => (Val.int n : Val F)) ++ .int d :: post)) w =
      .error (.err msgDims, w) := by
  have : checkDims ((pre.map fun (n : Nat) => (Val.int n : Val F)) ++ .int d :: post) =
      .error (.err msgDims) := by
    induction pre with
    | nil => simp [checkDims, Val.takeInt, hd]
    | cons p ps ih =>
        simp only [List.map_cons, List.cons_append, checkDims, Val.takeInt, except_bind_ok, ih]
        rw [if_neg (by omega)]
        rfl
  simp only [callNative, if_true, nVec, nArg, List.getElem?_cons_zero, Res.at, Val.takeType,
      except_bind_ok, List.drop_one, List.tail_cons, this]
  rfl

omit [FloatOps F] in
theorem reach_cons {heap : Heap F} {a : Nat} {items : List (Val F)} (h : vecAt heap a = some items)
    (i : Nat) (is : List Nat) :
    reach heap (.vector a) (i :: is) = (items[i]?).bind fun x => reach heap x is := by
  simp [reach, h]

omit [FloatOps F] in
theorem indexSet_eq {heap : Heap F} {a : Nat} {items : List (Val F)} (h : vecAt heap a = some items)
    {i : Nat} (hi : i < items.length) (x : Val F) :
    indexSet heap (.vector a) (i : Int) x = .ok (heap.set a (.vec (items.set i x))) := by
  rw [vecAt_eq] at h
  simp only [indexSet, vecIndexCheck, h]
  rw [if_neg (by omega), if_neg (by simpa using hi)]
  simp

omit [FloatOps F] in
theorem vecAt_set_self {heap : Heap F} {a : Nat} {items items' : List (Val F)}
    (h : vecAt heap a = some items) : vecAt (heap.set a (.vec items')) a = some items' := by
  rw [vecAt_eq] at *
  rw [List.getElem?_set_self]
  rcases Nat.lt_or_ge a heap.length with h' | h'
  · exact h'
  · rw [List.getElem?_eq_none h'] at h; cases h

omit [FloatOps F] in
theorem vecAt_set_ne {heap : Heap F} {a b : Nat} {cell : Cell F} (h : a ≠ b) :
    vecAt (heap.set a cell) b = vecAt heap b := by
  unfold vecAt
  rw [List.getElem?_set_ne h]

/-- C20 for one dimension: assigning to one element of a new vector changes that element only. -/
theorem vec_independent_1d_partial (cfg : Cfg) {t : VTy} {z : Val F} (hz : emptyOf t = some z)
    (d : Nat) (w : World F) {v : Val F} {w' : World F}
    (hv : callNative cfg "embutidos" "vec" [.type t, .int d] w = .ok (v, w')) {i : Nat} (hi : i < d)
    (x : Val F) : ∃ heap', indexSet w'.heap v i x = .ok heap' ∧ reach heap' v [i] = some x ∧
      ∀ j, j ≠ i → reach heap' v [j] = reach w'.heap v [j] := by
  obtain ⟨v1, w1, e, hs, _⟩ := vec_shape cfg hz d [] w
  have : (v, w') = (v1, w1) := by
    have e' : callNative cfg "embutidos" "vec" [.type t, .int d] w = .ok (v1, w1) := e
    rw [hv] at e'
    exact Except.ok.inj e'
  cases this
  obtain ⟨a, items, rfl, ha, hl, _⟩ := hs
  refine ⟨_, indexSet_eq ha (hl ▸ hi) x, ?_, ?_⟩
  · rw [reach_cons (vecAt_set_self ha), List.getElem?_set_self (hl ▸ hi)]
    rfl
  · intro j hj
    rw [reach_cons (vecAt_set_self ha), reach_cons ha, List.getElem?_set_ne (by omega)]
    cases items[j]? <;> rfl

/-- C20 for two dimensions: assigning to `m[i][j]` changes that element only. Missing from the
full claim: three and more dimensions, where it is false (`vec_independent_violated`). -/
theorem vec_independent_2d_partial (cfg : Cfg) {t : VTy} {z : Val F} (hz : emptyOf t = some z)
    (d1 d2 : Nat) (w : World F) {v : Val F} {w' : World F}
    (hv : callNative cfg "embutidos" "vec" [.type t, .int d1, .int d2] w = .ok (v, w'))
    {i j : Nat} (hi : i < d1) (hj : j < d2) (x : Val F) :
    ∃ row heap', reach w'.heap v [i] = some row ∧ indexSet w'.heap row j x = .ok heap' ∧
      reach heap' v [i, j] = some x ∧
      ∀ i' j', (i', j') ≠ (i, j) → reach heap' v [i', j'] = reach w'.heap v [i', j'] := by
  have hb : buildVec t [d1, d2] w.heap = .ok
      ((List.range d1).map (fun i => Val.vector (w.heap.length + i)),
        w.heap ++ List.replicate d1 (.vec (List.replicate d2 z))) := by
    unfold buildVec
    rw [if_neg (by omega)]
    simp [buildVec, initValue_eq hz, allocCopies_eq]
  have hd := checkDims_ints (F := F) [d1, d2]
  simp only [List.map_cons, List.map_nil] at hd
  simp only [callNative, if_true, nVec, nArg, List.getElem?_cons_zero, Res.at, Val.takeType,
      except_bind_ok, List.drop_one, List.tail_cons, hd, hb, alloc] at hv
  simp only [Except.ok.injEq, Prod.mk.injEq] at hv
  obtain ⟨rfl, rfl⟩ := hv
  dsimp only
  generalize hheap : w.heap ++ List.replicate d1 (.vec (List.replicate d2 z)) ++
    [.vec ((List.range d1).map (fun i => Val.vector (w.heap.length + i)))] = heap
  have hlen : (w.heap ++ List.replicate d1 (Cell.vec (List.replicate d2 z))).length =
      w.heap.length + d1 := by simp
  rw [hlen]
  have htop : vecAt heap (w.heap.length + d1) =
      some ((List.range d1).map (fun i => Val.vector (w.heap.length + i))) := by
    rw [vecAt_eq, ← hheap, List.getElem?_append_right (by simp)]
    simp
  have hrow : ∀ k, k < d1 → vecAt heap (w.heap.length + k) = some (List.replicate d2 z) := by
    intro k hk
    rw [vecAt_eq, ← hheap, List.append_assoc, List.getElem?_append_right (by simp),
      List.getElem?_append_left (by simp; omega), List.getElem?_replicate]
    simp
    omega
  have hget : ∀ k, k < d1 → ((List.range d1).map (fun i => (Val.vector (w.heap.length + i) : Val F)))[k]? =
      some (.vector (w.heap.length + k)) := by
    intro k hk
    simp [hk]
  refine ⟨.vector (w.heap.length + i), _, ?_, indexSet_eq (hrow i hi) (by simpa using hj) x, ?_, ?_⟩
  · rw [reach_cons htop, hget i hi]
    rfl
  · rw [reach_cons ((vecAt_set_ne (by omega)).trans htop), hget i hi]
    simp only [Option.bind_some]
    rw [reach_cons (vecAt_set_self (hrow i hi)), List.getElem?_set_self (by simpa using hj)]
    rfl
  · intro i' j' hne
    rw [reach_cons ((vecAt_set_ne (by omega)).trans htop), reach_cons htop]
    by_cases hi' : i' < d1
    · rw [hget i' hi']
      simp only [Option.bind_some]
      by_cases hii : i' = i
      · subst hii
        have hjj : j' ≠ j := fun h => hne (by rw [h])
        rw [reach_cons (vecAt_set_self (hrow i' hi)), reach_cons (hrow i' hi),
          List.getElem?_set_ne (by omega)]
        cases (List.replicate d2 z)[j']? <;> rfl
      · rw [reach_cons ((vecAt_set_ne (by omega)).trans (hrow i' hi')), reach_cons (hrow i' hi')]
        cases (List.replicate d2 z)[j']? <;> rfl
    · have : ((List.range d1).map (fun i => (Val.vector (w.heap.length + i) : Val F)))[i']? = none := by
        simp; omega
      rw [this]
      rfl

/-- C20 fails from three dimensions on: in `m = vec(int, 2, 1, 1)` the assignment
`m[0][0][0] = 5` also changes `m[1][0][0]`. -/
theorem vec_independent_violated :
    ∃ (cfg : Cfg) (w w' : World WholeFloat) (v row : Val WholeFloat) (heap' : Heap WholeFloat),
      callNative cfg "embutidos" "vec" [.type .int, .int 2, .int 1, .int 1] w = .ok (v, w') ∧
      reach w'.heap v [0, 0] = some row ∧ indexSet w'.heap row 0 (.int 5) = .ok heap' ∧
      reach w'.heap v [1, 0, 0] = some (.int 0) ∧ reach heap' v [1, 0, 0] = some (.int 5) := by
  refine ⟨⟨false, fun _ => []⟩, ⟨[], "", []⟩,
    ⟨[.vec [.int 0], .vec [.vector 0], .vec [.vector 0], .vec [.vector 1, .vector 2]], "", []⟩,
    .vector 3, .vector 0,
    [.vec [.int 5], .vec [.vector 0], .vec [.vector 0], .vec [.vector 1, .vector 2]], ?_, ?_, ?_, ?_, ?_⟩
    <;> decide +kernel

/-- `vec(int, 2, 3)` and its elements. -/
example (cfg : Cfg) : ∃ v w', callNative cfg "embutidos" "vec" [.type .int, .int 2, .int 3]
    (⟨[.vec [.int 7]], "", []⟩ : World WholeFloat) = .ok (v, w') ∧
    reach w'.heap v [1, 2] = some (.int 0) ∧ reach w'.heap v [2, 0] = none :=
  ⟨_, _, rfl, by decide +kernel, by decide +kernel⟩

/-! ## C21 -/

/-- Operations on vectors a program can perform; `a` is the vector. -/
inductive VecOp (F : Type) where
  | anexa (a : Nat) (x : Val F)
  | remova (a : Nat) (i : Int)
  | store (a : Nat) (i : Int) (x : Val F)
  | tam (a : Nat)

/-- The vector an operation works on. -/
def VecOp.on : VecOp F → Nat
  | .anexa a _ | .remova a _ | .store a _ _ | .tam a => a

/-- The operation as the VM performs it. -/
def VecOp.run (cfg : Cfg) (w : World F) : VecOp F → NM F (Val F × World F)
  | .anexa a x => callNative cfg "embutidos" "anexa" [.vector a, x] w
  | .remova a i => callNative cfg "embutidos" "remova" [.vector a, .int i] w
  | .store a i x =>
      match indexSet w.heap (.vector a) i x with
      | .ok heap => .ok (.none, { w with heap := heap })
      | .error e => .error (e, w)
  | .tam a => callNative cfg "embutidos" "tam" [.vector a] w

/-- The same operation on one mathematical list: its answer and the new list, `none` for an
index outside the list.  The size is a number of 64 bits, the length itself for all lists a machine can
hold (`size_is_length`). -/
def VecOp.onList (l : List (Val F)) : VecOp F → Option (Val F × List (Val F))
  | .anexa _ x => some (.none, l ++ [x])
  | .remova _ i =>
      if 0 ≤ i then (l[i.toNat]?).map fun x => (x, l.take i.toNat ++ l.drop (i.toNat + 1)) else none
  | .store _ i x =>
      if 0 ≤ i ∧ i < l.length then some (.none, l.take i.toNat ++ x :: l.drop (i.toNat + 1)) else none
  | .tam _ => some (.int (Int.bmod l.length (2 ^ 64)), l)

theorem asI64_bmod (n : Nat) : asI64 n = Int.bmod n (2 ^ 64) := by unfold asI64; congr 1

/-- Below `2^63` elements the size is the length. -/
theorem size_is_length {n : Nat} (h : n < 2 ^ 63) : Int.bmod n (2 ^ 64) = n :=
  Int.bmod_eq_of_le (by omega) (by omega)

/-- All vectors as lists. -/
def onStore (σ : Nat → Option (List (Val F))) (op : VecOp F) :
    Option (Val F × (Nat → Option (List (Val F)))) :=
  (σ op.on).bind fun l => (op.onList l).map fun (x, l') =>
    (x, fun b => if b = op.on then some l' else σ b)

/-- A sequence of operations on lists: the answers and the final lists. -/
def onStores (σ : Nat → Option (List (Val F))) :
    List (VecOp F) → Option (List (Val F) × (Nat → Option (List (Val F))))
  | [] => some ([], σ)
  | op :: ops => (onStore σ op).bind fun (x, σ) => (onStores σ ops).map fun (xs, σ) => (x :: xs, σ)

/-- The sequence as the VM performs it. -/
def runOps (cfg : Cfg) : World F → List (VecOp F) → NM F (List (Val F) × World F)
  | w, [] => .ok ([], w)
  | w, op :: ops => do
      let (x, w) ← op.run cfg w
      let (xs, w) ← runOps cfg w ops
      .ok (x :: xs, w)

omit [FloatOps F] in
theorem lt_of_vecAt {heap : Heap F} {a : Nat} {l : List (Val F)} (h : vecAt heap a = some l) :
    a < heap.length := by
  rw [vecAt_eq] at h
  rcases Nat.lt_or_ge a heap.length with h' | h'
  · exact h'
  · rw [List.getElem?_eq_none h'] at h; cases h

omit [FloatOps F] in
theorem vecAt_set {heap : Heap F} {a : Nat} {l l' : List (Val F)} (h : vecAt heap a = some l) :
    vecAt (heap.set a (.vec l')) = fun b => if b = a then some l' else vecAt heap b := by
  funext b
  by_cases hb : b = a
  · subst hb
    simp [vecAt_set_self h]
  · rw [if_neg hb, vecAt_set_ne (fun h => hb h.symm)]

theorem vecOp_step (cfg : Cfg) (w : World F) (op : VecOp F) {l : List (Val F)}
    (hl : vecAt w.heap op.on = some l) :
    match op.onList l with
    | some (x, l') => op.run cfg w = .ok (x, { w with heap := w.heap.set op.on (.vec l') })
    | none => ∃ msg, op.run cfg w = .error (.err msg, w) := by
  have hl' := vecAt_eq.1 hl
  have hset : w.heap.set op.on (.vec l) = w.heap := by
    apply List.ext_getElem?
    intro i
    by_cases h : i = op.on
    · subst h
      rw [List.getElem?_set_self (lt_of_vecAt hl), hl']
    · rw [List.getElem?_set_ne (fun e => h e.symm)]
  cases op with
  | anexa a x =>
      simp only [VecOp.on] at hl'
      simp [VecOp.onList, VecOp.run, callNative, nAnexa, nArg, Res.at, hl', VecOp.on]
  | tam a =>
      simp only [VecOp.on] at hl' hset
      have e := (asI64_bmod l.length).symm
      simp only [VecOp.onList, e]
      simp [VecOp.run, callNative, nTam, nArg, Res.at, hl', VecOp.on, hset]
  | remova a i =>
      simp only [VecOp.on] at hl'
      simp only [VecOp.onList, VecOp.run, callNative, nRemova, nArg, Res.at, VecOp.on, Val.takeInt,
        List.getElem?_cons_zero, List.getElem?_cons_succ, except_bind_ok, if_true, vecIndexCheck, hl']
      by_cases h0 : 0 ≤ i
      · rw [if_pos h0, if_neg (by omega : ¬ i < 0)]
        by_cases h1 : i.toNat < l.length
        · rw [if_neg (by omega)]
          simp [h1, List.eraseIdx_eq_take_drop_succ]
        · rw [if_pos (by omega), List.getElem?_eq_none (by omega)]
          exact ⟨_, rfl⟩
      · rw [if_neg h0, if_pos (by omega : i < 0)]
        exact ⟨_, rfl⟩
  | store a i x =>
      simp only [VecOp.on] at hl'
      simp only [VecOp.onList, VecOp.run, VecOp.on]
      by_cases h : 0 ≤ i ∧ i < l.length
      · rw [if_pos h]
        obtain ⟨n, rfl⟩ := Int.eq_ofNat_of_zero_le h.1
        have h1 : n < l.length := by omega
        have hl2 : vecAt w.heap a = some l := hl
        rw [indexSet_eq hl2 h1]
        simp [List.set_eq_take_append_cons_drop, h1]
      · rw [if_neg h]
        by_cases h0 : i < 0
        · exact ⟨_, by simp only [indexSet, vecIndexCheck, if_pos h0]; rfl⟩
        · have : indexSet w.heap (.vector a) i x = .error (.err (msgIndex l.length i)) := by
            simp only [indexSet, vecIndexCheck, hl', if_neg h0]
            rw [if_pos (by omega)]
            rfl
          exact ⟨_, by rw [this]⟩

omit [FloatOps F] in
theorem onStore_some {σ : Nat → Option (List (Val F))} {op : VecOp F} {l : List (Val F)}
    (h : σ op.on = some l) : onStore σ op = (op.onList l).map fun (x, l') =>
    (x, fun b => if b = op.on then some l' else σ b) := by
  simp [onStore, h]

/-- C21. Any sequence of `anexa`, `remova`, `v[i] = x` and `tam` on any existing vectors gives
the answers and leaves the contents that the same sequence gives on mathematical lists.  It
stops with a reported error exactly when the list operation has no meaning (an index outside
the list).  Storage that is not a vector, output and input are untouched. -/
theorem vectors_are_lists (cfg : Cfg) (ops : List (VecOp F)) (w : World F)
    (hex : ∀ op ∈ ops, (vecAt w.heap op.on).isSome) :
    match onStores (vecAt w.heap) ops with
    | some (xs, σ') => ∃ w', runOps cfg w ops = .ok (xs, w') ∧ vecAt w'.heap = σ' ∧
        w'.out = w.out ∧ w'.inp = w.inp ∧ (∀ b, vecAt w.heap b = none → w'.heap[b]? = w.heap[b]?)
    | none => ∃ msg w', runOps cfg w ops = .error (.err msg, w') := by
  induction ops generalizing w with
  | nil => exact ⟨w, rfl, rfl, rfl, rfl, fun _ _ => rfl⟩
  | cons op ops ih =>
      obtain ⟨l, hl⟩ := Option.isSome_iff_exists.1 (hex op (by simp))
      have hs := vecOp_step cfg w op hl
      simp only [onStores, onStore_some hl]
      cases hop : op.onList l with
      | none =>
          rw [hop] at hs
          obtain ⟨msg, e⟩ := hs
          exact ⟨msg, w, by simp [runOps, e]⟩
      | some p =>
          obtain ⟨x, l'⟩ := p
          rw [hop] at hs
          simp only at hs
          have hv := vecAt_set (l' := l') hl
          have ih := ih { w with heap := w.heap.set op.on (.vec l') } (by
            intro o ho
            simp only [hv]
            by_cases h : o.on = op.on
            · simp [h]
            · simp only [if_neg h]
              exact hex o (by simp [ho]))
          simp only [hv] at ih
          simp only [Option.map_some, Option.bind_some]
          cases hr : onStores (fun b => if b = op.on then some l' else vecAt w.heap b) ops with
          | none =>
              rw [hr] at ih
              obtain ⟨msg, w', e⟩ := ih
              exact ⟨msg, w', by simp [runOps, hs, e]⟩
          | some q =>
              obtain ⟨xs, σ'⟩ := q
              rw [hr] at ih
              obtain ⟨w', e, h1, h2, h3, h4⟩ := ih
              refine ⟨w', by simp [runOps, hs, e], h1, h2, h3, ?_⟩
              intro b hb
              have hne : b ≠ op.on := by
                intro h
                rw [h, hl] at hb
                cases hb
              rw [h4 b (by simp [if_neg hne, hb])]
              exact List.getElem?_set_ne (fun h => hne h.symm)

/-- Append, remove and size on `[10, 20, 30]` while another vector exists. -/
example (cfg : Cfg) : ∃ w', runOps cfg (sampleVM []).world
      [.anexa 0 (.int 40), .remova 0 1, .tam 0, .store 1 0 (.bool true)] =
      .ok ([.none, .int 20, .int 3, .none], w') ∧
    vecAt w'.heap 0 = some [.int 10, .int 30, .int 40] ∧ vecAt w'.heap 1 = some [.bool true] := by
  obtain ⟨w', e, h, _⟩ := vectors_are_lists cfg
    [.anexa 0 (.int 40), .remova 0 1, .tam 0, .store 1 0 (.bool true)] (sampleVM []).world
    (by decide)
  exact ⟨w', e, by rw [h]; decide, by rw [h]; decide⟩

/-! ## C22 -/

/-- The value of a field. -/
def fieldOf (heap : Heap F) (a : Nat) (k : String) : Option (Val F) :=
  (objAt heap a).bind fun (_, st) => st.lookup k

omit [FloatOps F] in
theorem assocGet_lookup (st : List (String × Val F)) (k : String) :
    assocGet st k = st.lookup k := by
  induction st with
  | nil => rfl
  | cons p st ih =>
      obtain ⟨k', v⟩ := p
      simp only [assocGet, List.lookup_cons, ih]
      by_cases h : k' = k
      · simp [h]
      · have : (k == k') = false := by simp; exact fun e => h e.symm
        simp [h, this]

omit [FloatOps F] in
theorem lookup_assocSet (st : List (String × Val F)) (k : String) (v : Val F) (k' : String) :
    (assocSet st k v).lookup k' = if k' = k then some v else st.lookup k' := by
  induction st with
  | nil =>
      simp only [assocSet, List.lookup_cons, List.lookup_nil]
      by_cases h : k' = k
      · simp [h]
      · have : (k' == k) = false := by simp [h]
        simp [h, this]
  | cons p st ih =>
      obtain ⟨k1, v1⟩ := p
      simp only [assocSet]
      by_cases h1 : k1 = k
      · rw [if_pos h1]
        subst h1
        simp only [List.lookup_cons]
        by_cases h : k' = k1
        · simp [h]
        · have : (k' == k1) = false := by simp [h]
          simp [h, this]
      · rw [if_neg h1]
        simp only [List.lookup_cons, ih]
        by_cases h : k' = k1
        · subst h
          simp [h1]
        · have : (k' == k1) = false := by simp [h]
          simp [this]

/-- Names and values as the compiled constructor call leaves them on the stack. -/
def pairsOnStack : List (String × Val F) → List (Val F)
  | [] => []
  | (k, v) :: rest => .str k :: v :: pairsOnStack rest

omit [FloatOps F] in
theorem pairsOnStack_length (ps : List (String × Val F)) :
    (pairsOnStack ps).length = ps.length * 2 := by
  induction ps with
  | nil => rfl
  | cons p ps ih => simp [pairsOnStack, ih]; omega

omit [FloatOps F] in
theorem withFields_lookup (ps st : List (String × Val F)) (hnd : (ps.map Prod.fst).Nodup) :
    ∃ st', withFields (pairsOnStack ps) st = some st' ∧
      (∀ k v, (k, v) ∈ ps → st'.lookup k = some v) ∧
      (∀ k, k ∉ ps.map Prod.fst → st'.lookup k = st.lookup k) := by
  induction ps generalizing st with
  | nil => exact ⟨st, rfl, by simp, fun _ _ => rfl⟩
  | cons p ps ih =>
      obtain ⟨k, v⟩ := p
      simp only [List.map_cons, List.nodup_cons] at hnd
      obtain ⟨st', e, h1, h2⟩ := ih (assocSet st k v) hnd.2
      refine ⟨st', by simp [pairsOnStack, withFields, e], ?_, ?_⟩
      · intro k' v' hm
        rcases List.mem_cons.1 hm with h | h
        · cases h
          rw [h2 k hnd.1, lookup_assocSet, if_pos rfl]
        · exact h1 k' v' h
      · intro k' hk'
        simp only [List.map_cons, List.mem_cons, not_or] at hk'
        rw [h2 k' hk'.2, lookup_assocSet, if_neg hk'.1]

omit [FloatOps F] in
/-- `drain(start..=sp)` of the topmost elements (vm.rs:452, 470, 478). -/
theorem At.drain {vm : VM F} {fr : List AmaFunc} {l a : List (Val F)} {c : ModRef}
    {g : List ((ModRef × String) × Val F)} {w : World F} (h : At vm fr (l ++ a) c g w) {s : Int}
    (hs : s = vm.sp - ((a.length : Int) - 1)) :
    vm.slice s = some a ∧
      At { vm with values := vm.drainRange s, sp := s - 1 } fr l c g w := by
  subst hs
  refine ⟨h.live.slice, h.frames, ?_, h.ctx, h.globals, h.world⟩
  obtain ⟨h1, gb, h2⟩ := h.live
  simp at h1
  refine ⟨by simp; omega, gb, ?_⟩
  have e : (vm.sp - ((a.length : Int) - 1)).toNat = l.length := by omega
  have e' : (vm.sp + 1).toNat = (l ++ a).length := by simp; omega
  simp only [VM.drainRange, e, e', h2]
  rw [List.drop_left]
  simp

section
variable {prog : Program F} {vm : VM F} {f : AmaFunc} {fs : List AmaFunc} {c : ModRef}
  {g : List ((ModRef × String) × Val F)} {w : World F} {base : List (Val F)}

/-- C22, construction. Building a record from different fields gives a new object on the stack
that returns for every field the value given; everything that existed is unchanged. -/
theorem record_build (cfg : Cfg) (m : Module F) (r : Registo) (ps : List (String × Val F))
    (hnd : (ps.map Prod.fst).Nodup)
    (h : At vm (f :: fs) (base ++ pairsOnStack ps ++ [.registo r]) c g w) :
    ∃ vm' cell, exec cfg prog m vm .buildObj [ps.length] = .ok vm' ∧
      At vm' (f.next :: fs) (base ++ [.regobj w.heap.length]) c g { w with heap := w.heap ++ [cell] } ∧
      (∀ k v, (k, v) ∈ ps → fieldOf (w.heap ++ [cell]) w.heap.length k = some v) ∧
      (∀ k, k ∉ ps.map Prod.fst → fieldOf (w.heap ++ [cell]) w.heap.length k = none) := by
  obtain ⟨vm1, e1, h1⟩ := h.pop
  simp only [exec, operand, orPanic, List.getElem?_cons_zero, except_bind_ok, execBuildObj, e1, alloc]
  have hobj : ∀ st, objAt (w.heap ++ [.obj r st]) w.heap.length = some (r, st) := by
    intro st
    rw [objAt_eq]
    simp
  cases ps with
  | nil =>
      simp only [List.length_nil, if_true, h1.world]
      simp only [pairsOnStack, List.append_nil] at h1
      obtain ⟨vm2, e2, h2⟩ := (h1.setWorld { w with heap := w.heap ++ [.obj r []] }).push
        (.regobj w.heap.length)
      obtain ⟨vm3, e3, h3⟩ := h2.advance
      exact ⟨vm3, .obj r [], by simp [e2, e3], h3, by simp, fun k _ => by simp [fieldOf, hobj]⟩
  | cons p ps =>
      obtain ⟨st, es, hs1, hs2⟩ := withFields_lookup (p :: ps) [] hnd
      have hstart : vm1.sp - (((p :: ps).length : Int) * 2 - 1) =
          vm1.sp - (((pairsOnStack (p :: ps)).length : Int) - 1) := by
        rw [pairsOnStack_length]
        omega
      obtain ⟨sl, hd⟩ := h1.drain hstart
      rw [if_neg (by simp)]
      simp only [sl, except_bind_ok, es, h1.world]
      obtain ⟨vm2, e2, h2⟩ := (hd.setWorld { w with heap := w.heap ++ [.obj r st] }).push
        (.regobj w.heap.length)
      obtain ⟨vm3, e3, h3⟩ := h2.advance
      refine ⟨vm3, .obj r st, ?_, h3, ?_, ?_⟩
      · rw [e2]
        exact e3
      · intro k v hm
        simp [fieldOf, hobj, hs1 k v hm]
      · intro k hk
        simp [fieldOf, hobj, hs2 k hk]

/-- C22, reading a field. -/
theorem record_read (cfg : Cfg) (m : Module F) {a : Nat} {k : String} {v : Val F}
    (h : At vm (f :: fs) (base ++ [.regobj a, .str k]) c g w)
    (hk : fieldOf w.heap a k = some v) :
    ∃ vm', exec cfg prog m vm .getProp [] = .ok vm' ∧ At vm' (f.next :: fs) (base ++ [v]) c g w := by
  obtain ⟨vm1, e1, h1⟩ := At.pop (l := base ++ [.regobj a]) (by simpa using h)
  obtain ⟨vm2, e2, h2⟩ := h1.pop
  obtain ⟨⟨r, st⟩, ho, hl⟩ := Option.bind_eq_some_iff.1 hk
  rw [objAt_eq] at ho
  simp only at hl
  obtain ⟨vm3, e3, h3⟩ := h2.push v
  obtain ⟨vm4, e4, h4⟩ := h3.advance
  refine ⟨vm4, ?_, h4⟩
  simp only [exec, execGetProp, e1, e2, except_bind_ok, h2.world, ho, assocGet_lookup, hl, orPanic, e3, e4]

/-- C22, writing a field: that field of that object reads the new value, also through any other
reference to the object (references are cell numbers); all other fields and all other storage
are unchanged. -/
theorem record_write (cfg : Cfg) (m : Module F) {a : Nat} {k : String} {x : Val F}
    (h : At vm (f :: fs) (base ++ [.regobj a, .str k, x]) c g w)
    (ho : (objAt w.heap a).isSome) :
    ∃ vm' heap', exec cfg prog m vm .setProp [] = .ok vm' ∧
      At vm' (f.next :: fs) base c g { w with heap := heap' } ∧
      fieldOf heap' a k = some x ∧ (∀ k', k' ≠ k → fieldOf heap' a k' = fieldOf w.heap a k') ∧
      ∀ b, b ≠ a → heap'[b]? = w.heap[b]? := by
  obtain ⟨vm0, e0, h0⟩ := At.pop (l := base ++ [.regobj a, .str k]) (by simpa using h)
  obtain ⟨vm1, e1, h1⟩ := At.pop (l := base ++ [.regobj a]) (v := .str k) (by simpa using h0)
  obtain ⟨vm2, e2, h2⟩ := h1.pop
  obtain ⟨⟨r, st⟩, ho⟩ := Option.isSome_iff_exists.1 ho
  have ho' := objAt_eq.1 ho
  have hal : a < w.heap.length := by
    rcases Nat.lt_or_ge a w.heap.length with h | h
    · exact h
    · rw [List.getElem?_eq_none h] at ho'; cases ho'
  obtain ⟨vm3, e3, h3⟩ := (h2.setWorld { w with heap := w.heap.set a (.obj r (assocSet st k x)) }).advance
  have hn : objAt (w.heap.set a (.obj r (assocSet st k x))) a = some (r, assocSet st k x) := by
    rw [objAt_eq, List.getElem?_set_self hal]
  refine ⟨vm3, _, ?_, h3, ?_, ?_, ?_⟩
  · simp only [exec, execSetProp, e0, e1, e2, except_bind_ok, h2.world, ho']
    exact e3
  · simp [fieldOf, hn, lookup_assocSet]
  · intro k' hk'
    simp [fieldOf, hn, ho, lookup_assocSet, hk']
  · intro b hb
    exact List.getElem?_set_ne (fun h => hb h.symm)

/-! ## C23 -/

/-- C23, `x.valor`: the value itself unless it is `nulo`, then the null-reference error. -/
theorem option_value (cfg : Cfg) (m : Module F) {o : Val F}
    (h : At vm (f :: fs) (base ++ [o]) c g w) :
    (o ≠ .none → ∃ vm', exec cfg prog m vm .opUnwrap [0] = .ok vm' ∧
      At vm' (f.next :: fs) (base ++ [o]) c g w) ∧
    (o = .none → RaisesAt prog (f :: fs) c g w (exec cfg prog m vm .opUnwrap [0]) msgNullRef) := by
  obtain ⟨vm1, e1, h1⟩ := h.pop
  simp only [exec, operand, orPanic, List.getElem?_cons_zero, except_bind_ok, execUnwrap, e1]
  refine ⟨?_, ?_⟩
  · intro ho
    obtain ⟨vm2, e2, h2⟩ := h1.push o
    obtain ⟨vm3, e3, h3⟩ := h2.advance
    have : o.isNone = false := by cases o <;> simp [Val.isNone] at ho ⊢
    exact ⟨vm3, by simp [this, e2, e3], h3⟩
  · rintro rfl
    exact ⟨vm1, base, by simp [Val.isNone], h1⟩

/-- C23, `x.valor_ou(d)`. -/
theorem option_value_or (cfg : Cfg) (m : Module F) {o d : Val F}
    (h : At vm (f :: fs) (base ++ [o, d]) c g w) :
    ∃ vm' v, exec cfg prog m vm .opUnwrap [1] = .ok vm' ∧
      At vm' (f.next :: fs) (base ++ [v]) c g w ∧ (o ≠ .none → v = o) ∧ (o = .none → v = d) := by
  obtain ⟨vm1, e1, h1⟩ := At.pop (l := base ++ [o]) (by simpa using h)
  obtain ⟨vm2, e2, h2⟩ := h1.pop
  obtain ⟨vm3, e3, h3⟩ := h2.push (if o.isNone then d else o)
  obtain ⟨vm4, e4, h4⟩ := h3.advance
  refine ⟨vm4, _, ?_, h4, ?_, ?_⟩
  · simp [exec, operand, orPanic, execUnwrap, e1, e2, e3, e4]
  · intro ho
    have : o.isNone = false := by cases o <;> simp [Val.isNone] at ho ⊢
    simp [this]
  · rintro rfl
    simp [Val.isNone]

/-- C23, `x == nulo`. -/
theorem option_is_null (cfg : Cfg) (m : Module F) {o : Val F}
    (h : At vm (f :: fs) (base ++ [o]) c g w) :
    ∃ vm' b, exec cfg prog m vm .opIsnull [] = .ok vm' ∧
      At vm' (f.next :: fs) (base ++ [.bool b]) c g w ∧ (b = true ↔ o = .none) := by
  obtain ⟨vm1, e1, h1⟩ := h.pop
  obtain ⟨vm2, e2, h2⟩ := h1.push (.bool o.isNone)
  obtain ⟨vm3, e3, h3⟩ := h2.advance
  refine ⟨vm3, o.isNone, by simp [exec, e1, e2, e3], h3, ?_⟩
  cases o <;> simp [Val.isNone]

end

/-- A record `P(x = 3, y = 4)` is built; its fields read back; writing `x` keeps `y`. -/
example (cfg : Cfg) (prog : Program WholeFloat) (m : Module WholeFloat) :
    ∃ vm' , exec cfg prog m (sampleVM [.int 9, .str "x", .int 3, .str "y", .int 4,
        .registo ⟨"P", ["x", "y"]⟩]) .buildObj [2] = .ok vm' ∧ Live vm' [.int 9, .regobj 2] ∧
      fieldOf vm'.world.heap 2 "x" = some (.int 3) ∧ fieldOf vm'.world.heap 2 "y" = some (.int 4) := by
  obtain ⟨vm', cell, e, h, h1, _⟩ := record_build (prog := prog) (base := [.int 9]) cfg m ⟨"P", ["x", "y"]⟩
    [("x", .int 3), ("y", .int 4)] (by decide) (sampleVM_at _)
  refine ⟨vm', e, h.live, ?_, ?_⟩ <;> rw [h.world]
  · exact h1 "x" (.int 3) (by simp)
  · exact h1 "y" (.int 4) (by simp)

/-- `nulo.valor` raises, `3.valor` is 3, `nulo.valor_ou(7)` is 7. -/
example (cfg : Cfg) (prog : Program WholeFloat) (m : Module WholeFloat) :
    (∃ vm', exec cfg prog m (sampleVM [.none]) .opUnwrap [0] = .error (throwErr prog vm' msgNullRef)) ∧
    (∃ vm', exec cfg prog m (sampleVM [.int 3]) .opUnwrap [0] = .ok vm' ∧ Live vm' [.int 3]) ∧
    (∃ vm', exec cfg prog m (sampleVM [.none, .int 7]) .opUnwrap [1] = .ok vm' ∧ Live vm' [.int 7]) := by
  refine ⟨?_, ?_, ?_⟩
  · obtain ⟨vm', l, e, _⟩ := (option_value (base := []) cfg m (sampleVM_at [.none])).2 rfl
    exact ⟨vm', e⟩
  · obtain ⟨vm', e, h⟩ := (option_value (base := []) cfg m (sampleVM_at [.int 3])).1 (by simp)
    exact ⟨vm', e, h.live⟩
  · obtain ⟨vm', v, e, h, _, hv⟩ := option_value_or (base := []) cfg m (sampleVM_at [.none, .int 7])
    rw [hv rfl] at h
    exact ⟨vm', e, h.live⟩

end Amanda

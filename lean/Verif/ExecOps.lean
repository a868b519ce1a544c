import Verif.ExecIns

/-!
# What each generated instruction does: operators, storage and jumps
-/

namespace Amanda

namespace Compiled

open Source Codegen

variable {F : Type} [FloatOps F]

section
variable {K : Link F} {a : Act F} {lp : Loop} {m : Mode} {vm vm1 vm' : VM F}
  {st : St F} {k : List (Val F)} {ip : Nat} {α : Type}

theorem Here.heap (h : Here K a st vm ip k) : vm.world.heap = st.world.heap := by rw [h.world]

/-- An instruction that computes a value and pushes it. -/
theorem Here.pushRes (hm : CModOk K a.cm) (h : Here K a st vm1 ip k) {r : Res (Val F)}
    (e : step K.cfg K.prog vm = (r.lift K.prog vm1 >>= fun v => vm1.push v >>= fun vm => vm.advance)) :
    Sim K a m lp vm k (Pushed K a (ip + 1)) (M.res r st) := by
  refine Sim.res (fun v hv => ?_) fun msg hr => ?_
  · obtain ⟨vm2, vm3, e2, e3, h3⟩ := h.pushNext v
    exact ⟨vm3, Runs.one (by rw [e, hv]; simp [Res.lift, e2, e3]), h3⟩
  · exact h.throws hm (by rw [e, hr]; rfl)

theorem Here.pushVal (h : Here K a st vm1 ip k) (v : Val F)
    (e : step K.cfg K.prog vm = (vm1.push v >>= fun vm => vm.advance)) :
    ∃ vm', Runs K vm vm' ∧ Here K a st vm' (ip + 1) (k ++ [v]) := by
  obtain ⟨vm2, vm3, e2, e3, h3⟩ := h.pushNext v
  exact ⟨vm3, Runs.one (by rw [e]; simp [e2, e3]), h3⟩

theorem Here.end' {op : Op} {i : Nat} (h : Here K a st vm (i + op.size - 1 + 1) k) : Here K a st vm (i + op.size) k :=
  h.move (size_end _ _)

/-- Instructions with two operands. -/
theorem sim_bin (hm : CModOk K a.cm) {o : Op} {x y : Val F} (hi : InsAt a.cm ip o [])
    (ho : ∀ vm1, exec K.cfg K.prog a.cm.image vm1 o [] = execBin K.prog vm1 o)
    (H : Here K a st vm ip (k ++ [x] ++ [y])) :
    Sim K a m lp vm k (Pushed K a (ip + o.size)) (M.res (binop x o y) st) := by
  obtain ⟨vm1, e1, h1⟩ := H.next hm hi
  obtain ⟨vm2, e2, h2⟩ := h1.pop
  obtain ⟨vm3, e3, h3⟩ := h2.pop
  rw [← size_end o ip]
  refine h3.pushRes hm ?_
  rw [e1, ho]
  simp [execBin, e2, e3]

/-- Instructions with one operand. -/
theorem sim_unary (hm : CModOk K a.cm) {o : Op} {x : Val F} (hi : InsAt a.cm ip o [])
    (ho : ∀ vm1, exec K.cfg K.prog a.cm.image vm1 o [] = execUnary K.cfg vm1 o)
    (H : Here K a st vm ip (k ++ [x])) :
    Sim K a m lp vm k (Pushed K a (ip + o.size)) (M.need (unary K.cfg o x) st) := by
  obtain ⟨vm1, e1, h1⟩ := H.next hm hi
  obtain ⟨vm2, e2, h2⟩ := h1.pop
  rw [← size_end o ip]
  refine Sim.need fun v hv => ?_
  refine h2.pushVal v ?_
  rw [e1, ho]
  simp [execUnary, e2, hv, orPanic]

theorem sim_isnull (hm : CModOk K a.cm) {x : Val F} (hi : InsAt a.cm ip .opIsnull [])
    (H : Here K a st vm ip (k ++ [x])) :
    ∃ vm', Runs K vm vm' ∧ Here K a st vm' (ip + Op.opIsnull.size) (k ++ [.bool x.isNone]) := by
  obtain ⟨vm1, e1, h1⟩ := H.next hm hi
  obtain ⟨vm2, e2, h2⟩ := h1.pop
  rw [← size_end _ ip]
  refine h2.pushVal _ ?_
  rw [e1]
  simp [exec, e2]

theorem sim_not (hm : CModOk K a.cm) {b : Bool} (hi : InsAt a.cm ip .opNot [])
    (H : Here K a st vm ip (k ++ [.bool b])) :
    ∃ vm', Runs K vm vm' ∧ Here K a st vm' (ip + Op.opNot.size) (k ++ [.bool (!b)]) := by
  obtain ⟨vm1, e1, h1⟩ := H.next hm hi
  obtain ⟨vm2, e2, h2⟩ := h1.pop
  rw [← size_end _ ip]
  refine h2.pushVal _ ?_
  rw [e1]
  simp [exec, execUnary, unary, e2, orPanic]

theorem sim_cast0 (hm : CModOk K a.cm) {x : Val F} {t : VTy} (hi : InsAt a.cm ip .cast [0])
    (H : Here K a st vm ip (k ++ [x] ++ [.type t])) :
    Sim K a m lp vm k (Pushed K a (ip + Op.cast.size)) (M.res (castVal st.world.heap x t) st) := by
  obtain ⟨vm1, e1, h1⟩ := H.next hm hi
  obtain ⟨vm2, e2, h2⟩ := h1.pop
  obtain ⟨vm3, e3, h3⟩ := h2.pop
  rw [← size_end _ ip]
  refine h3.pushRes hm ?_
  rw [e1, ← h3.heap]
  simp [exec, execCast, operand_cons, e2, e3, Val.takeType, Res.lift]

theorem sim_cast1 (hm : CModOk K a.cm) {x : Val F} {t : VTy} (hi : InsAt a.cm ip .cast [1])
    (H : Here K a st vm ip (k ++ [x] ++ [.type t])) :
    Sim K a m lp vm k (Pushed K a (ip + Op.cast.size))
      ((do let vt ← M.res x.getType
           if vt = t then pure x else M.fail (msgConversion vt t) : M F (Val F)) st) := by
  obtain ⟨vm1, e1, h1⟩ := H.next hm hi
  obtain ⟨vm2, e2, h2⟩ := h1.pop
  obtain ⟨vm3, e3, h3⟩ := h2.pop
  rw [← size_end _ ip]
  have e4 : exec K.cfg K.prog a.cm.image vm1 .cast [1] = (x.getType.lift K.prog vm3 >>= fun vt =>
      if checkCast vt t then vm3.push x >>= fun vm => vm.advance
      else .error (throwErr K.prog vm3 (msgConversion vt t))) := by
    unfold exec
    simp only [operand_cons, except_bind_ok]
    unfold execCast
    simp only [e2, e3, Val.takeType, except_bind_ok]
    rfl
  cases hr : x.getType with
  | error er =>
      cases er with
      | err msg => exact h3.throws hm (by rw [e1, e4, hr]; exact except_bind_error _ _)
      | panic => trivial
  | ok vt =>
      rw [hr] at e4
      show Sim K a m lp vm k _ ((if vt = t then pure x else M.fail (msgConversion vt t) : M F (Val F)) st)
      by_cases ht : vt = t
      · rw [if_pos ht]
        obtain ⟨vm', r, h'⟩ := h3.pushVal x (vm := vm) (by rw [e1, e4]; simp [Res.lift, checkCast, ht])
        exact Sim.done r h'
      · rw [if_neg ht]
        exact h3.throws hm (by rw [e1, e4]; simp [Res.lift, checkCast, ht])

theorem sim_indexGet (hm : CModOk K a.cm) {x y : Val F} (hi : InsAt a.cm ip .opIndexGet [])
    (H : Here K a st vm ip (k ++ [x] ++ [y])) :
    Sim K a m lp vm k (Pushed K a (ip + Op.opIndexGet.size))
      ((do let i ← asIndex y
           let h ← M.heap
           M.res (indexGet K.cfg h x i) : M F (Val F)) st) := by
  obtain ⟨vm1, e1, h1⟩ := H.next hm hi
  obtain ⟨vm2, e2, h2⟩ := h1.pop
  obtain ⟨vm3, e3, h3⟩ := h2.pop
  rw [← size_end _ ip]
  unfold asIndex
  cases hr : y.takeInt with
  | error er =>
      cases er with
      | err msg => exact h2.throws hm (by rw [e1]; simp [exec, execIndexGet, e2, hr, Res.lift])
      | panic => trivial
  | ok i =>
      show Sim K a m lp vm k _ (M.res (indexGet K.cfg st.world.heap x i) st)
      refine h3.pushRes hm ?_
      rw [e1, ← h3.heap]
      simp [exec, execIndexGet, e2, e3, hr, Res.lift]

/-- Changing the heap. -/
theorem Here.setHeap (h : Here K a st vm ip k) (hp : Heap F) :
    Here K a { st with world := { st.world with heap := hp } } { vm with world := { vm.world with heap := hp } } ip k := by
  rw [h.world]; exact h.setWorld _

theorem sim_indexSet (hm : CModOk K a.cm) {x y v : Val F} (hi : InsAt a.cm ip .opIndexSet [])
    (H : Here K a st vm ip (k ++ [x] ++ [y] ++ [v])) :
    Sim K a m lp vm k (Arrived K a (ip + Op.opIndexSet.size))
      ((do let i ← asIndex y
           let h ← M.heap
           let h ← M.res (indexSet h x i v)
           M.setHeap h
           pure v : M F (Val F)) st) := by
  obtain ⟨vm1, e1, h1⟩ := H.next hm hi
  obtain ⟨vm2, e2, h2⟩ := h1.pop
  obtain ⟨vm3, e3, h3⟩ := h2.pop
  obtain ⟨vm4, e4, h4⟩ := h3.pop
  rw [← size_end _ ip]
  unfold asIndex
  cases hr : y.takeInt with
  | error er =>
      cases er with
      | err msg => exact h3.throws hm (by rw [e1]; simp [exec, execIndexSet, e2, e3, hr, Res.lift])
      | panic => trivial
  | ok i =>
      show Sim K a m lp vm k _ ((do
        let h ← M.res (indexSet st.world.heap x i v); M.setHeap h; pure v : M F (Val F)) st)
      cases hs : indexSet st.world.heap x i v with
      | error er =>
          cases er with
          | err msg =>
              exact h4.throws hm (by rw [e1]; simp [exec, execIndexSet, e2, e3, e4, hr, h4.heap, hs, Res.lift])
          | panic => trivial
      | ok hp =>
          obtain ⟨vm5, e5, h5⟩ := (h4.setHeap hp).advance
          refine Sim.runs (Runs.one ?_) (Sim.pure h5)
          rw [e1]
          simp [exec, execIndexSet, e2, e3, e4, hr, h4.heap, hs, Res.lift]
          exact e5

theorem sim_getProp (hm : CModOk K a.cm) {o : Val F} {n : String} (hi : InsAt a.cm ip .getProp [])
    (H : Here K a st vm ip (k ++ [o] ++ [.str n])) :
    Sim K a m lp vm k (Pushed K a (ip + Op.getProp.size)) (readField o n st) := by
  obtain ⟨vm1, e1, h1⟩ := H.next hm hi
  obtain ⟨vm2, e2, h2⟩ := h1.pop
  obtain ⟨vm3, e3, h3⟩ := h2.pop
  rw [← size_end _ ip]
  cases o with
  | regobj c =>
      unfold readField
      show Sim K a m lp vm k _ ((match st.world.heap[c]? with
        | some (.obj _ fs) => M.need (assocGet fs n)
        | _ => M.stuck : M F (Val F)) st)
      cases hc : st.world.heap[c]? with
      | none => trivial
      | some cell =>
          cases cell with
          | obj reg fs =>
              refine Sim.need fun v hv => h3.pushVal v ?_
              rw [e1]
              simp [exec, execGetProp, e2, e3, h3.heap, hc, hv, orPanic]
          | _ => trivial
  | _ => trivial

theorem sim_setProp (hm : CModOk K a.cm) {o v : Val F} {n : String} (hi : InsAt a.cm ip .setProp [])
    (H : Here K a st vm ip (k ++ [o] ++ [.str n] ++ [v])) :
    Sim K a m lp vm k (Arrived K a (ip + Op.setProp.size)) (writeField o n v st) := by
  obtain ⟨vm1, e1, h1⟩ := H.next hm hi
  obtain ⟨vm2, e2, h2⟩ := h1.pop
  obtain ⟨vm3, e3, h3⟩ := h2.pop
  obtain ⟨vm4, e4, h4⟩ := h3.pop
  rw [← size_end _ ip]
  cases o with
  | regobj c =>
      unfold writeField
      show Sim K a m lp vm k _ ((match st.world.heap[c]? with
        | some (.obj reg fs) => M.setHeap (st.world.heap.set c (.obj reg (assocSet fs n v)))
        | _ => M.stuck : M F Unit) st)
      cases hc : st.world.heap[c]? with
      | none => trivial
      | some cell =>
          cases cell with
          | obj reg fs =>
              obtain ⟨vm5, e5, h5⟩ := (h4.setHeap (st.world.heap.set c (.obj reg (assocSet fs n v)))).advance
              refine Sim.runs (Runs.one ?_) (Sim.pure h5)
              rw [e1]
              simp [exec, execSetProp, e2, e3, e4, h4.heap, hc]
              exact e5
          | _ => trivial
  | _ => trivial

theorem sim_unwrap0 (hm : CModOk K a.cm) {v : Val F} (hi : InsAt a.cm ip .opUnwrap [0])
    (H : Here K a st vm ip (k ++ [v])) :
    Sim K a m lp vm k (Pushed K a (ip + Op.opUnwrap.size))
      ((if v.isNone then M.fail msgNullRef else pure v : M F (Val F)) st) := by
  obtain ⟨vm1, e1, h1⟩ := H.next hm hi
  obtain ⟨vm2, e2, h2⟩ := h1.pop
  rw [← size_end _ ip]
  by_cases hv : v.isNone = true
  · rw [if_pos hv]
    refine h2.throws hm ?_
    rw [e1]
    simp [exec, execUnwrap, operand_cons, e2, hv]
  · rw [if_neg hv]
    obtain ⟨vm', r, h'⟩ := h2.pushVal v (vm := vm) (by rw [e1]; simp [exec, execUnwrap, operand_cons, e2, hv])
    exact Sim.done r h'

theorem sim_unwrap1 (hm : CModOk K a.cm) {v w : Val F} (hi : InsAt a.cm ip .opUnwrap [1])
    (H : Here K a st vm ip (k ++ [v] ++ [w])) :
    ∃ vm', Runs K vm vm' ∧ Here K a st vm' (ip + Op.opUnwrap.size) (k ++ [if v.isNone then w else v]) := by
  obtain ⟨vm1, e1, h1⟩ := H.next hm hi
  obtain ⟨vm2, e2, h2⟩ := h1.pop
  obtain ⟨vm3, e3, h3⟩ := h2.pop
  rw [← size_end _ ip]
  refine h3.pushVal _ ?_
  rw [e1]
  simp [exec, execUnwrap, operand_cons, e2, e3]

theorem sim_mostra (hm : CModOk K a.cm) {v : Val F} (hi : InsAt a.cm ip .mostra [])
    (H : Here K a st vm ip (k ++ [v])) :
    Sim K a m lp vm k (Arrived K a (ip + Op.mostra.size))
      ((do let s ← M.res (displayVal st.world.heap v)
           fun st => .done (none : Option (Val F)) { st with world := { st.world with out := st.world.out ++ s ++ "\n" } } :
        M F (Option (Val F))) st) := by
  obtain ⟨vm1, e1, h1⟩ := H.next hm hi
  obtain ⟨vm2, e2, h2⟩ := h1.pop
  rw [← size_end _ ip]
  cases hs : displayVal st.world.heap v with
  | error er =>
      cases er with
      | err msg => exact h2.throws hm (by rw [e1]; simp [exec, e2, h2.heap, hs, Res.lift])
      | panic => trivial
  | ok s =>
      obtain ⟨vm5, e5, h5⟩ := (h2.setWorld { st.world with out := st.world.out ++ s ++ "\n" }).advance
      refine Sim.runs (Runs.one ?_) (Sim.pure h5)
      rw [e1]
      simp [exec, e2, h2.heap, hs, Res.lift]
      rw [h2.world]
      exact e5

/-! ## Jumps -/

theorem sim_jump (hm : CModOk K a.cm) {x : Nat} (hi : InsAt a.cm ip .jump [x]) (H : Here K a st vm ip k) :
    ∃ vm', Runs K vm vm' ∧ Here K a st vm' x k := by
  obtain ⟨vm1, e1, h1⟩ := H.next hm hi
  obtain ⟨f, fs, hf, h2⟩ := h1.jump x
  refine ⟨_, Runs.one ?_, h2⟩
  rw [e1]
  simp [exec, operand_cons, hf]

theorem step_jumpIfFalse (hm : CModOk K a.cm) {x : Nat} {b : Bool} (hi : InsAt a.cm ip .jumpIfFalse [x])
    (H : Here K a st vm ip (k ++ [.bool b])) :
    ∃ vm', step K.cfg K.prog vm = .ok vm' ∧ Here K a st vm' (if b then ip + Op.jumpIfFalse.size else x) k := by
  obtain ⟨vm1, e1, h1⟩ := H.next hm hi
  obtain ⟨vm2, e2, h2⟩ := h1.pop
  cases b with
  | true =>
      obtain ⟨vm3, e3, h3⟩ := h2.advance
      refine ⟨vm3, ?_, h3.move (size_end _ _)⟩
      rw [e1]
      simp [exec, operand_cons, e2, e3]
  | false =>
      obtain ⟨f, fs, hf, h3⟩ := h2.jump x
      refine ⟨_, ?_, h3⟩
      rw [e1]
      simp [exec, operand_cons, e2, hf]

theorem sim_jumpIfFalse (hm : CModOk K a.cm) {x : Nat} {b : Bool} (hi : InsAt a.cm ip .jumpIfFalse [x])
    (H : Here K a st vm ip (k ++ [.bool b])) :
    ∃ vm', Runs K vm vm' ∧ Here K a st vm' (if b then ip + Op.jumpIfFalse.size else x) k := by
  obtain ⟨vm', e, h⟩ := step_jumpIfFalse hm hi H
  exact ⟨vm', .one e, h⟩

/-- `truth` and the conditional jump: the machine only looks at `falso`. -/
theorem sim_branch (hm : CModOk K a.cm) {x : Nat} {v : Val F} (hi : InsAt a.cm ip .jumpIfFalse [x])
    (H : Here K a st vm ip (k ++ [v])) :
    Sim K a m lp vm k (fun b st vm' k => Here K a st vm' (if b then ip + Op.jumpIfFalse.size else x) k)
      (truth v st) := by
  cases v with
  | bool b =>
      obtain ⟨vm', r, h'⟩ := sim_jumpIfFalse hm hi H
      exact Sim.done r h'
  | _ => trivial

/-- The test at the beginning of a round of a loop. -/
theorem sim_test {α : Type} {P : α → St F → VM F → List (Val F) → Prop} (hm : CModOk K a.cm) {x : Nat} {v : Val F}
    (hi : InsAt a.cm ip .jumpIfFalse [x]) (H : Here K a st vm ip (k ++ [v])) {yes no : M F α}
    (h1 : ∀ vm', Here K a st vm' (ip + Op.jumpIfFalse.size) k → Sim K a m lp vm' k P (yes st))
    (h2 : ∀ vm', Here K a st vm' x k → Sim K a m lp vm' k P (no st)) :
    Sim K a m lp vm k P ((truth v >>= fun b => if b then fun st => (yes st).tick else no) st) := by
  cases v with
  | bool b =>
      obtain ⟨vm', e, h'⟩ := step_jumpIfFalse hm hi H
      cases b with
      | true => exact Sim.tick ⟨vm', e, .refl _⟩ (h1 vm' h')
      | false => exact Sim.runs (.one e) (h2 vm' h')
  | _ => trivial

/-! ## New storage -/

/-- Several values off the stack. -/
theorem Here.slice {vs : List (Val F)} (h : Here K a st vm ip (k ++ vs)) :
    vm.slice (vm.sp - ((vs.length : Int) - 1)) = some vs := by
  obtain ⟨⟨last, slots, hat, h1, h2⟩, hg⟩ := h
  rw [← List.append_assoc] at hat
  exact hat.live.slice

theorem Here.drop {vs : List (Val F)} (h : Here K a st vm ip (k ++ vs)) :
    Here K a st { vm with sp := vm.sp - (vs.length : Int) } ip k := by
  obtain ⟨⟨last, slots, hat, h1, h2⟩, hg⟩ := h
  rw [← List.append_assoc] at hat
  exact ⟨⟨last, slots, ⟨hat.frames, hat.live.drop, hat.ctx, rfl, hat.world⟩, h1, h2⟩, hg⟩

theorem Here.dropAbove (h : Here K a st vm ip k) :
    ∃ vm', vm.dropAbove = .ok vm' ∧ Here K a st vm' ip k := by
  obtain ⟨⟨last, slots, hat, h1, h2⟩, hg⟩ := h
  obtain ⟨e, hl⟩ := hat.live.dropAbove
  exact ⟨_, e, ⟨last, slots, ⟨hat.frames, hl, hat.ctx, rfl, hat.world⟩, h1, h2⟩, hg⟩

omit [FloatOps F] in
theorem Live.drain {vm : VM F} {l a : List (Val F)} (h : Live vm (l ++ a)) :
    Live { vm with values := vm.drainRange (vm.sp - ((a.length : Int) - 1)),
                   sp := vm.sp - ((a.length : Int) - 1) - 1 } l := by
  obtain ⟨h1, g, h2⟩ := h
  simp at h1
  refine ⟨by simp; omega, g, ?_⟩
  have e1 : (vm.sp - ((a.length : Int) - 1)).toNat = l.length := by omega
  have e2 : (vm.sp + 1).toNat = (l ++ a).length := by simp; omega
  simp only [VM.drainRange, e1, e2, h2]
  rw [List.drop_left, List.append_assoc, List.take_left]

theorem Here.drain {vs : List (Val F)} (h : Here K a st vm ip (k ++ vs)) :
    Here K a st { vm with values := vm.drainRange (vm.sp - ((vs.length : Int) - 1)),
                          sp := vm.sp - ((vs.length : Int) - 1) - 1 } ip k := by
  obtain ⟨⟨last, slots, hat, h1, h2⟩, hg⟩ := h
  rw [← List.append_assoc] at hat
  exact ⟨⟨last, slots, ⟨hat.frames, Live.drain hat.live, hat.ctx, rfl, hat.world⟩, h1, h2⟩, hg⟩

/-- The first of `vs` is not at the bottom of the stack. -/
theorem Here.start (ha : ActOk K a) {vs : List (Val F)} (h : Here K a st vm ip (k ++ vs)) :
    vm.sp - ((vs.length : Int) - 1) ≠ 0 := by
  obtain ⟨⟨last, slots, hat, h1, h2⟩, hg⟩ := h
  have h3 := hat.live.sp
  have h4 := ha.room
  simp only [List.length_append] at h3
  omega

theorem sim_buildStr (hm : CModOk K a.cm) {vs : List (Val F)} (hi : InsAt a.cm ip .buildStr [vs.length])
    (H : Here K a st vm ip (k ++ vs)) :
    Sim K a m lp vm k (Pushed K a (ip + Op.buildStr.size))
      ((do let ss ← M.res (vs.mapM (displayVal st.world.heap)); pure (.str (String.join ss)) : M F (Val F)) st) := by
  obtain ⟨vm1, e1, h1⟩ := H.next hm hi
  rw [← size_end _ ip]
  cases hs : vs.mapM (displayVal st.world.heap) with
  | error er =>
      cases er with
      | err msg =>
          refine h1.throws hm ?_
          rw [e1]
          simp [exec, execBuildStr, operand_cons, h1.slice, orPanic, h1.heap, hs, Res.lift]
      | panic => trivial
  | ok ss =>
      obtain ⟨vm2, e2, h2⟩ := h1.drop.dropAbove
      obtain ⟨vm3, r, h3⟩ := h2.pushVal (.str (String.join ss)) (vm := vm) (by
        rw [e1]
        have : vm1.sp - ((vs.length : Int) - 1) - 1 = vm1.sp - (vs.length : Int) := by omega
        simp [exec, execBuildStr, operand_cons, h1.slice, orPanic, h1.heap, hs, Res.lift, this, e2])
      exact Sim.done r h3

theorem sim_buildVec (hm : CModOk K a.cm) {vs : List (Val F)} (hi : InsAt a.cm ip .buildVec [vs.length])
    (H : Here K a st vm ip (k ++ vs)) :
    Sim K a m lp vm k (Pushed K a (ip + Op.buildVec.size))
      ((do let c ← M.alloc (.vec vs); pure (.vector c) : M F (Val F)) st) := by
  obtain ⟨vm1, e1, h1⟩ := H.next hm hi
  rw [← size_end _ ip]
  show Sim K a m lp vm k _ (Out.done (Val.vector st.world.heap.length) { st with world := { st.world with heap := st.world.heap ++ [.vec vs] } })
  by_cases hn : vs.length = 0
  · have hvs : vs = [] := List.length_eq_zero_iff.1 hn
    subst hvs
    rw [List.append_nil] at h1
    obtain ⟨vm2, r, h2⟩ := (h1.setHeap (st.world.heap ++ [.vec []])).pushVal (.vector st.world.heap.length) (vm := vm) (by
      rw [e1]
      simp [exec, execBuildVec, operand_cons, alloc, h1.heap])
    exact Sim.done r h2
  · obtain ⟨vm2, e2, h2⟩ := (h1.drop.setHeap (st.world.heap ++ [.vec vs])).push (.vector st.world.heap.length)
    obtain ⟨vm3, e3, h3⟩ := h2.dropAbove
    obtain ⟨vm4, e4, h4⟩ := h3.advance
    refine Sim.done (Runs.one ?_) h4
    rw [e1]
    have : vm1.sp - ((vs.length : Int) - 1) - 1 = vm1.sp - (vs.length : Int) := by omega
    simp [exec, execBuildVec, operand_cons, alloc, h1.slice, orPanic, hn, this]
    simp only [h1.heap]
    simp [e2, e3, e4]

/-- What named arguments leave on the stack. -/
def fieldStack : List (String × Val F) → List (Val F)
  | [] => []
  | (n, v) :: rest => .str n :: v :: fieldStack rest

omit [FloatOps F] in
theorem fieldStack_length (fs : List (String × Val F)) : (fieldStack fs).length = fs.length * 2 := by
  induction fs with
  | nil => rfl
  | cons p fs ih => obtain ⟨n, v⟩ := p; simp [fieldStack, ih]; omega

omit [FloatOps F] in
theorem withFields_stack (fs st : List (String × Val F)) :
    withFields (fieldStack fs) st = some (recordFields fs st) := by
  induction fs generalizing st with
  | nil => rfl
  | cons p fs ih => obtain ⟨n, v⟩ := p; simp [fieldStack, withFields, recordFields, ih]

theorem sim_buildObj (hm : CModOk K a.cm) {fs : List (String × Val F)} {reg : Registo}
    (hi : InsAt a.cm ip .buildObj [fs.length])
    (H : Here K a st vm ip (k ++ fieldStack fs ++ [.registo reg])) :
    Sim K a m lp vm k (Pushed K a (ip + Op.buildObj.size))
      ((do let c ← M.alloc (.obj reg (recordFields fs [])); pure (.regobj c) : M F (Val F)) st) := by
  obtain ⟨vm1, e1, h1⟩ := H.next hm hi
  obtain ⟨vm2, e2, h2⟩ := h1.pop
  rw [← size_end _ ip]
  show Sim K a m lp vm k _ (Out.done (Val.regobj st.world.heap.length) { st with world := { st.world with heap := st.world.heap ++ [.obj reg (recordFields fs [])] } })
  by_cases hn : fs.length = 0
  · have hvs : fs = [] := List.length_eq_zero_iff.1 hn
    subst hvs
    simp only [fieldStack, List.append_nil] at h2
    obtain ⟨vm3, r, h3⟩ := (h2.setHeap (st.world.heap ++ [.obj reg []])).pushVal (.regobj st.world.heap.length) (vm := vm) (by
      rw [e1]
      simp [exec, execBuildObj, operand_cons, alloc, e2, h2.heap])
    exact Sim.done r h3
  · have hl := fieldStack_length fs
    obtain ⟨vm3, r, h3⟩ := (h2.drain.setHeap (st.world.heap ++ [.obj reg (recordFields fs [])])).pushVal
      (.regobj st.world.heap.length) (vm := vm) (by
      rw [e1]
      have hsl := h2.slice
      rw [hl] at hsl ⊢
      simp only [Int.natCast_mul, Int.cast_ofNat_Int] at hsl ⊢
      simp [exec, execBuildObj, operand_cons, alloc, e2, hn, hsl, orPanic, withFields_stack, h2.heap])
    exact Sim.done r h3

theorem sim_buildVariant (ha : ActOk K a) {vs : List (Val F)} {tag : Nat} (ht : InI64 tag)
    (hi : InsAt a.cm ip .buildVariant [vs.length])
    (H : Here K a st vm ip (k ++ vs ++ [.int tag])) :
    Sim K a m lp vm k (Pushed K a (ip + Op.buildVariant.size))
      ((if vs.isEmpty then pure (.variant tag none)
        else do let c ← M.alloc (.payload vs); pure (.variant tag (some c)) : M F (Val F)) st) := by
  obtain ⟨vm1, e1, h1⟩ := H.next ha.mod hi
  obtain ⟨vm2, e2, h2⟩ := h1.pop
  rw [← size_end _ ip]
  have htag : ((tag : Int) % 2 ^ 64).toNat = tag := by
    have := ht.2
    omega
  by_cases hn : vs.length = 0
  · have hvs : vs = [] := List.length_eq_zero_iff.1 hn
    subst hvs
    simp only [List.append_nil] at h2
    obtain ⟨vm3, r, h3⟩ := h2.pushVal (.variant tag none) (vm := vm) (by
      rw [e1]
      simp [exec, execBuildVariant, operand_cons, e2, Val.takeInt, Res.lift]
      rw [show (18446744073709551616 : Int) = 2 ^ 64 from rfl, htag])
    exact Sim.done r h3
  · have hne : vs.isEmpty = false := by cases vs <;> simp_all
    rw [hne]
    show Sim K a m lp vm k _ (Out.done (Val.variant tag (some st.world.heap.length)) { st with world := { st.world with heap := st.world.heap ++ [.payload vs] } })
    obtain ⟨vm3, r, h3⟩ := (h2.drain.setHeap (st.world.heap ++ [.payload vs])).pushVal
      (.variant tag (some st.world.heap.length)) (vm := vm) (by
      rw [e1]
      simp [exec, execBuildVariant, operand_cons, e2, Val.takeInt, Res.lift, hn, h2.slice, orPanic, alloc,
        h2.start ha]
      rw [show (18446744073709551616 : Int) = 2 ^ 64 from rfl, htag]
      simp only [h2.heap])
    exact Sim.done r h3

theorem sim_matchVariant (hm : CModOk K a.cm) {v : Val F} {tag : Nat} (hi : InsAt a.cm ip .matchVariant [tag])
    (H : Here K a st vm ip (k ++ [v])) :
    Sim K a m lp vm k (fun b st vm k => Here K a st vm (ip + Op.matchVariant.size) (k ++ [.bool b]))
      ((do let t ← M.need (variantNum v); pure (decide (tag = t)) : M F Bool) st) := by
  obtain ⟨vm1, e1, h1⟩ := H.next hm hi
  obtain ⟨vm2, e2, h2⟩ := h1.pop
  rw [← size_end _ ip]
  cases v with
  | variant t c =>
      obtain ⟨vm3, r, h3⟩ := h2.pushVal (.bool (decide (tag = t))) (vm := vm) (by
        rw [e1]
        simp [exec, operand_cons, e2])
      exact Sim.done r h3
  | _ => trivial

theorem sim_loadRegisto (hm : CModOk K a.cm) {i : Nat} {r : Registo} (hi : InsAt a.cm ip .loadRegisto [i])
    (hr : a.cm.image.registos[i]? = some r) (H : Here K a st vm ip k) :
    ∃ vm', Runs K vm vm' ∧ Here K a st vm' (ip + Op.loadRegisto.size) (k ++ [.registo r]) := by
  obtain ⟨vm1, e1, h1⟩ := H.next hm hi
  rw [← size_end _ ip]
  refine h1.pushVal _ ?_
  rw [e1]
  simp [exec, operand_cons, hr, orPanic]

/-- A call of a function of the standard library. -/
theorem sim_native (hm : CModOk K a.cm) {vs : List (Val F)} {f : Val F} (hf : ∀ g, f ≠ .func g)
    (hi : InsAt a.cm ip .callFunction [vs.length]) (H : Here K a st vm ip (k ++ vs ++ [f])) :
    Sim K a m lp vm k (Pushed K a (ip + Op.callFunction.size)) (callLibrary K.cfg f vs st) := by
  obtain ⟨vm1, e1, h1⟩ := H.next hm hi
  obtain ⟨vm2, e2, h2⟩ := h1.pop
  rw [← size_end _ ip]
  cases f with
  | nativeFn mo name =>
      have e3 : ∃ vm3, nativeArgs vm2 vs.length = .ok (vs, vm3) ∧ Here K a st vm3 (ip + Op.callFunction.size - 1) k := by
        unfold nativeArgs
        by_cases hn : vs.length > 0
        · refine ⟨_, ?_, h2.drop⟩
          rw [if_pos hn]
          have : vm2.sp - ((vs.length : Int) - 1) - 1 = vm2.sp - (vs.length : Int) := by omega
          simp [h2.slice, orPanic, this]
        · have hvs : vs = [] := List.length_eq_zero_iff.1 (by omega)
          subst hvs
          refine ⟨vm2, rfl, by simpa using h2⟩
      obtain ⟨vm3, e3, h3⟩ := e3
      unfold callLibrary
      dsimp only
      cases hc : callNative K.cfg mo name vs st.world with
      | ok p =>
          obtain ⟨v, w⟩ := p
          obtain ⟨vm4, e5, h4⟩ := (h3.setWorld w).push v
          obtain ⟨vm5, e6, h5⟩ := h4.dropAbove
          obtain ⟨vm6, e7, h6⟩ := h5.advance
          refine Sim.done (x := v) (Runs.one ?_) h6
          rw [e1]
          simp only [exec, execCall, operand_cons, e2, except_bind_ok, callNativeFn, e3, h3.world, hc, e5, e6, e7]
      | error p =>
          obtain ⟨er, w⟩ := p
          cases er with
          | err msg =>
              refine (h3.setWorld w).throws hm ?_
              rw [e1]
              simp only [exec, execCall, operand_cons, e2, except_bind_ok, callNativeFn, e3, h3.world, hc]
          | panic => trivial
  | func g => exact absurd rfl (hf g)
  | _ => trivial

end

end Compiled

end Amanda

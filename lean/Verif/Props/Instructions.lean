import Verif.Opcode

/-!
# C04, C05, C09 (encoding part): instructions

Specification: an instruction is its operation and its operand values; the bytes at
its position must decode to exactly these.
-/

namespace Amanda

/-! ## C05: the two opcode tables agree -/

/-- The list `Op.all` is complete, so statements checked over it are statements
about every operation. -/
theorem Op.mem_all (op : Op) : op ∈ Op.all := by cases op <;> decide

/-- **C05.** Compiler and VM agree on the whole table: each emitted number is
understood as the same operation, each understood byte is the number of that
operation, the operand widths the VM fetches make up the size the compiler
reserves, numbers are unique and every other byte is refused. -/
theorem opcode_tables_agree :
    (∀ op : Op, op.value < 256 ∧ opOfByte (UInt8.ofNat op.value) = some op) ∧
    (∀ (b : UInt8) (op : Op), opOfByte b = some op → op.value = b.toNat) ∧
    (∀ op : Op, 1 + (vmOperands op).sum = op.size) ∧
    (∀ op op' : Op, op.value = op'.value → op = op') ∧
    (∀ b : UInt8, opOfByte b = none ↔ 42 ≤ b.toNat ∧ b.toNat < 255) := by
  have hb : ∀ n : Fin 256, ∀ op ∈ Op.all, opOfByte (UInt8.ofNat n) = some op →
      op.value = n.val := by decide +kernel
  have hn : ∀ n : Fin 256, opOfByte (UInt8.ofNat n) = none ↔ 42 ≤ n.val ∧ n.val < 255 := by
    decide +kernel
  refine ⟨?_, ?_, ?_, ?_, ?_⟩
  · intro op; cases op <;> decide
  · intro b op h
    have := hb ⟨b.toNat, b.toNat_lt⟩ op (Op.mem_all op)
    simp only [UInt8.ofNat_toNat] at this
    exact this h
  · intro op; cases op <;> decide
  · intro op op' h
    have h1 : opOfByte (UInt8.ofNat op.value) = some op := by cases op <;> decide
    have h2 : opOfByte (UInt8.ofNat op'.value) = some op' := by cases op' <;> decide
    rw [h, h2] at h1
    exact (Option.some.inj h1).symm
  · intro b
    have := hn ⟨b.toNat, b.toNat_lt⟩
    simpa only [UInt8.ofNat_toNat] using this

/-! ## C04: round trip -/

theorem beBytes_length (k n : Nat) : (beBytes k n).length = k := by
  induction k with
  | zero => rfl
  | succ k ih => simp [beBytes, ih]

theorem beNat_foldl (bs : Bytes) (acc : Nat) :
    bs.foldl (fun acc b => acc * 256 + b.toNat) acc = acc * 256 ^ bs.length + beNat bs := by
  induction bs generalizing acc with
  | nil => simp [beNat]
  | cons b bs ih =>
    simp only [List.foldl_cons, List.length_cons, beNat]
    rw [ih, ih (0 * 256 + b.toNat), Nat.pow_succ, Nat.add_mul, Nat.mul_assoc,
      Nat.mul_comm (256 ^ bs.length) 256]
    simp [Nat.add_assoc]

theorem beNat_cons (b : UInt8) (bs : Bytes) :
    beNat (b :: bs) = b.toNat * 256 ^ bs.length + beNat bs := by
  unfold beNat
  rw [List.foldl_cons, beNat_foldl]; simp [beNat]

theorem beNat_beBytes (k n : Nat) : beNat (beBytes k n) = n % 256 ^ k := by
  induction k with
  | zero => simp [beBytes, beNat, Nat.mod_one]
  | succ k ih =>
    rw [beBytes, beNat_cons, beBytes_length, ih, UInt8.toNat_ofNat']
    rw [Nat.pow_succ 256 k, Nat.mod_mul]
    simp [Nat.mul_comm, Nat.add_comm]

theorem getBytes_append (pre bs post : Bytes) (x : UInt8) :
    getBytes (pre ++ x :: bs ++ post) bs.length pre.length =
      some (bs, pre.length + bs.length) := by
  induction bs generalizing pre x with
  | nil => rfl
  | cons b bs ih =>
    simp only [List.length_cons, getBytes]
    have h1 : (pre ++ x :: (b :: bs) ++ post)[pre.length + 1]? = some b := by simp
    have h2 : pre ++ x :: (b :: bs) ++ post = (pre ++ [x]) ++ b :: bs ++ post := by simp
    have h3 := ih (pre ++ [x]) b
    rw [List.length_append, List.length_singleton] at h3
    rw [h1, h2, h3]
    simp; omega

/-- Bytes of a list of operands with given widths. -/
def operandBytes : List Nat → List Nat → Bytes
  | w :: ws, a :: as => beBytes w a ++ operandBytes ws as
  | _, _ => []

/-- Operand values as the widths allow them: the low bytes of each. -/
def truncated : List Nat → List Nat → List Nat
  | w :: ws, a :: as => a % 256 ^ w :: truncated ws as
  | _, _ => []

theorem getOperands_append (ws as : List Nat) (hlen : as.length = ws.length) (pre post : Bytes)
    (x : UInt8) :
    getOperands (pre ++ x :: operandBytes ws as ++ post) ws pre.length =
      some (truncated ws as, pre.length + (operandBytes ws as).length) := by
  induction ws generalizing as pre x with
  | nil => cases as <;> simp_all [getOperands, truncated, operandBytes]
  | cons w ws ih =>
    cases as with
    | nil => simp at hlen
    | cons a as =>
      simp only [getOperands, operandBytes, truncated]
      have e1 : pre ++ x :: (beBytes w a ++ operandBytes ws as) ++ post =
          pre ++ x :: beBytes w a ++ (operandBytes ws as ++ post) := by simp
      have h1 := getBytes_append pre (beBytes w a) (operandBytes ws as ++ post) x
      rw [beBytes_length] at h1
      rw [e1, h1]
      simp only [Option.bind_eq_bind, Option.bind_some]
      -- split off the last byte in front of the remaining operands
      have hl : (pre ++ x :: beBytes w a).length = pre.length + w + 1 := by
        simp [beBytes_length]; omega
      have hne : pre ++ x :: beBytes w a ≠ [] := by simp
      have e2 : pre ++ x :: beBytes w a ++ (operandBytes ws as ++ post) =
          (pre ++ x :: beBytes w a).dropLast ++
            (pre ++ x :: beBytes w a).getLast hne :: operandBytes ws as ++ post := by
        conv => lhs; rw [← List.dropLast_concat_getLast hne]
        simp
      have h2 := ih as (by simpa using hlen) (pre ++ x :: beBytes w a).dropLast
        ((pre ++ x :: beBytes w a).getLast hne)
      rw [List.length_dropLast, hl, Nat.add_sub_cancel] at h2
      rw [e2, h2]
      simp [beNat_beBytes, beBytes_length]; omega

/-- Operand values with jump labels replaced by their addresses. -/
def resolvedArgs (labels : List Nat) (ins : Ins) : List Nat :=
  if ins.op = .jumpIfFalse ∨ ins.op = .jump then (ins.args.map fun l => labels.getD l 0)
  else ins.args

theorem formatU16_eq (a : Nat) : formatU16 a = beBytes 2 a := by
  simp only [formatU16, beBytes, Nat.pow_one, Nat.pow_zero, Nat.div_one]
  have h1 : UInt8.ofNat (a % 65536 / 256) = UInt8.ofNat (a / 256) := by
    apply UInt8.toNat_inj.mp; simp only [UInt8.toNat_ofNat']; omega
  have h2 : UInt8.ofNat (a % 256) = UInt8.ofNat a := by
    apply UInt8.toNat_inj.mp; simp only [UInt8.toNat_ofNat']; omega
  rw [h1, h2]

theorem argAt_ok {args : List Nat} {i a : Nat} (h : argAt args i = .ok a) : args[i]? = some a := by
  unfold argAt at h
  split at h
  · cases h; assumption
  · cases h

theorem argAt_of {args : List Nat} {i a : Nat} (h : args[i]? = some a) : argAt args i = .ok a := by
  simp [argAt, h]

/-- What the encoder writes: the opcode byte and each operand in its width. -/
theorem writeOpBytes_ok {labels : List Nat} {ins : Ins} {b : Bytes}
    (h : writeOpBytes labels ins = .ok b)
    (hlen : ins.args.length = (vmOperands ins.op).length) :
    b = UInt8.ofNat ins.op.value :: operandBytes (vmOperands ins.op) (resolvedArgs labels ins) ∧
    (ins.op.size ≠ 3 → ∀ p ∈ (vmOperands ins.op).zip (resolvedArgs labels ins), p.2 < 256 ^ p.1) := by
  obtain ⟨op, args⟩ := ins
  simp only [writeOpBytes, except_bind_eq_ok] at h
  obtain ⟨args', ha, h⟩ := h
  have hres : resolvedArgs labels ⟨op, args⟩ = args' := by
    unfold resolvedArgs
    unfold resolveLabels at ha
    simp only at ha ⊢
    split at ha
    · rename_i hj
      obtain ⟨l, hl, ha⟩ := except_bind_eq_ok.mp ha
      have hl' := argAt_ok hl
      rw [if_pos hj]
      split at ha
      · rename_i addr haddr
        cases ha
        have h1 : args.length = 1 := by
          rcases hj with rfl | rfl <;> exact hlen
        match args, h1, hl' with
        | [x], _, hx =>
          simp only [List.getElem?_cons_zero, Option.some.injEq] at hx
          subst hx
          simp [List.getD, haddr]
      · cases ha
    · rename_i hj
      rw [if_neg hj]; cases ha; rfl
  have hlen' : args'.length = (vmOperands op).length := by
    rw [← hres]; unfold resolvedArgs; split <;> simp_all
  rw [hres]
  clear hres ha
  by_cases s1 : op.size = 1
  · rw [if_pos s1] at h
    cases h
    have : vmOperands op = [] := by cases op <;> first | rfl | exact absurd s1 (by decide)
    simp [this, operandBytes]
  rw [if_neg s1] at h
  by_cases s2 : op.size = 2
  · rw [if_pos s2] at h
    obtain ⟨a, ha, h⟩ := except_bind_eq_ok.mp h
    have : vmOperands op = [1] := by cases op <;> first | rfl | exact absurd s2 (by decide)
    rw [this] at hlen' ⊢
    match args', hlen', argAt_ok ha with
    | [x], _, hx =>
      simp only [List.getElem?_cons_zero, Option.some.injEq] at hx
      subst hx
      split at h
      · rename_i hlt; cases h; refine ⟨by simp [operandBytes, beBytes], fun _ => ?_⟩; simpa using hlt
      · cases h
  rw [if_neg s2] at h
  by_cases s3 : op.size = 3
  · rw [if_pos s3] at h
    obtain ⟨a, ha, h⟩ := except_bind_eq_ok.mp h
    have : vmOperands op = [2] := by cases op <;> first | rfl | exact absurd s3 (by decide)
    rw [this] at hlen' ⊢
    match args', hlen', argAt_ok ha with
    | [x], _, hx =>
      simp only [List.getElem?_cons_zero, Option.some.injEq] at hx
      subst hx
      cases h
      simp [operandBytes, formatU16_eq, s3]
  rw [if_neg s3] at h
  by_cases s9 : op.size = 9
  · rw [if_pos s9] at h
    obtain ⟨a, ha, c, hc, h⟩ := (by simpa only [except_bind_eq_ok] using h)
    have : vmOperands op = [8] := by cases op <;> first | rfl | exact absurd s9 (by decide)
    rw [this] at hlen' ⊢
    match args', hlen', argAt_ok ha with
    | [x], _, hx =>
      simp only [List.getElem?_cons_zero, Option.some.injEq] at hx
      subst hx
      unfold formatU64 at hc
      split at hc
      · cases hc; cases h
        refine ⟨by simp [operandBytes], ?_⟩
        simp; omega
      · cases hc
  rw [if_neg s9] at h
  obtain ⟨a, ha, c, hc, a', ha', c', hc', h⟩ := (by simpa only [except_bind_eq_ok] using h)
  have hop : op = .loadModuleDef := by
    cases op <;> first | rfl | exact absurd rfl s1 | exact absurd rfl s2 | exact absurd rfl s3 | exact absurd rfl s9
  subst hop
  have : vmOperands .loadModuleDef = [8, 8] := rfl
  rw [this] at hlen' ⊢
  match args', hlen', argAt_ok ha, argAt_ok ha' with
  | [x, y], _, hx, hy =>
    simp only [List.getElem?_cons_zero, List.getElem?_cons_succ, Option.some.injEq] at hx hy
    subst hx; subst hy
    unfold formatU64 at hc hc'
    split at hc
    · split at hc'
      · cases hc; cases hc'; cases h
        refine ⟨by simp [operandBytes], ?_⟩
        simp; omega
      · cases hc'
    · cases hc

theorem operandBytes_length (ws as : List Nat) (h : as.length = ws.length) :
    (operandBytes ws as).length = ws.sum := by
  induction ws generalizing as with
  | nil => simp [operandBytes]
  | cons w ws ih =>
    cases as with
    | nil => simp at h
    | cons a as => simp [operandBytes, beBytes_length, ih as (by simpa using h)]

theorem truncated_of_fits (ws as : List Nat) (h : as.length = ws.length)
    (hf : ∀ p ∈ ws.zip as, p.2 < 256 ^ p.1) : truncated ws as = as := by
  induction ws generalizing as with
  | nil => cases as <;> simp_all [truncated]
  | cons w ws ih =>
    cases as with
    | nil => simp at h
    | cons a as =>
      simp only [truncated]
      have h1 := hf (w, a) (by simp)
      rw [Nat.mod_eq_of_lt h1, ih as (by simpa using h) (fun p hp => hf p (by simp [hp]))]

/-- The number of operands an instruction is emitted with matches its operation. -/
def WellFormed (ins : Ins) : Prop := ins.args.length = (vmOperands ins.op).length

/-- Sixteen-bit operands fit sixteen bits (constant, name, global, local and record
indices). -/
def Operands16Fit (ins : Ins) : Prop := ins.op.size = 3 → ∀ a ∈ ins.args, a < 65536

theorem resolvedArgs_length (labels : List Nat) (ins : Ins) :
    (resolvedArgs labels ins).length = ins.args.length := by
  unfold resolvedArgs; split <;> simp

theorem fetch_encoded (labels : List Nat) (ins : Ins) (b : Bytes)
    (h : writeOpBytes labels ins = .ok b) (hw : WellFormed ins) (pre post : Bytes) :
    fetch (pre ++ b ++ post) pre.length =
      some (ins.op, truncated (vmOperands ins.op) (resolvedArgs labels ins),
        pre.length + ins.op.size - 1) ∧ b.length = ins.op.size := by
  obtain ⟨hb, hf⟩ := writeOpBytes_ok h hw
  have hlen : (resolvedArgs labels ins).length = (vmOperands ins.op).length := by
    rw [resolvedArgs_length]; exact hw
  have hbl : b.length = ins.op.size := by
    rw [hb]
    simp only [List.length_cons, operandBytes_length _ _ hlen]
    have := opcode_tables_agree.2.2.1 ins.op; omega
  refine ⟨?_, hbl⟩
  unfold fetch
  have h0 : (pre ++ b ++ post)[pre.length]? = some (UInt8.ofNat ins.op.value) := by
    rw [hb]; simp
  rw [h0]
  simp only [Option.bind_eq_bind, Option.bind_some]
  rw [(opcode_tables_agree.1 ins.op).2]
  simp only [Option.bind_some]
  rw [hb, getOperands_append _ _ hlen]
  simp only [Option.bind_some]
  have h1 := opcode_tables_agree.2.2.1 ins.op
  have h2 := operandBytes_length _ _ hlen
  congr 3
  omega

/-- **C04.** Whatever surrounds an encoded instruction, the VM decodes at its
position the same operation and the same operands (labels replaced by their
addresses) and continues right behind it. -/
theorem instruction_round_trip (labels : List Nat) (ins : Ins) (b : Bytes)
    (h : writeOpBytes labels ins = .ok b) (hw : WellFormed ins) (h16 : Operands16Fit ins)
    (pre post : Bytes) :
    fetch (pre ++ b ++ post) pre.length =
      some (ins.op, resolvedArgs labels ins, pre.length + b.length - 1) := by
  obtain ⟨h1, h2⟩ := fetch_encoded labels ins b h hw pre post
  rw [h1, h2]
  have hlen : (resolvedArgs labels ins).length = (vmOperands ins.op).length := by
    rw [resolvedArgs_length]; exact hw
  obtain ⟨_, hf⟩ := writeOpBytes_ok h hw
  rw [truncated_of_fits _ _ hlen]
  by_cases h3 : ins.op.size = 3
  · have hw2 : vmOperands ins.op = [2] := by
      revert h3; cases ins.op <;> intro h3 <;> first | rfl | exact absurd h3 (by decide)
    have hnj : ¬ (ins.op = .jumpIfFalse ∨ ins.op = .jump) := by
      rintro (hh | hh) <;> rw [hh] at h3 <;> exact absurd h3 (by decide)
    intro p hp
    rw [hw2] at hp hlen
    have hr : resolvedArgs labels ins = ins.args := by unfold resolvedArgs; rw [if_neg hnj]
    rw [hr] at hp hlen
    match ha : ins.args, hlen with
    | [x], _ =>
      rw [ha] at hp
      simp only [List.zip_cons_cons, List.zip_nil_right, List.mem_singleton] at hp
      subst hp
      have := h16 h3 x (by simp [ha])
      simp; omega
  · exact hf h3

example : writeOpBytes [40, 7] ⟨.jumpIfFalse, [1]⟩ = .ok [24, 0, 0, 0, 0, 0, 0, 0, 7] := by rfl
example : WellFormed ⟨.jumpIfFalse, [1]⟩ ∧ Operands16Fit ⟨.jumpIfFalse, [1]⟩ := by
  constructor
  · rfl
  · intro h; exact absurd h (by decide)

/-- Byte offset of instruction number `k`: the sizes of the instructions before it. -/
def offsetOf (is : List Ins) (k : Nat) : Nat := ((is.take k).map (·.op.size)).sum

theorem writeAll_length (labels : List Nat) (is : List Ins) (code : Bytes)
    (h : writeAll labels is = .ok code) (hw : ∀ i ∈ is, WellFormed i) :
    code.length = (is.map (·.op.size)).sum := by
  induction is generalizing code with
  | nil => cases h; rfl
  | cons i is ih =>
    simp only [writeAll, except_bind_eq_ok, Except.ok.injEq] at h
    obtain ⟨b, hb, r, hr, rfl⟩ := h
    have h1 := (fetch_encoded labels i b hb (hw i (by simp)) [] []).2
    have h2 := ih r hr (fun j hj => hw j (by simp [hj]))
    simp [h1, h2]

/-- Whatever its operands, instruction number `k` is decoded at its offset as the operation it is,
and the next one is decoded next. -/
theorem writeAll_fetch_op (labels : List Nat) (is : List Ins) (code : Bytes)
    (h : writeAll labels is = .ok code) (hw : ∀ i ∈ is, WellFormed i)
    (k : Nat) (ins : Ins) (hk : is[k]? = some ins) (pre : Bytes) :
    fetch (pre ++ code) (pre.length + offsetOf is k) =
      some (ins.op, truncated (vmOperands ins.op) (resolvedArgs labels ins),
        pre.length + offsetOf is k + ins.op.size - 1) := by
  induction is generalizing code k pre with
  | nil => simp at hk
  | cons i is ih =>
    simp only [writeAll, except_bind_eq_ok, Except.ok.injEq] at h
    obtain ⟨b, hb, r, hr, rfl⟩ := h
    have hbl := (fetch_encoded labels i b hb (hw i (by simp)) [] []).2
    cases k with
    | zero =>
      simp only [List.getElem?_cons_zero, Option.some.injEq] at hk
      subst hk
      have := (fetch_encoded labels i b hb (hw i (by simp)) pre r).1
      rw [List.append_assoc] at this
      simpa [offsetOf] using this
    | succ k =>
      simp only [List.getElem?_cons_succ] at hk
      have := ih r hr (fun j hj => hw j (by simp [hj])) k hk (pre ++ b)
      rw [List.length_append, hbl, List.append_assoc] at this
      have e : offsetOf (i :: is) (k + 1) = i.op.size + offsetOf is k := by
        simp [offsetOf]
      rw [e, ← Nat.add_assoc]
      exact this

theorem writeAll_fetch (labels : List Nat) (is : List Ins) (code : Bytes)
    (h : writeAll labels is = .ok code) (hw : ∀ i ∈ is, WellFormed i)
    (k : Nat) (ins : Ins) (hk : is[k]? = some ins) (h16 : Operands16Fit ins) (pre : Bytes) :
    fetch (pre ++ code) (pre.length + offsetOf is k) =
      some (ins.op, resolvedArgs labels ins, pre.length + offsetOf is k + ins.op.size - 1) := by
  induction is generalizing code k pre with
  | nil => simp at hk
  | cons i is ih =>
    simp only [writeAll, except_bind_eq_ok, Except.ok.injEq] at h
    obtain ⟨b, hb, r, hr, rfl⟩ := h
    have hbl := (fetch_encoded labels i b hb (hw i (by simp)) [] []).2
    cases k with
    | zero =>
      simp only [List.getElem?_cons_zero, Option.some.injEq] at hk
      subst hk
      have := instruction_round_trip labels i b hb (hw i (by simp)) h16 pre r
      rw [List.append_assoc, hbl] at this
      simpa [offsetOf] using this
    | succ k =>
      simp only [List.getElem?_cons_succ] at hk
      have := ih r hr (fun j hj => hw j (by simp [hj])) k hk
        (pre ++ b)
      rw [List.length_append, hbl, List.append_assoc] at this
      have e : offsetOf (i :: is) (k + 1) = i.op.size + offsetOf is k := by
        simp [offsetOf]
      rw [e, ← Nat.add_assoc]
      exact this

/-- **C04, whole programs.** Instruction number `k` of any emitted sequence is decoded
by the VM at the offset given by the sizes of the instructions before it; the code has
exactly the total size. -/
theorem program_round_trip (labels : List Nat) (is : List Ins) (code : Bytes)
    (h : writeAll labels is = .ok code) (hw : ∀ i ∈ is, WellFormed i) :
    code.length = (is.map (·.op.size)).sum ∧
    ∀ k ins, is[k]? = some ins → Operands16Fit ins →
      fetch code (offsetOf is k) =
        some (ins.op, resolvedArgs labels ins, offsetOf is (k + 1) - 1) := by
  refine ⟨writeAll_length labels is code h hw, ?_⟩
  intro k ins hk h16
  have := writeAll_fetch labels is code h hw k ins hk h16 []
  simp only [List.nil_append, List.length_nil, Nat.zero_add] at this
  rw [this]
  have : offsetOf is (k + 1) = offsetOf is k + ins.op.size := by
    simp [offsetOf, List.take_add_one, hk]
  rw [this]

example : ∃ code, writeAll [12] [⟨.loadConst, [300]⟩, ⟨.jump, [0]⟩, ⟨.halt, []⟩] = .ok code ∧
    fetch code 3 = some (.jump, [12], 11) := ⟨_, rfl, by decide⟩

/-! ## C09: operand overflow -/

/-- **C09 (part that holds).** Operands of one and eight bytes never wrap: encoding
succeeds only when they fit.  Missing: two-byte operands, see
`local_slot_overflow_violated`. -/
theorem operand_overflow_rejected_partial (labels : List Nat) (ins : Ins) (b : Bytes)
    (h : writeOpBytes labels ins = .ok b) (hw : WellFormed ins) (hs : ins.op.size ≠ 3) :
    ∀ p ∈ (vmOperands ins.op).zip (resolvedArgs labels ins), p.2 < 256 ^ p.1 :=
  (writeOpBytes_ok h hw).2 hs

example : writeOpBytes [] ⟨.buildVec, [256]⟩ = .error .valueError := by rfl
example : writeOpBytes [] ⟨.buildVec, [255]⟩ = .ok [31, 255] := by rfl

/-- **C09 is violated** for two-byte operands: the 65537th local variable and the
first one are encoded by the same bytes, so the program is accepted and both
variables share a slot. -/
theorem local_slot_overflow_violated :
    writeOpBytes [] ⟨.setLocal, [65536]⟩ = writeOpBytes [] ⟨.setLocal, [0]⟩ ∧
    ∃ b, writeOpBytes [] ⟨.setLocal, [65536]⟩ = .ok b := ⟨rfl, _, rfl⟩

end Amanda

import Verif.FloatModel
import Verif.CodegenLemmas
import Verif.Loader

/-!
# C06, C07, C08: offsets, jumps and tables of generated code

Specification: the instruction starts of a piece of code are what the VM's own decoder visits when
it walks over the bytes from the first one (`Starts`).
-/

namespace Amanda

open Bson (Bytes)
open Codegen

/-- Offsets at which the VM's decoder finds instructions when it goes through the code in order. -/
inductive Starts (code : Bytes) : Nat → Prop where
  | zero : Starts code 0
  | next {a : Nat} {op : Op} {args : List Nat} {last : Nat} :
      Starts code a → fetch code a = some (op, args, last) → Starts code (last + 1)

theorem op_size_pos (op : Op) : 0 < op.size := by cases op <;> decide

theorem offsetOf_succ {is : List Ins} {k : Nat} {ins : Ins} (hk : is[k]? = some ins) :
    offsetOf is (k + 1) = offsetOf is k + ins.op.size := by
  simp [offsetOf, List.take_add_one, hk]

theorem offsetOf_le (is : List Ins) (k : Nat) : offsetOf is k ≤ codeSize is := by
  have h : codeSize is = codeSize (is.take k) + codeSize (is.drop k) := by
    rw [← codeSize_append, List.take_append_drop]
  have : offsetOf is k = codeSize (is.take k) := rfl
  omega

theorem offsetOf_length (is : List Ins) : offsetOf is is.length = codeSize is := by
  simp [offsetOf, Codegen.codeSize]

/-- A step of the decoder over written instructions. -/
theorem fetch_written {labels : List Nat} {is : List Ins} {code : Bytes}
    (h : writeAll labels is = .ok code) (hw : ∀ i ∈ is, WellFormed i) {k : Nat} {ins : Ins}
    (hk : is[k]? = some ins) :
    fetch code (offsetOf is k) =
      some (ins.op, truncated (vmOperands ins.op) (resolvedArgs labels ins), offsetOf is (k + 1) - 1) := by
  have := writeAll_fetch_op labels is code h hw k ins hk []
  simp only [List.nil_append, List.length_nil, Nat.zero_add] at this
  rw [this, offsetOf_succ hk]

theorem starts_iff {labels : List Nat} {is : List Ins} {code : Bytes}
    (h : writeAll labels is = .ok code) (hw : ∀ i ∈ is, WellFormed i) (a : Nat) :
    (Starts code a ↔ ∃ k, k ≤ is.length ∧ a = offsetOf is k) := by
  have hlen : code.length = codeSize is := writeAll_length labels is code h hw
  constructor
  · intro hs
    induction hs with
    | zero => exact ⟨0, Nat.zero_le _, by simp [offsetOf]⟩
    | @next a op args last _ hf ih =>
        obtain ⟨k, hk, rfl⟩ := ih
        by_cases hk' : k < is.length
        · have hg : is[k]? = some is[k] := List.getElem?_eq_getElem hk'
          rw [fetch_written h hw hg] at hf
          simp only [Option.some.injEq, Prod.mk.injEq] at hf
          refine ⟨k + 1, hk', ?_⟩
          rw [← hf.2.2]
          have := offsetOf_succ hg
          have := op_size_pos (is[k]).op
          omega
        · have : k = is.length := by omega
          subst this
          exfalso
          have e : code[offsetOf is is.length]? = none := by
            rw [offsetOf_length]
            exact List.getElem?_eq_none (by omega)
          unfold fetch at hf
          rw [e] at hf
          simp at hf
  · rintro ⟨k, hk, rfl⟩
    induction k with
    | zero => simpa [offsetOf] using Starts.zero
    | succ k ih =>
        have hg : is[k]? = some is[k] := List.getElem?_eq_getElem hk
        have hn := Starts.next (ih (by omega)) (fetch_written h hw hg)
        have e := offsetOf_succ hg
        have := op_size_pos (is[k]).op
        rw [show offsetOf is (k + 1) - 1 + 1 = offsetOf is (k + 1) by omega] at hn
        exact hn

/-- What C06 asks of code: the decoder never gets stuck inside the code, jumps go to instruction
starts inside the code, and execution does not run past the end. -/
def SafeJumps (code : Bytes) : Prop :=
  ∀ a, Starts code a → a < code.length →
    ∃ op args last, fetch code a = some (op, args, last) ∧
      (op = .jump ∨ op = .jumpIfFalse → ∃ t, args = [t] ∧ Starts code t ∧ t < code.length) ∧
      (op = .halt ∨ last + 1 < code.length)

/-- Instructions whose labels are boundaries of what precedes the final `HALT`. -/
theorem safeJumps_of_boundaries {labels : List Nat} {is : List Ins} {code : Bytes}
    (h : writeAll labels (is ++ [⟨.halt, []⟩]) = .ok code)
    (hw : ∀ i ∈ is, WellFormed i) (hl : ∀ a ∈ labels, Boundary is a) : SafeJumps code := by
  have hw' : ∀ i ∈ is ++ [⟨.halt, []⟩], WellFormed i := by
    intro i hi
    rcases List.mem_append.1 hi with hi | hi
    · exact hw i hi
    · rw [List.mem_singleton.1 hi]; rfl
  have hlen : code.length = codeSize (is ++ [⟨.halt, []⟩]) := writeAll_length _ _ code h hw'
  intro a ha hlt
  obtain ⟨k, hk, rfl⟩ := (starts_iff h hw' a).1 ha
  have hk' : k < (is ++ [(⟨.halt, []⟩ : Ins)]).length := by
    rcases Nat.lt_or_ge k (is ++ [(⟨.halt, []⟩ : Ins)]).length with h' | h'
    · exact h'
    · exfalso
      have : k = (is ++ [(⟨.halt, []⟩ : Ins)]).length := by omega
      rw [this, offsetOf_length] at hlt
      omega
  have hg := List.getElem?_eq_getElem hk'
  refine ⟨_, _, _, fetch_written h hw' hg, ?_, ?_⟩
  · intro hj
    generalize hi : (is ++ [(⟨.halt, []⟩ : Ins)])[k] = ins at hj hg
    have hj' : ins.op = .jumpIfFalse ∨ ins.op = .jump := hj.symm
    have hwi : WellFormed ins := hw' ins (hi ▸ List.getElem_mem hk')
    have hargs : ∃ l, ins.args = [l] := by
      have : ins.args.length = 1 := by
        rw [hwi]; rcases hj with e | e <;> rw [e] <;> rfl
      match ha : ins.args, this with
      | [l], _ => exact ⟨l, rfl⟩
    obtain ⟨l, hargs⟩ := hargs
    -- the instruction was written, so its label exists
    obtain ⟨b, hb⟩ : ∃ b, writeOpBytes labels ins = .ok b := by
      have hm : ins ∈ is ++ [(⟨.halt, []⟩ : Ins)] := hi ▸ List.getElem_mem hk'
      clear hg hi hk' ha hlt hk hlen hwi hw' hw hl
      generalize is ++ [(⟨.halt, []⟩ : Ins)] = js at h hm
      clear k
      induction js generalizing code with
      | nil => simp at hm
      | cons j js ih =>
          simp only [writeAll, except_bind_eq_ok, Except.ok.injEq] at h
          obtain ⟨b, hb, r, hr, rfl⟩ := h
          rcases List.mem_cons.1 hm with rfl | hm
          · exact ⟨b, hb⟩
          · exact ih hr hm
    have hres : ∃ addr, labels[l]? = some addr := by
      unfold writeOpBytes resolveLabels at hb
      rw [if_pos hj', hargs] at hb
      cases hl' : labels[l]? with
      | none => simp [argAt, hl'] at hb
      | some addr => exact ⟨addr, rfl⟩
    obtain ⟨addr, haddr⟩ := hres
    have hra : resolvedArgs labels ins = [addr] := by
      unfold resolvedArgs
      rw [if_pos hj', hargs]
      simp [haddr]
    have hbig : truncated (vmOperands ins.op) (resolvedArgs labels ins) = [addr] := by
      rw [truncated_of_fits, hra]
      · rw [resolvedArgs_length]; exact hwi
      · exact (writeOpBytes_ok hb hwi).2 (by rcases hj with e | e <;> rw [e] <;> decide)
    rw [hbig]
    obtain ⟨j, hj2, hj3⟩ := hl addr (List.mem_of_getElem? haddr)
    have hoff : addr = offsetOf (is ++ [(⟨.halt, []⟩ : Ins)]) j := by
      rw [hj3]
      show codeSize (is.take j) = codeSize ((is ++ [(⟨.halt, []⟩ : Ins)]).take j)
      rw [List.take_append_of_le_length hj2]
    refine ⟨addr, rfl, (starts_iff h hw' addr).2 ⟨j, by simp; omega, hoff⟩, ?_⟩
    rw [hlen, codeSize_append, hj3]
    have := offsetOf_le is j
    have e : offsetOf is j = codeSize (is.take j) := rfl
    have : codeSize [(⟨.halt, []⟩ : Ins)] = 1 := by decide
    omega
  · by_cases hkl : k < is.length
    · right
      have e1 := offsetOf_succ hg
      have e2 : offsetOf (is ++ [(⟨.halt, []⟩ : Ins)]) (k + 1) = offsetOf is (k + 1) := by
        show codeSize (List.take _ _) = codeSize (List.take _ _)
        rw [List.take_append_of_le_length (by omega)]
      have e3 := offsetOf_le is (k + 1)
      have := op_size_pos ((is ++ [(⟨.halt, []⟩ : Ins)])[k]).op
      have : codeSize [(⟨.halt, []⟩ : Ins)] = 1 := by decide
      rw [hlen, codeSize_append]
      omega
    · left
      have : k = is.length := by simp at hk'; omega
      subst this
      simp

theorem keeps_genGlobals {n : Nat} (ctx : GenCtx) (l : List (String × SymId)) :
    Keeps n (genGlobals ctx l) := by
  induction l with
  | nil => exact keeps_pure _
  | cons p l ih =>
      unfold genGlobals
      refine keeps_bind (keeps_symOf _ _) fun _ => ?_
      refine keeps_ite ?_ ih
      exact keeps_bind (keeps_nameIndex _) fun _ => ih

/-- The state before the final `HALT`. -/
theorem genModule_ok {ctx : GenCtx} {m : ModuleIn} {s : Gen} (h : genModule ctx m {} = .ok ((), s)) :
    ∃ s0, Ext 0 {} s0 ∧ s.ops = s0.ops ++ [⟨.halt, []⟩] ∧ s.labels = s0.labels ∧
      s.funcs = s0.funcs ∧ s.consts = s0.consts ∧ s.names = s0.names ∧ s.ip = s0.ip + 1 := by
  unfold genModule at h
  obtain ⟨_, s1, h1, h⟩ := G.bind_ok.1 h
  obtain ⟨_, s2, h2, h⟩ := G.bind_ok.1 h
  obtain ⟨_, s3, h3, h⟩ := G.bind_ok.1 h
  obtain ⟨_, s4, h4, h⟩ := G.bind_ok.1 h
  obtain ⟨_, s5, h5, h⟩ := G.bind_ok.1 h
  obtain ⟨_, s6, h6, h⟩ := G.bind_ok.1 h
  obtain ⟨_, s7, h7, h⟩ := G.bind_ok.1 h
  obtain ⟨_, s8, h8, h⟩ := G.bind_ok.1 h
  obtain ⟨rfl, rfl⟩ := Prod.mk.inj (Except.ok.inj h8)
  have z : ∀ s : Gen, 0 ≤ s.labels.length := fun _ => Nat.zero_le _
  have e := (((((((keeps_constIndex _) _ _ _ (z _) h1).trans ((keeps_constIndex _) _ _ _ (z _) h2)).trans
    ((keeps_need _ _) _ _ _ (z _) h3)).trans ((keeps_genGlobals _ _) _ _ _ (z _) h4)).trans
    ((keeps_enterBlock _) _ _ _ (z _) h5)).trans ((keeps_genStmts ctx 0 _) _ _ _ (z _) h6)).trans
    ((keeps_exitBlock _) _ _ _ (z _) h7)
  by_cases hd : s7.depth = -1
  · rw [if_pos hd] at h
    obtain ⟨_, s9, h9, h⟩ := G.bind_ok.1 h
    obtain ⟨-, rfl⟩ := Prod.mk.inj (Except.ok.inj h9)
    obtain ⟨-, rfl⟩ := Prod.mk.inj (Except.ok.inj h)
    exact ⟨s7, e, rfl, rfl, rfl, rfl, rfl, rfl⟩
  · rw [if_neg hd] at h
    cases h

theorem aligned_start : Aligned ({} : Gen) := ⟨rfl, by simp, by simp⟩

/-- What a successful compilation of a module went through. -/
theorem compileModule_ok {ctx : GenCtx} {m : ModuleIn} {out : ModuleOut}
    (h : compileModule ctx m = .ok out) (hb : m.builtin = false) :
    ∃ s0 s, Ext 0 {} s0 ∧ s.ops = s0.ops ++ [⟨.halt, []⟩] ∧ s.labels = s0.labels ∧
      s.funcs = s0.funcs ∧ s.consts = s0.consts ∧ s.names = s0.names ∧ s.ip = s0.ip + 1 ∧
      writeAll s.labels s.ops = .ok out.code ∧ out.funcs = s.funcs ∧ out.consts = s.consts ∧
      out.names = s.names ∧ genModule { ctx with modPath := m.path } m {} = .ok ((), s) := by
  unfold compileModule at h
  rw [if_neg (by simp [hb])] at h
  cases hg : genModule { ctx with modPath := m.path } m {} with
  | error e => rw [hg] at h; cases h
  | ok p =>
      obtain ⟨⟨⟩, s⟩ := p
      rw [hg] at h
      obtain ⟨s0, e, a1, a2, a3, a4, a5, a6⟩ := genModule_ok hg
      simp only [finish, except_bind_eq_ok] at h
      obtain ⟨code, hc, src, hs, h⟩ := h
      have hw : writeAll s.labels s.ops = .ok code := by
        cases hx : writeAll s.labels s.ops with
        | error e => rw [hx] at hc; cases hc
        | ok c => rw [hx] at hc; cases hc; rfl
      cases h
      exact ⟨s0, s, e, a1, a2, a3, a4, a5, a6, hw, rfl, rfl, rfl, rfl⟩

/-- **C06.** In the code of every module the compiler accepts: wherever the decoder arrives inside
the code it finds an instruction; every jump goes to the first byte of an instruction inside the
code; only `HALT` may be the last instruction; and every function starts at an instruction. -/
theorem jumps_land_on_instructions (ctx : GenCtx) (m : ModuleIn) (out : ModuleOut)
    (h : compileModule ctx m = .ok out) :
    SafeJumps out.code ∧ ∀ f ∈ out.funcs, Starts out.code f.startIp ∧ f.startIp < out.code.length := by
  by_cases hb : m.builtin = true
  · unfold compileModule at h
    rw [if_pos hb] at h
    cases h
    refine ⟨?_, by simp [compileBuiltin]⟩
    exact safeJumps_of_boundaries (labels := []) (is := []) rfl (by simp) (by simp)
  · obtain ⟨s0, s, e, a1, a2, a3, -, -, -, hw, f1, -, -, -⟩ := compileModule_ok h (by simpa using hb)
    have al := e.aligned aligned_start
    have fo := e.formed (by simp)
    rw [a1] at hw
    refine ⟨safeJumps_of_boundaries hw fo (by rw [a2]; exact al.labels), ?_⟩
    intro f hf
    rw [f1, a3] at hf
    obtain ⟨j, hj, hj3⟩ := al.funcs f hf
    have hw' : ∀ i ∈ s0.ops ++ [⟨.halt, []⟩], WellFormed i := by
      intro i hi
      rcases List.mem_append.1 hi with hi | hi
      · exact fo i hi
      · rw [List.mem_singleton.1 hi]; rfl
    have hlen : out.code.length = codeSize (s0.ops ++ [⟨.halt, []⟩]) := writeAll_length _ _ _ hw hw'
    refine ⟨(starts_iff hw hw' _).2 ⟨j, by simp; omega, ?_⟩, ?_⟩
    · rw [hj3]
      show codeSize (List.take _ _) = codeSize (List.take _ _)
      rw [List.take_append_of_le_length hj]
    · rw [hlen, codeSize_append, hj3]
      have := offsetOf_le s0.ops j
      have e : offsetOf s0.ops j = codeSize (s0.ops.take j) := rfl
      have : codeSize [(⟨.halt, []⟩ : Ins)] = 1 := by decide
      omega

/-- **C07.** While the code of any statements is generated, the tracked offset is the number of
bytes written so far, and every recorded jump address and function entry is the position of an
instruction (or of the next one to come). -/
theorem offsets_are_exact (ctx : GenCtx) (body : List TStmt) (s s' : Gen)
    (h : genStmts ctx body s = .ok ((), s')) (hs : Aligned s) (hf : ∀ i ∈ s.ops, WellFormed i) :
    (∀ labels bytes, writeAll labels s'.ops = .ok bytes → s'.ip = bytes.length) ∧
    (∀ a ∈ s'.labels, ∃ k, k ≤ s'.ops.length ∧ a = offsetOf s'.ops k) ∧
    (∀ f ∈ s'.funcs, ∃ k, k ≤ s'.ops.length ∧ f.startIp = offsetOf s'.ops k) := by
  have e := keeps_genStmts ctx 0 body s () s' (Nat.zero_le _) h
  have al := e.aligned hs
  refine ⟨fun labels bytes hw => ?_, al.labels, al.funcs⟩
  rw [al.ip, writeAll_length _ _ _ hw (e.formed hf)]
  rfl

/-- **C07, function entries.** The entry recorded for a function is the position right behind the
jump that skips it, and that jump leads right behind the function. -/
theorem function_entry_exact (ctx : GenCtx) (line : Nat) (sym : SymId) (scope : ScopeId)
    (body : List TStmt) (s s' : Gen)
    (h : genStmt ctx (.func line sym (.mk scope body)) s = .ok ((), s')) (hs : Aligned s) :
    ∃ f fs, s'.funcs = fs ++ [f] ∧ f.startIp = codeSize s.ops + 9 ∧
      s'.ops[s.ops.length]? = some ⟨.jump, [s.labels.length]⟩ ∧
      s'.labels[s.labels.length]? = some (codeSize s'.ops) := by
  have h0 : atLine line (genFunc ctx sym scope (genStmts ctx body)) s = .ok ((), s') := h
  have htop := keeps_genStmt ctx 0 _ s () s' (Nat.zero_le _) h
  unfold atLine genFunc at h0
  clear h
  have h := h0
  clear h0
  gbind h with u1 s1 h1
  have e1 := modify_ok h1
  gbind h with f s2 h2
  obtain ⟨-, rfl⟩ := symOf_ok h2
  gbind h with u2 s3 h3
  obtain ⟨-, e3, -⟩ := nameIndex_ok h3
  gbind h with fe s4 h4
  obtain ⟨rfl, e4⟩ := newLabel_ok h4
  gbind h with u3 s5 h5
  have e5 := emit_ok h5
  gbind h with fs s6 h6
  obtain ⟨rfl, e6⟩ := newLabel_ok h6
  gbind h with g s7 h7
  obtain ⟨eg, es⟩ := get_ok h7
  rw [eg] at h
  rw [es] at h
  clear h7 eg es g s7
  gbind h with u4 s8 h8
  gbind h with u5 s9 h9
  have l3 : s3.labels = s.labels := by rw [e3, e1]
  have l6 : s6.labels = s.labels ++ [s3.ip] ++ [s5.ip] := by rw [e6, e5, e4, l3]
  have ip5 : s5.ip = codeSize s.ops + 9 := by
    rw [e5, e4, e3, e1, ← hs.ip]
    rfl
  have o6 : s6.ops = s.ops ++ [⟨.jump, [s.labels.length]⟩] := by rw [e6, e5, e4, e3, e1]
  have k1 := (keeps_startLocals (n := s6.labels.length) _ _ _ _ _ (Nat.le_refl _) h8).trans
    (keeps_genFuncBody _ _ _ (keeps_genStmts ctx _ body) _ _ _
      ((keeps_startLocals (n := s6.labels.length) _ _ _ _ _ (Nat.le_refl _) h8).count) h9)
  have k2 := keeps_endFunc (n := s3.labels.length) ctx f _ _ _ (Nat.le_refl _) _ _ _
    (by have := k1.count; rw [l6] at this; simp at this; rw [l3]; omega) h
  unfold endFunc at h
  gbind h with u6 t1 g1
  gbind h with u7 t2 g2
  gbind h with u8 t3 g3
  obtain ⟨rfl, rfl⟩ := get_ok g3
  gbind h with u9 t4 g4
  have x4 := modify_ok g4
  gbind h with u10 t5 g5
  have x5 := patchLabel_ok g5
  gbind h with u11 t6 g6
  obtain ⟨rfl, rfl⟩ := get_ok g6
  gbind h with start t7 g7
  obtain ⟨g7, rfl⟩ := need_ok g7
  have x8 := modify_ok h
  -- the labels up to the patch are those after the entry
  have k3 : Ext s6.labels.length s6 t3 := by
    have c1 := k1
    have c2 := c1.trans (keeps_loadConst _ _ _ _ c1.count g1)
    exact c2.trans (keeps_emit _ _ rfl _ _ _ c2.count g2)
  have lt4 : t4.labels = t3.labels := by rw [x4]
  have lab : ∀ i, i < s6.labels.length → t4.labels[i]? = s6.labels[i]? := by
    intro i hi
    have := congrArg (fun l => l[i]?) k3.labels
    simp only [List.getElem?_take, if_pos hi] at this
    rw [lt4, ← this]
  have hs6 : s6.labels.length = s.labels.length + 2 := by rw [l6]; simp
  have hst : start = s5.ip := by
    rw [x5] at g7
    simp only at g7
    have e4' : s5.labels.length = s.labels.length + 1 := by rw [e5, e4, l3]; simp
    rw [e4', List.getElem?_set_ne (by rw [l3]; omega), lab _ (by omega), l6] at g7
    simp at g7
    exact g7.symm
  refine ⟨_, t7.funcs, by rw [x8], ?_, ?_, ?_⟩
  · rw [hst, ip5]
  · have hp : s6.ops <+: s'.ops := by
      refine (k1.ops).trans ?_
      exact k2.ops
    refine prefix_get hp ?_
    rw [o6]; simp
  · have al := (htop.aligned hs).ip
    rw [← al, x8]
    simp only
    rw [x5]
    simp only
    rw [l3, List.getElem?_set_self]
    rw [lt4]
    have := k3.count
    omega

/-- A function, a conditional and a loop with `quebra`. -/
def sampleEnv : SymEnv :=
  { syms := [ { name := "f", outId := "f", modPath := "/m.ama", isGlobal := true, kind := .func, params := [1] },
              { name := "x", outId := "x", modPath := "/m.ama", isGlobal := false, kind := .var },
              { name := "i", outId := "i", modPath := "/m.ama", isGlobal := true, kind := .var } ]
    scopes := [ { symbols := [("f", 0), ("i", 2)], parent := none },
                { symbols := [("x", 1)], parent := some 0 },
                { symbols := [], parent := some 0 } ] }

def sampleModule : ModuleIn :=
  { path := "/m.ama", builtin := false, scope := 0
    body := [
      .func 1 0 (.mk 1 [.retorna 2 (some (.bin 2 .plus (.var 2 "x" (some 1) .unknown)
        (.const 2 "1" .unknown) .int .int .unknown))]),
      .varDecl 4 "i" .int (some (.mk 2 (.const 4 "0" .unknown))),
      .enquanto 5 (.const 5 "verdadeiro" .unknown) (.mk 2 [
        .se 6 (.bin 6 .greater (.var 6 "i" (some 2) .unknown) (.const 6 "3" .unknown) .int .int .unknown)
          (.mk 2 [.loopCtl 6 true]) [] none,
        .expr (.assign 7 2 (.call 7 (.var 7 "f" (some 0) .unknown) [.var 7 "i" (some 2) .unknown] 0 .unknown))]) ] }

def sampleCtx : GenCtx :=
  { env := sampleEnv, modPath := "/m.ama", modules := [], builtinPath := "/embutidos.ama" }

/-- The sample has a function and five jumps. -/
example : (match compileModule sampleCtx sampleModule with
    | .ok out => (out.code.length, out.funcs.map FuncOut.startIp)
    | .error _ => (0, [])) = (94, [9]) := by decide +kernel

/-! ## C08 -/

/-- Both tables of the generator have no item twice. -/
def DistinctTables (s : Gen) : Prop := s.consts.Nodup ∧ s.names.Nodup

theorem tableIndex_again [DecidableEq α] {x : α} {tab : List α} {i : Nat} (hget : tab[i]? = some x)
    (hn : tab.Nodup) : (tableIndex x tab).1 = i := by
  have h1 : (tableIndex x tab).2 = tab := by
    unfold tableIndex
    cases hi : indexIn x tab with
    | none => exact absurd (List.mem_of_getElem? hget) (indexIn_none hi)
    | some k => rfl
  have h2 := tableIndex_get x tab
  rw [h1] at h2
  obtain ⟨a1, a2⟩ := List.getElem?_eq_some_iff.1 h2
  obtain ⟨b1, b2⟩ := List.getElem?_eq_some_iff.1 hget
  exact (List.getElem_inj hn).1 (a2.trans b2.symm)

/-- **C08, constants.** The index given out for a constant selects that constant in the table,
whatever is generated afterwards; it fits the operand of the instruction; and a later request for
the same constant gets the same index. -/
theorem const_index_selects (ctx : GenCtx) (c : ConstKey) (i : Nat) (s s1 s2 : Gen)
    (rest : List TStmt) (hd : DistinctTables s) (h : constIndex c s = .ok (i, s1))
    (hr : genStmts ctx rest s1 = .ok ((), s2)) :
    s2.consts[i]? = some c ∧ i < 65536 ∧ DistinctTables s2 ∧
    ∀ j s3, constIndex c s2 = .ok (j, s3) → j = i := by
  have e := keeps_genStmts ctx 0 rest _ () s2 (Nat.zero_le _) hr
  have d2 := e.nodup (keeps_constIndex (n := 0) c _ _ _ (Nat.zero_le _) h |>.nodup hd)
  obtain ⟨rfl, rfl, hlt⟩ := constIndex_ok h
  have hget := prefix_get e.consts (tableIndex_get c s.consts)
  refine ⟨hget, by omega, d2, ?_⟩
  intro j s3 hj
  obtain ⟨rfl, -, -⟩ := constIndex_ok hj
  exact tableIndex_again hget d2.1

/-- **C08, names.** The same for names. -/
theorem name_index_selects (ctx : GenCtx) (c : String) (i : Nat) (s s1 s2 : Gen)
    (rest : List TStmt) (hd : DistinctTables s) (h : nameIndex c s = .ok (i, s1))
    (hr : genStmts ctx rest s1 = .ok ((), s2)) :
    s2.names[i]? = some c ∧ i < 65536 ∧ DistinctTables s2 ∧
    ∀ j s3, nameIndex c s2 = .ok (j, s3) → j = i := by
  have e := keeps_genStmts ctx 0 rest _ () s2 (Nat.zero_le _) hr
  have d2 := e.nodup (keeps_nameIndex (n := 0) c _ _ _ (Nat.zero_le _) h |>.nodup hd)
  obtain ⟨rfl, rfl, hlt⟩ := nameIndex_ok h
  have hget := prefix_get e.names (tableIndex_get c s.names)
  refine ⟨hget, by omega, d2, ?_⟩
  intro j s3 hj
  obtain ⟨rfl, -, -⟩ := nameIndex_ok hj
  exact tableIndex_again hget d2.2

theorem mapM_get {f : α → Option β} {l : List α} {r : List β} (h : l.mapM f = some r) {i : Nat} {a : α}
    (ha : l[i]? = some a) : ∃ b, f a = some b ∧ r[i]? = some b := by
  induction l generalizing r i with
  | nil => simp at ha
  | cons x xs ih =>
      rw [List.mapM_cons] at h
      cases hx : f x with
      | none => rw [hx] at h; cases h
      | some y =>
          cases hxs : xs.mapM f with
          | none => rw [hx, hxs] at h; cases h
          | some ys =>
              rw [hx, hxs] at h
              cases h
              cases i with
              | zero => cases ha; exact ⟨y, hx, rfl⟩
              | succ i => exact ih hxs (by simpa using ha)

theorem mapM_takeStr (l : List String) : (l.map Bson.Bson.str).mapM takeBStr = some l := by
  induction l with
  | nil => rfl
  | cons x xs ih => rw [List.map_cons, List.mapM_cons, ih]; rfl

/-- **C08, in the image.** The module the VM builds from the dictionary has, at every index, the
value of the constant and the name the generator put there. -/
theorem image_tables_match {F : Type} [FloatOps F] (out : ModuleOut) (imps : List Bson.Bson)
    (mod : Module F) (h : buildModule (ModuleOut.doc out imps) = some mod) :
    mod.names = out.names ∧ mod.code = out.code ∧
    ∀ (i : Nat) c, out.consts[i]? = some c → ∃ v, constOfBson (ConstKey.bson c) = some v ∧ mod.constants[i]? = some v := by
  unfold buildModule at h
  obtain ⟨cs, h1, h⟩ := Option.bind_eq_some_iff.1 h
  obtain ⟨vs, h2, h⟩ := Option.bind_eq_some_iff.1 h
  obtain ⟨ns, h3, h⟩ := Option.bind_eq_some_iff.1 h
  obtain ⟨ss, h4, h⟩ := Option.bind_eq_some_iff.1 h
  obtain ⟨ops, h5, h⟩ := Option.bind_eq_some_iff.1 h
  obtain ⟨_, _, h⟩ := Option.bind_eq_some_iff.1 h
  obtain ⟨_, _, h⟩ := Option.bind_eq_some_iff.1 h
  obtain ⟨_, _, h⟩ := Option.bind_eq_some_iff.1 h
  obtain ⟨_, _, h⟩ := Option.bind_eq_some_iff.1 h
  obtain ⟨_, _, h⟩ := Option.bind_eq_some_iff.1 h
  obtain ⟨_, _, h⟩ := Option.bind_eq_some_iff.1 h
  obtain ⟨_, _, h⟩ := Option.bind_eq_some_iff.1 h
  obtain ⟨_, _, h⟩ := Option.bind_eq_some_iff.1 h
  obtain ⟨_, _, h⟩ := Option.bind_eq_some_iff.1 h
  cases Option.some.inj h
  have e1 : some (out.consts.map ConstKey.bson) = some cs := h1
  have e3 : some (out.names.map Bson.Bson.str) = some ns := h3
  have e5 : some out.code = some ops := h5
  cases e1
  cases e3
  cases e5
  rw [mapM_takeStr] at h4
  cases h4
  refine ⟨rfl, rfl, fun i c hc => ?_⟩
  exact mapM_get h2 (by rw [List.getElem?_map, hc]; rfl)

example : DistinctTables ({} : Gen) := ⟨List.nodup_nil, List.nodup_nil⟩
/-- The constant `"0"` requested first, then the sample. -/
example : (match constIndex (.str "0") {} with
    | .ok (i, s1) => (match genStmts sampleCtx sampleModule.body { s1 with scope := some 0 } with
        | .ok (_, s2) => (i, s2.consts.length, s2.names.length)
        | .error _ => (0, 0, 0))
    | .error _ => (0, 0, 0)) = (0, 5, 3) := by decide +kernel

/-- The hypothesis of `image_tables_match` is met by the sample. -/
example : (match compileModule sampleCtx sampleModule with
    | .ok out => (match buildModule (F := WholeFloat) (ModuleOut.doc out []) with
        | some mod => some (mod.constants, mod.names == out.names)
        | none => none)
    | .error _ => none) = some ([.bool true, .bool false, .int 1, .int 0, .int 3], true) := by decide +kernel

end Amanda

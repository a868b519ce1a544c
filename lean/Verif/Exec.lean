import Verif.GenFits
import Verif.VmCalls
import Verif.VmState
import Verif.Props.Codegen
import Verif.Props.Stack

/-!
# Running compiled code

How a state of the virtual machine represents a state of a source program (`Here`), and what each
instruction does to it.  This is used by the simulation in `Verif.Sim`.
-/

namespace Amanda

namespace Compiled

open Source Codegen

/-- A module after code generation: its final tables, and the module the machine loaded. -/
structure CMod (F : Type) where
  path : String
  ctx : GenCtx
  fin : Gen
  ref : ModRef
  image : Module F

/-- A loaded program and the source program it comes from: `ref` says which loaded module belongs to
a path, and `loaded` whose functions have been made known to the machine. -/
structure Link (F : Type) where
  cfg : Cfg
  prog : Program F
  L : Lang
  home : SymId → Option ScopeId
  ref : String → Option ModRef
  loaded : String → Bool

variable {F : Type} [FloatOps F]

/-- The value of an entry of the constant table. -/
def constVal : ConstKey → Option (Val F)
  | .str s => constOfStr s
  | .int n => some (.int n)

/-- The loaded module holds what was generated. -/
structure CModOk (K : Link F) (cm : CMod F) : Prop where
  get : K.prog.get cm.ref = some cm.image
  code : writeAll cm.fin.labels cm.fin.ops = .ok cm.image.code
  formed : ∀ i ∈ cm.fin.ops, WellFormed i
  fit : ∀ i ∈ cm.fin.ops, Operands16Fit i
  consts : ∀ (i : Nat) (c : ConstKey), cm.fin.consts[i]? = some c →
    ∃ v, constVal c = some v ∧ cm.image.constants[i]? = some v
  ints : ∀ n : Int, ConstKey.int n ∈ cm.fin.consts → InI64 n
  names : cm.image.names = cm.fin.names
  registos : cm.image.registos = cm.fin.registos.map fun r => ⟨r.name, r.fields⟩
  src : ∃ n, cm.image.srcMap.length = 3 * n
  env : cm.ctx.env = K.L.env
  path : cm.ctx.modPath = cm.path
  bpath : cm.ctx.builtinPath = K.L.builtinPath
  ref : K.ref cm.path = some cm.ref
  imports : ∀ q i, indexIn q cm.ctx.modules = some i →
    K.ref q = some (.imp i) ∧ i < K.prog.imports.length
  tag : ∀ id, K.L.tag cm.path id = indexIn id cm.fin.variants
  user : cm.path ≠ K.L.builtinPath

/-- Where the code of a function stands in the final code. -/
def InsAt (cm : CMod F) (ip : Nat) (op : Op) (args : List Nat) : Prop :=
  fetch cm.image.code ip = some (op, args, ip + op.size - 1)

/-- The conditions the body of a function meets. -/
def bodyWf (K : Link F) (path : String) (scope : ScopeId) : Wf :=
  { L := K.L, mod := path, home := K.home, chain := [scope], scope := some scope }

/-- The loaded function `gf` is the code generated for the function `d` of module `p`, whose symbol is
`sym`, from state `s0` to `s1`. -/
structure FunCode (K : Link F) (p : String) (d : FunDecl) (gf : AmaFunc) (cm : CMod F) (sym : SymId)
    (s0 s1 : Gen) : Prop where
  mod : CModOk K cm
  path : cm.path = p
  start : gf.ip = s0.ip
  bp : gf.bp = -1
  size : gf.locals = s1.funcLocals.length
  ref : gf.module.ref = cm.ref
  gen : genStmts cm.ctx d.body s0 = .ok ((), s1)
  scope : s0.scope = some d.scope
  fits : Codegen.Fits cm.fin s1.funcLocals s0 s1
  dense : Dense s1.funcLocals
  count : s0.funcLocals.length = d.params.length
  params : ∀ k id, d.params[k]? = some id → ∃ s, K.L.env.syms[id]? = some s ∧
    lookup s0.funcLocals s.outId = some k
  last : ∃ i, InsAt cm s1.ip .loadConst [i] ∧ cm.fin.consts[i]? = some (.str "falso") ∧
    InsAt cm (s1.ip + 3) .ret []
  wf : okSs (bodyWf K p d.scope) d.body = true
  tidy : s1.funcLocals = [] → cleanSs true d.body = true

/-- The variables of all modules. -/
structure GlobalsOk (K : Link F) (gs : String → String → Option (Val F))
    (g : List ((ModRef × String) × Val F)) : Prop where
  vars : ∀ p n v r, gs p n = some v → K.ref p = some r → assocGet g (r, n) = some v
  funs : ∀ p n d, K.loaded p = true → K.L.funs p n = some d → ∃ r gf, K.ref p = some r ∧
    assocGet g (r, n) = some (.func gf) ∧ ∃ cm sym s0 s1, FunCode K p d gf cm sym s0 s1
  types : ∀ t : VTy, t ≠ .vector → ∃ r, K.ref K.L.builtinPath = some r ∧
    assocGet g (r, t.name) = some (.type t)

/-- A running function: its module, the final table of its locals, its frame up to the instruction
pointers, the frames and values below, the number of slots, and the scopes of the blocks it is in. -/
structure Act (F : Type) where
  cm : CMod F
  L : List (String × Nat)
  fn : AmaFunc
  rest : List AmaFunc
  base : List (Val F)
  size : Nat
  chain : List ScopeId

structure ActOk (K : Link F) (a : Act F) : Prop where
  mod : CModOk K a.cm
  dense : Dense a.L
  fits : a.L.length ≤ a.size
  room : a.base.length + a.size ≠ 0
  bp : a.L ≠ [] → a.fn.bp = a.base.length
  nested : ∀ k ∈ a.chain, ∀ l ∈ a.chain, Above K.L.env k l ∨ Above K.L.env l k

/-- A variable that belongs in one of the blocks the function is in. -/
def Inner (K : Link F) (a : Act F) (id : SymId) : Prop := ∃ k, K.home id = some k ∧ k ∈ a.chain

/-- The slots hold the locals that have a value. -/
def SlotsOk (K : Link F) (a : Act F) (locals : SymId → Option (Val F)) (slots : List (Val F)) : Prop :=
  ∀ id s v, K.L.env.syms[id]? = some s → s.isGlobal = false → s.modPath = a.cm.path →
    Inner K a id → locals id = some v → ∃ i, lookup a.L s.outId = some i ∧ slots[i]? = some v

/-- The machine is at `ip` in the function `a`, in source state `st`, with `stk` above the slots. -/
structure Here (K : Link F) (a : Act F) (st : St F) (vm : VM F) (ip : Nat) (stk : List (Val F)) : Prop where
  at' : ∃ last slots, At vm ({ a.fn with ip := ip, lastI := last } :: a.rest) (a.base ++ slots ++ stk)
    a.cm.ref vm.globals st.world ∧ slots.length = a.size ∧ SlotsOk K a st.locals slots
  globals : GlobalsOk K st.globals vm.globals

/-- Facts about the whole program. -/
structure LinkOk (K : Link F) : Prop where
  refInj : ∀ p q r, K.ref p = some r → K.ref q = some r → p = q
  outInj : ∀ i j si sj k l, K.L.env.syms[i]? = some si → K.L.env.syms[j]? = some sj →
    si.isGlobal = false → sj.isGlobal = false → si.modPath = sj.modPath → si.modPath ≠ K.L.builtinPath →
    K.home i = some k → K.home j = some l → Above K.L.env k l →
    si.outId = sj.outId → i = j
  empty : (constOfStr "''" : Option (Val F)) = some (.str "")

/-! ## Steps -/

/-- Some steps of the machine. -/
inductive Runs (K : Link F) : VM F → VM F → Prop where
  | refl (vm) : Runs K vm vm
  | head {a b c} : step K.cfg K.prog a = .ok b → Runs K b c → Runs K a c

theorem Runs.one {K : Link F} {a b : VM F} (h : step K.cfg K.prog a = .ok b) : Runs K a b :=
  .head h (.refl _)

theorem Runs.trans {K : Link F} {a b c : VM F} (h : Runs K a b) (k : Runs K b c) : Runs K a c := by
  induction h with
  | refl => exact k
  | head h _ ih => exact .head h (ih k)

/-- Some steps, then a reported error: the report ends with the message. -/
def RunsErr (K : Link F) (vm : VM F) (msg : String) (w : World F) : Prop :=
  ∃ vm1 vm2 pre, Runs K vm vm1 ∧ step K.cfg K.prog vm1 = .error (.err (pre ++ msg ++ ".") vm2) ∧
    vm2.world = w

theorem Runs.err {K : Link F} {a b : VM F} {msg : String} {w : World F} (h : Runs K a b)
    (k : RunsErr K b msg w) : RunsErr K a msg w := by
  obtain ⟨vm1, vm2, pre, h1, h2, h3⟩ := k
  exact ⟨vm1, vm2, pre, h.trans h1, h2, h3⟩

/-- The machine can take at least so many steps. -/
def Long (K : Link F) : Nat → VM F → Prop
  | 0, _ => True
  | k + 1, vm => ∃ vm', step K.cfg K.prog vm = .ok vm' ∧ Long K k vm'

theorem Long.less {K : Link F} : ∀ {k : Nat} {vm : VM F}, Long K (k + 1) vm → Long K k vm
  | 0, _, _ => trivial
  | _ + 1, _, ⟨vm', h, l⟩ => ⟨vm', h, l.less⟩

theorem Runs.long {K : Link F} {a b : VM F} {k : Nat} (h : Runs K a b) (l : Long K k b) : Long K k a := by
  induction h with
  | refl => exact l
  | head h _ ih => exact Long.less ⟨_, h, ih l⟩

/-- At least one step. -/
def Runs1 (K : Link F) (a b : VM F) : Prop := ∃ c, step K.cfg K.prog a = .ok c ∧ Runs K c b

theorem Runs1.runs {K : Link F} {a b : VM F} (h : Runs1 K a b) : Runs K a b := by
  obtain ⟨c, h1, h2⟩ := h
  exact .head h1 h2

theorem Runs1.long {K : Link F} {a b : VM F} {k : Nat} (h : Runs1 K a b) (l : Long K k b) : Long K (k + 1) a := by
  obtain ⟨c, h1, h2⟩ := h
  exact ⟨c, h1, h2.long l⟩

section
variable {K : Link F} {a : Act F} {st : St F} {vm : VM F} {ip : Nat} {stk : List (Val F)}

/-- Reading an instruction. -/
theorem Here.next (hm : CModOk K a.cm) {op : Op} {args : List Nat} (h : Here K a st vm ip stk)
    (hi : InsAt a.cm ip op args) :
    ∃ vm1, step K.cfg K.prog vm = exec K.cfg K.prog a.cm.image vm1 op args ∧
      Here K a st vm1 (ip + op.size - 1) stk := by
  obtain ⟨⟨last, slots, hat, h1, h2⟩, hg⟩ := h
  refine ⟨vm.reading { a.fn with ip := ip, lastI := last } a.rest (ip + op.size - 1), step_eq ⟨?_, hat.frames, hi⟩, ?_⟩
  · rw [hat.ctx]; exact hm.get
  · exact ⟨⟨ip, slots, hat.setFrames _, h1, h2⟩, hg⟩

theorem Here.pop {v : Val F} (h : Here K a st vm ip (stk ++ [v])) :
    ∃ vm', vm.pop = .ok (v, vm') ∧ Here K a st vm' ip stk := by
  obtain ⟨⟨last, slots, hat, h1, h2⟩, hg⟩ := h
  rw [← List.append_assoc] at hat
  obtain ⟨vm', e, hat'⟩ := hat.pop
  have := hat'.globals
  exact ⟨vm', e, ⟨last, slots, this ▸ hat', h1, h2⟩, this.symm ▸ hg⟩

theorem Here.push (h : Here K a st vm ip stk) (v : Val F) :
    ∃ vm', vm.push v = .ok vm' ∧ Here K a st vm' ip (stk ++ [v]) := by
  obtain ⟨⟨last, slots, hat, h1, h2⟩, hg⟩ := h
  obtain ⟨vm', e, hat'⟩ := hat.push v
  have := hat'.globals
  rw [List.append_assoc] at hat'
  exact ⟨vm', e, ⟨last, slots, this ▸ hat', h1, h2⟩, this.symm ▸ hg⟩

theorem Here.advance (h : Here K a st vm ip stk) :
    ∃ vm', vm.advance = .ok vm' ∧ Here K a st vm' (ip + 1) stk := by
  obtain ⟨⟨last, slots, hat, h1, h2⟩, hg⟩ := h
  obtain ⟨vm', e, hat'⟩ := hat.advance
  have := hat'.globals
  exact ⟨vm', e, ⟨last, slots, this ▸ hat', h1, h2⟩, this.symm ▸ hg⟩

theorem Here.jump (h : Here K a st vm ip stk) (ip' : Nat) :
    ∃ f fs, vm.frames = f :: fs ∧ Here K a st { vm with frames := { f with ip := ip' } :: fs } ip' stk := by
  obtain ⟨⟨last, slots, hat, h1, h2⟩, hg⟩ := h
  exact ⟨_, _, hat.frames, ⟨last, slots, hat.setFrames _, h1, h2⟩, hg⟩

theorem Here.setWorld (h : Here K a st vm ip stk) (w : World F) :
    Here K a { st with world := w } { vm with world := w } ip stk := by
  obtain ⟨⟨last, slots, hat, h1, h2⟩, hg⟩ := h
  exact ⟨⟨last, slots, hat.setWorld _, h1, h2⟩, hg⟩

theorem Here.world (h : Here K a st vm ip stk) : vm.world = st.world := by
  obtain ⟨⟨last, slots, hat, h1, h2⟩, hg⟩ := h
  exact hat.world

theorem Here.ctx (h : Here K a st vm ip stk) : vm.ctx = a.cm.ref := by
  obtain ⟨⟨last, slots, hat, h1, h2⟩, hg⟩ := h
  exact hat.ctx

/-- The position does not matter for what is stored. -/
theorem Here.move (h : Here K a st vm ip stk) {ip' : Nat} (e : ip = ip') : Here K a st vm ip' stk := e ▸ h

/-- Raising an error. -/
theorem Here.throw (hm : CModOk K a.cm) (h : Here K a st vm ip stk) (msg : String) :
    ∃ pre, throwErr K.prog vm msg = .err (pre ++ msg ++ ".") vm := by
  obtain ⟨⟨last, slots, hat, h1, h2⟩, hg⟩ := h
  obtain ⟨n, hn⟩ := hm.src
  refine throwErr_reports K.prog vm a.cm.image msg ?_ n hn ?_
  · rw [hat.ctx]; exact hm.get
  · rw [hat.frames]; simp

theorem Here.throws (hm : CModOk K a.cm) {vm0 : VM F} (h : Here K a st vm ip stk) {msg : String}
    (e : step K.cfg K.prog vm0 = .error (throwErr K.prog vm msg)) : RunsErr K vm0 msg st.world := by
  obtain ⟨pre, hp⟩ := h.throw hm msg
  exact ⟨vm0, vm, pre, .refl _, by rw [e, hp], h.world⟩

/-! ## Simulation -/

/-- What may be left on the stack and whether the piece may be left early: `any`, nothing left
(`tidy`), nothing left and not left early (`strict`). -/
inductive Mode where
  | any | tidy | strict
  deriving DecidableEq

def Mode.junk (m : Mode) (j : List (Val F)) : Prop := m = .any ∨ j = []

/-- The addresses of `continua` and `quebra`. -/
abbrev Loop := Option Nat × Option Nat

/-- Leaving early, with `stk` still on the stack. -/
def Leaves (K : Link F) (a : Act F) (m : Mode) (loop : Loop) (vm : VM F) (stk : List (Val F)) :
    Ctl F → St F → Prop
  | .quebra, st => m ≠ .strict ∧ ∃ x j vm', loop.2 = some x ∧ m.junk j ∧ Runs K vm vm' ∧
      Here K a st vm' x (stk ++ j)
  | .continua, st => m ≠ .strict ∧ ∃ x j vm', loop.1 = some x ∧ m.junk j ∧ Runs K vm vm' ∧
      Here K a st vm' x (stk ++ j)
  | .retorna v, st => m ≠ .strict ∧ ∃ x j vm', InsAt a.cm x .ret [] ∧ m.junk j ∧ Runs K vm vm' ∧
      Here K a st vm' x (stk ++ j ++ [v])

/-- The machine started at `vm` does what `o` says. -/
def Sim (K : Link F) (a : Act F) (m : Mode) (loop : Loop) (vm : VM F) (stk : List (Val F))
    {α : Type} (post : α → St F → VM F → List (Val F) → Prop) : Out F α → Prop
  | .stuck => True
  | .fuel n => Long K n vm
  | .fail msg w => RunsErr K vm msg w
  | .leave c st => Leaves K a m loop vm stk c st
  | .done x st => ∃ vm' j, m.junk j ∧ Runs K vm vm' ∧ post x st vm' (stk ++ j)

end

section
variable {K : Link F} {a : Act F} {m : Mode} {loop : Loop} {vm vm' : VM F} {stk : List (Val F)}
  {α β : Type} {P : α → St F → VM F → List (Val F) → Prop} {Q : β → St F → VM F → List (Val F) → Prop}

theorem Sim.runs {o : Out F α} (h : Runs K vm vm') (k : Sim K a m loop vm' stk P o) :
    Sim K a m loop vm stk P o := by
  cases o with
  | stuck => trivial
  | fuel n => exact h.long k
  | fail msg w => exact h.err k
  | leave c st =>
      cases c with
      | quebra => obtain ⟨h0, x, j, v, h1, h2, h3, h4⟩ := k; exact ⟨h0, x, j, v, h1, h2, h.trans h3, h4⟩
      | continua => obtain ⟨h0, x, j, v, h1, h2, h3, h4⟩ := k; exact ⟨h0, x, j, v, h1, h2, h.trans h3, h4⟩
      | retorna w => obtain ⟨h0, x, j, v, h1, h2, h3, h4⟩ := k; exact ⟨h0, x, j, v, h1, h2, h.trans h3, h4⟩
  | done x st => obtain ⟨v, j, h1, h2, h3⟩ := k; exact ⟨v, j, h1, h.trans h2, h3⟩

/-- One more round. -/
theorem Sim.tick {o : Out F α} (h : Runs1 K vm vm') (k : Sim K a m loop vm' stk P o) :
    Sim K a m loop vm stk P o.tick := by
  cases o with
  | fuel n => exact h.long k
  | _ => exact Sim.runs h.runs k

omit [FloatOps F] in
theorem Mode.junk_nil (m : Mode) : m.junk ([] : List (Val F)) := Or.inr rfl

omit [FloatOps F] in
theorem Mode.junk_append {j k : List (Val F)} (h : m.junk j) (h' : m.junk k) : m.junk (j ++ k) := by
  rcases h with h | h
  · exact Or.inl h
  · rcases h' with h' | h'
    · exact Or.inl h'
    · exact Or.inr (by simp [h, h'])

/-- Less of the stack is promised. -/
theorem Sim.keep {o : Out F α} {j : List (Val F)} (hj : m.junk j)
    (k : Sim K a m loop vm (stk ++ j) P o) : Sim K a m loop vm stk P o := by
  cases o with
  | stuck => trivial
  | fuel n => exact k
  | fail msg w => exact k
  | leave c st =>
      cases c with
      | quebra =>
          obtain ⟨h0, x, i, v, h1, h2, h3, h4⟩ := k
          exact ⟨h0, x, j ++ i, v, h1, Mode.junk_append hj h2, h3, by simpa using h4⟩
      | continua =>
          obtain ⟨h0, x, i, v, h1, h2, h3, h4⟩ := k
          exact ⟨h0, x, j ++ i, v, h1, Mode.junk_append hj h2, h3, by simpa using h4⟩
      | retorna w =>
          obtain ⟨h0, x, i, v, h1, h2, h3, h4⟩ := k
          exact ⟨h0, x, j ++ i, v, h1, Mode.junk_append hj h2, h3, by simpa using h4⟩
  | done x st =>
      obtain ⟨v, i, h1, h2, h3⟩ := k
      exact ⟨v, j ++ i, Mode.junk_append hj h1, h2, by simpa using h3⟩

/-- One thing after another. -/
theorem Sim.bind {o : Out F α} {f : α → St F → Out F β} (h : Sim K a m loop vm stk P o)
    (k : ∀ x st vm' j, m.junk j → P x st vm' (stk ++ j) → Sim K a m loop vm' (stk ++ j) Q (f x st)) :
    Sim K a m loop vm stk Q (o.next f) := by
  cases o with
  | stuck => trivial
  | fuel n => exact h
  | fail msg w => exact h
  | leave c st => cases c <;> exact h
  | done x st =>
      obtain ⟨v, j, h1, h2, h3⟩ := h
      exact Sim.runs h2 (Sim.keep h1 (k x st v j h1 h3))

/-- The same, when the first cannot be left and leaves nothing. -/
theorem Sim.bind1 {o : Out F α} {f : α → St F → Out F β} {loop' : Loop} {stk' : List (Val F)}
    (h : Sim K a .strict loop' vm stk' P o)
    (k : ∀ x st vm', P x st vm' stk' → Sim K a m loop vm' stk Q (f x st)) :
    Sim K a m loop vm stk Q (o.next f) := by
  cases o with
  | stuck => trivial
  | fuel n => exact h
  | fail msg w => exact h
  | leave c st => cases c <;> exact absurd rfl h.1
  | done x st =>
      obtain ⟨v, j, h1, h2, h3⟩ := h
      rcases h1 with h1 | h1
      · cases h1
      · subst h1
        rw [List.append_nil] at h3
        exact Sim.runs h2 (k x st v h3)

theorem Sim.pure {x : α} {st : St F} (h : P x st vm stk) : Sim K a m loop vm stk P (.done x st) :=
  ⟨vm, [], m.junk_nil, .refl _, by simpa using h⟩

/-- What is strict is good for every mode. -/
theorem Sim.relax {o : Out F α} {loop' : Loop} (h : Sim K a .strict loop' vm stk P o) :
    Sim K a m loop vm stk P o := by
  cases o with
  | stuck => trivial
  | fuel n => exact h
  | fail msg w => exact h
  | leave c st => cases c <;> exact absurd rfl h.1
  | done x st =>
      obtain ⟨v, j, h1, h2, h3⟩ := h
      rcases h1 with h1 | h1
      · cases h1
      · exact ⟨v, j, Or.inr h1, h2, h3⟩

/-- Weaker claims. -/
theorem Sim.imp {o : Out F α} {P' : α → St F → VM F → List (Val F) → Prop}
    (h : Sim K a m loop vm stk P o)
    (k : ∀ x st vm' j, P x st vm' (stk ++ j) → P' x st vm' (stk ++ j)) : Sim K a m loop vm stk P' o := by
  cases o with
  | stuck => trivial
  | fuel n => exact h
  | fail msg w => exact h
  | leave c st => cases c <;> exact h
  | done x st =>
      obtain ⟨v, j, h1, h2, h3⟩ := h
      exact ⟨v, j, h1, h2, k _ _ _ _ h3⟩

/-- A value on top of the stack at `ip`. -/
def Pushed (K : Link F) (a : Act F) (ip : Nat) : Val F → St F → VM F → List (Val F) → Prop :=
  fun v st vm k => Here K a st vm ip (k ++ [v])

/-- The machine at `ip`. -/
def Arrived (K : Link F) (a : Act F) (ip : Nat) : α → St F → VM F → List (Val F) → Prop :=
  fun _ st vm k => Here K a st vm ip k

end

end Compiled

end Amanda

import Verif.Spec.CoreRef
import Verif.Spec.CsrSpec
import Verif.Props.RefMmu
/-
The core of `Spec/CoreFlow` running privileged programs: CSR instructions, returns, fences, atomics, virtual memory,
exceptions and timer interrupts, and the reference model running beside it.

An instruction is what the decoder, the micro-operations, the functional units, the byte lanes, the CSR unit (Csr.cpp, model
`Csr`) and address translation make of the word at its address; the external state is memory and the CSR unit.  When the core
flushes it either goes on after the instruction it just retired, or takes the exception that the oldest instruction has, or an
interrupt; the CSR unit says where and with which registers (BackTop.cpp, C30, C77).

Simplifications: an address holds the same word in every address space the program executes it in, and program text is not
modified (`Covered` compares with memory); translation is what the manual says (C66, C67: the TLBs and the walker of the core);
the timer line changes between instructions; memory answers in program order (C53, C54).
-/
namespace Verif.SysRef
open Verif.Core Verif.CoreRef Verif.Decode Verif.Isa Verif.Spec.ByteMem Verif.Csr Verif.Csr.Spec
open Verif.Spec.Sv32 (Access)

/-- Memory, the CSR unit, and how many instructions, exceptions and interrupts there were. -/
structure Ext where
  mem : Mem
  csr : Csr.State
  k : Nat

/-- The physical address of an access; `none`: page fault. -/
def tr (x : Ext) (acc : Access) (v : W) : Option W :=
  (Props.specAccess (Props.busView (word x.mem)) (x.csr.file .mstatus) (x.csr.file .satp) x.csr.priv v acc).map (BitVec.ofNat 32)

/-- The timer line is sampled (`comb_interrupt_inject`, Csr.cpp:92-114). -/
def tick (tl : Nat → Bool) (x : Ext) : Ext :=
  { x with csr := (Csr.step idle nothing ⟨none, some (tl (x.k + 1))⟩ x.csr).getD x.csr, k := x.k + 1 }

/-- What the reorder buffer tells the CSR unit (Rob.cpp:301-339). -/
def reported (x : Ext) (r : Rob) : Ext := { x with csr := (Csr.step idle r noLines x.csr).getD x.csr }

/-- A CSR instruction: the request at execution (Exu.cpp:264-278), the write when it commits (Csr.cpp:328-397). -/
def csrInst (w a : W) (c : Csr.State) : Csr.State :=
  let u := decode w
  ((Csr.step (request u.func3.toNat u.imm u.destAreg u.csrIdx.toNat u.src2IsImm a) nothing noLines c).bind
    (Csr.step idle committed noLines)).getD c

/-- The word a load reads, before and after translation. -/
def loaded (w pc : W) (x : Ext) (a b : W) : W :=
  let p := (tr x .load (addrOf .ld w pc a b)).getD 0#32
  Lane.extractData (word x.mem p) p (decode w).func3

/-- The effect of an instruction, before the timer is looked at. -/
def act (w pc : W) (x : Ext) (a b : W) : Ext :=
  match (decode w).type with
  | .store | .amo =>
    if (decode w).type = .amo ∧ (decode w).amoOp = 2#7 then x
    else
      let p := (tr x .store (addrOf .sta w pc a b)).getD 0#32
      { x with mem := putLanes x.mem p (dataOf w pc a b (loaded w pc x a b)) (decode w).func3 }
  | .csr => { x with csr := csrInst w a x.csr }
  | .mret => reported x (mretAt pc)
  | .sret => reported x (sretAt pc)
  | _ => x

/-- Where the core goes on after an instruction that is no branch (BackTop.cpp: `epc` for returns, else the next word). -/
def resumePc (w pc : W) (x : Ext) : W :=
  match (decode w).type with
  | .mret => ((Csr.exception x.csr (mretAt pc)).2.2.epc).getD 0#32
  | .sret => ((Csr.exception x.csr (sretAt pc)).2.2.epc).getD 0#32
  | _ => pc + 4#32

/-- What the core makes of the word `w` at address `pc`; `serial`: Rob.cpp:46-52. -/
def sysSem (tl : Nat → Bool) (w pc : W) : Sem Ext where
  destEn := (decode w).destEn
  areg := (decode w).destAreg
  use1 := (decode w).src1En
  src1 := (decode w).src1Areg
  use2 := (decode w).src2En
  src2 := (decode w).src2Areg
  isBr := (decompose (decode w)).any fun m => m.iq == .br
  serial := (decode w).type ∈ [.csr, .ecall, .mret, .sret, .sfenceVma, .fenceI, .ebreak]
  value := fun x a b =>
    match (decode w).type with
    | .csr => (Csr.read x.csr (decode w).csrIdx.toNat).getD 0#32
    | .load | .amo => loaded w pc x a b
    | _ => (valueOf w pc a b).getD 0#32
  next := fun x a b => if (decompose (decode w)).any (fun m => m.iq == .br) then nextOf w pc a b else resumePc w pc x
  effect := fun x a b => tick tl (act w pc x a b)

/-- The program whose word at `pc` is `text pc`. -/
def program (tl : Nat → Bool) (text : W → W) (pc : W) : Sem Ext := sysSem tl (text pc) pc

/-- The exception of an instruction, with the trap value: the fetch faults, the decoder refuses it, it is an ECALL, its load
faults, its store faults (Rob.cpp:301-339; a read-modify-write instruction that faults on both accesses reports the store). -/
def faultOf (w pc : W) (x : Ext) (a b : W) : Option (Exc × W) :=
  if tr x .fetch pc = none then some (.pfInst, pc)
  else if (decode w).illegal then some (.illegal, w)
  else if (decode w).type = .ecall then some (.ecall, 0#32)
  else if ((decode w).type = .store ∨ ((decode w).type = .amo ∧ (decode w).amoOp ≠ 2#7)) ∧
      tr x .store (addrOf .sta w pc a b) = none then some (.pfStore, addrOf .sta w pc a b)
  else if ((decode w).type = .load ∨ ((decode w).type = .amo ∧ (decode w).amoOp ≠ 3#7)) ∧
      tr x .load (addrOf .ld w pc a b) = none then some (.pfLoad, addrOf .ld w pc a b)
  else none

/-- What happens at the architectural level. -/
inductive Event where
  | inst
  | trap (x : Exc) (v : W)
  | irq
  deriving DecidableEq, Repr

/-- What the reorder buffer reports for it. -/
def Event.rob (pc : W) : Event → Rob
  | .inst => nothing
  | .trap x v => x.report pc v
  | .irq => interruptAt pc 0#32

/-- Where a trap goes, and what it does to the external state. -/
def trapPc (r : Rob) (x : Ext) : W := ((Csr.exception x.csr r).2.2.trapPc).getD 0#32
def trapExt (tl : Nat → Bool) (r : Rob) (x : Ext) : Ext := tick tl (reported x r)

/-! ### The core -/

variable (tl : Nat → Bool) (text : W → W) (P A N : Nat)

/-- The exception of the task `k` after the tasks `pre`, from the physical registers it reads. -/
def taskFault (s : State Ext) (pre : List Task) (k : Task) : Option (Exc × W) :=
  faultOf (text k.pc) k.pc (after (program tl text) s.isa pre).ext (k.arg1 (program tl text) s.prf) (k.arg2 (program tl text) s.prf)

/-- No instruction that retires has an exception, and no interrupt is requested before it (C16, C17, C29). -/
def Clean (s : State Ext) (c : Cyc Ext) : Prop :=
  ∀ pre k post, retired s c = pre ++ k :: post → taskFault tl text s pre k = none ∧
    (after (program tl text) s.isa pre).ext.csr.interruptReq = false

/-- The core, with what happened so far. -/
inductive SysReach (s0 : State Ext) : State Ext → List Event → Prop
  | init : SysReach s0 s0 []
  | run {s l} {pre post : List Task} {k : Task} : SysReach s0 s l → s.tasks = pre ++ k :: post → CanRun (program tl text) pre k →
      SysReach s0 (finish (program tl text) s pre k post) l
  | write {s l} {pre post : List Task} {k : Task} : SysReach s0 s l → s.tasks = pre ++ k :: post →
      CanWrite (program tl text) pre k → SysReach s0 (write (program tl text) s pre k post) l
  /-- a cycle that retires some instructions -/
  | quiet {s l} (c : Cyc Ext) : SysReach s0 s l → Valid (program tl text) P A N s c → c.flush = false → Clean tl text s c →
      SysReach s0 (cycle (program tl text) P A N s c) (l ++ (retired s c).map fun _ => .inst)
  /-- a cycle that retires some instructions, the last of which flushes the pipeline -/
  | resume {s l} (c : Cyc Ext) (ret : List Task) (k : Task) : SysReach s0 s l → Valid (program tl text) P A N s c →
      c.flush = true → c.exc = false → c.interrupt = false → retired s c = ret ++ [k] → (program tl text k.pc).isBr = false →
      Clean tl text s c → c.target = resumePc (text k.pc) k.pc (after (program tl text) s.isa ret).ext → c.g = id →
      SysReach s0 (cycle (program tl text) P A N s c) (l ++ (retired s c).map fun _ => .inst)
  /-- the oldest instruction has an exception -/
  | trap {s l} (c : Cyc Ext) (k : Task) (post : List Task) (x : Exc) (v : W) : SysReach s0 s l →
      Valid (program tl text) P A N s c → c.flush = true → c.exc = true → c.interrupt = false → s.tasks = k :: post →
      taskFault tl text s [] k = some (x, v) → s.isa.ext.csr.interruptReq = false →
      c.target = trapPc (x.report k.pc v) s.isa.ext → c.g = trapExt tl (x.report k.pc v) →
      SysReach s0 (cycle (program tl text) P A N s c) (l ++ [.trap x v])
  /-- an interrupt is taken before the oldest instruction -/
  | irq {s l} (c : Cyc Ext) (k : Task) (post : List Task) : SysReach s0 s l → Valid (program tl text) P A N s c →
      c.flush = true → c.interrupt = true → s.tasks = k :: post → s.isa.ext.csr.interruptReq = true →
      c.target = trapPc (interruptAt k.pc 0#32) s.isa.ext → c.g = trapExt tl (interruptAt k.pc 0#32) →
      SysReach s0 (cycle (program tl text) P A N s c) (l ++ [.irq])

/-! ### The instruction-set machine -/

def sysStep (σ : Isa Ext) : Event → Isa Ext
  | .inst => exec (program tl text σ.pc) σ
  | .trap x v => ⟨trapPc (x.report σ.pc v) σ.ext, σ.regs, trapExt tl (x.report σ.pc v) σ.ext⟩
  | .irq => ⟨trapPc (interruptAt σ.pc 0#32) σ.ext, σ.regs, trapExt tl (interruptAt σ.pc 0#32) σ.ext⟩

def sysRun (σ : Isa Ext) (l : List Event) : Isa Ext := l.foldl (sysStep tl text) σ

/-- The event is what the architecture prescribes in state `σ`: an interrupt if one is requested, the exception of the
instruction if it has one, else its execution. -/
def Right (σ : Isa Ext) (i : Event) : Prop :=
  let f := faultOf (text σ.pc) σ.pc σ.ext ((program tl text σ.pc).arg1 σ.regs) ((program tl text σ.pc).arg2 σ.regs)
  match i with
  | .irq => σ.ext.csr.interruptReq = true
  | .trap x v => σ.ext.csr.interruptReq = false ∧ f = some (x, v)
  | .inst => σ.ext.csr.interruptReq = false ∧ f = none

/-- All the events are. -/
def AllRight : Isa Ext → List Event → Prop
  | _, [] => True
  | σ, i :: l => Right tl text σ i ∧ AllRight (sysStep tl text σ i) l

/-! ### What is covered -/

/-- The instructions. -/
inductive Kind (x : Ext) (r : Nat → W) (w : W) : Prop
  | int (ins : Instr) : w = ins.encode → ¬ Exec.rotZero ins r → Kind x r w
  | branch (op : BrOp) (imm : BitVec 12) (rs2 rs1 : BitVec 5) : w = encB imm rs2 rs1 op.funct3 0b1100011#7 → Kind x r w
  | load (sz : Size) (sg : Bool) (f3 : BitVec 3) (imm : BitVec 12) (rs1 rd : BitVec 5) : loadCode sz sg = some f3 →
      w = encI imm rs1 f3 rd 0b0000011#7 →
      (∀ p, tr x .load (r rs1.toNat + imm.signExtend 32) = some p → aligned sz p ∧ ¬ Props.Device p) → Kind x r w
  | store (sz : Size) (imm : BitVec 12) (rs2 rs1 : BitVec 5) : w = encS imm rs2 rs1 sz.code 0b0100011#7 →
      (∀ p, tr x .store (r rs1.toNat + imm.signExtend 32) = some p → aligned sz p ∧ ¬ Props.Device p) → Kind x r w
  | amo (op : AmoOp) (aqrl : BitVec 2) (rs2 rs1 rd : BitVec 5) : w = Props.encAmo op.funct5 aqrl rs2 rs1 rd →
      (∀ p, tr x .store (r rs1.toNat) = some p → aligned .word p ∧ ¬ Props.Device p) → Kind x r w
  | lr (aqrl : BitVec 2) (rs1 rd : BitVec 5) : w = Props.encAmo 2#5 aqrl 0#5 rs1 rd →
      (∀ p, tr x .load (r rs1.toNat) = some p → aligned .word p ∧ ¬ Props.Device p) → Kind x r w
  /-- CSRRW …; not CSRRWI with zero, not writes of `mip`, `sip` (C82) -/
  | csr (g : Reg) : w.extractLsb' 0 7 = 0x73#7 → w.extractLsb' 12 2 ≠ 0#2 → w.extractLsb' 20 12 = BitVec.ofNat 12 (number g) →
      (w.extractLsb' 12 3 = 5#3 → w.extractLsb' 15 5 ≠ 0#5) →
      (g = .mip ∨ g = .sip → w.extractLsb' 12 3 ≠ 1#3 ∧ w.extractLsb' 15 5 = 0#5) → Kind x r w
  /-- a CSR that does not exist -/
  | noCsr : w.extractLsb' 0 7 = 0x73#7 → w.extractLsb' 12 2 ≠ 0#2 → (∀ g, (w.extractLsb' 20 12).toNat ≠ number g) →
      w.extractLsb' 20 12 ≠ 0xc01#12 → w.extractLsb' 20 12 ≠ 0xc81#12 → Kind x r w
  | mret : w = 0x30200073#32 → Kind x r w
  | sret : w = 0x10200073#32 → Kind x r w
  | fence (imm : BitVec 12) (rs1 rd : BitVec 5) (f3 : BitVec 3) : w = encI imm rs1 f3 rd 0b0001111#7 → Kind x r w
  | sfence (rs2 rs1 : BitVec 5) : w = encR 0b0001001#7 rs2 rs1 0#3 0#5 0b1110011#7 → Kind x r w

/-- The exceptions: ECALL, a fetch, a load, LR, a store, SC that faults, a read of the time CSRs. -/
inductive Cause (w : W) : Exc → Prop
  | ecall : w = 0x00000073#32 → Cause w .ecall
  | load : w.extractLsb' 0 7 = 0x03#7 → Cause w .pfLoad
  | lr : w.extractLsb' 0 7 = 0x2f#7 → w.extractLsb' 27 5 = 2#5 → Cause w .pfLoad
  | store : w.extractLsb' 0 7 = 0x23#7 → Cause w .pfStore
  | sc : w.extractLsb' 0 7 = 0x2f#7 → w.extractLsb' 27 5 = 3#5 → Cause w .pfStore
  | time : w.extractLsb' 0 7 = 0x73#7 → w.extractLsb' 12 2 ≠ 0#2 →
      w.extractLsb' 20 12 = 0xc01#12 ∨ w.extractLsb' 20 12 = 0xc81#12 → Cause w .illegal

/-- The privilege levels in force are U, S or M. -/
def Level (c : Csr.State) : Prop :=
  c.priv ∈ [0, 1, 3] ∧ Props.effPriv (c.file .mstatus) c.priv .load ∈ [0, 1, 3]

/-- What the core executes is what is in memory. -/
def Present (σ : Isa Ext) : Prop := ∃ p, tr σ.ext .fetch σ.pc = some p ∧ word σ.ext.mem p = text σ.pc

/-- One event, after `prev`.  Exceptions: the trap vectors are direct, illegal instructions are not delegated (C81); a fetch
that faults does not follow an ECALL or an interrupt (C81), and is not a supervisor fetch from a user superpage (C31).
Interrupts: not at an ECALL or EBREAK, not with the reserved vector mode (C81). -/
def Fits (prev : Option Event) (σ : Isa Ext) (i : Event) : Prop :=
  Level σ.ext.csr ∧
  match i with
  | .inst => Present text σ ∧ Kind σ.ext σ.regs (text σ.pc)
  | .trap .pfInst _ => RefCpu.Spec.Direct σ.ext.csr.file ∧ (∀ v, prev ≠ some (.trap .ecall v)) ∧ prev ≠ some .irq ∧
      ¬ Props.SuperUserFetch (word σ.ext.mem) (σ.ext.csr.file .satp) σ.pc .fetch (if σ.ext.csr.priv = 0 then .user else .supervisor)
        ((σ.ext.csr.file .mstatus).getLsbD 18)
  | .trap x _ => Present text σ ∧ Cause (text σ.pc) x ∧ RefCpu.Spec.Direct σ.ext.csr.file ∧
      (x = .illegal → (σ.ext.csr.file .medeleg).getLsbD 2 = false)
  | .irq => Present text σ ∧ text σ.pc ≠ 0x00000073#32 ∧ text σ.pc ≠ 0x00100073#32 ∧
      σ.ext.csr.file .mtvec &&& 3#32 ≠ 2#32 ∧ σ.ext.csr.file .stvec &&& 3#32 ≠ 2#32

/-- The whole execution stays within these limits. -/
def Covered : Option Event → Isa Ext → List Event → Prop
  | _, _, [] => True
  | prev, σ, i :: l => Fits text prev σ i ∧ Covered (some i) (sysStep tl text σ i) l

/-! ### The reference -/

/-- `exec` once for every event, from the `k`-th on. -/
def refRun (F : Fp.SoftFloat) (e : Nat → RefCpu.Env) : Nat → Nat → RefCpu.State → Option RefCpu.State
  | _, 0, s => some s
  | k, n + 1, s => (RefCpu.exec F (e k) s).bind (refRun F e (k + 1) n)

/-- If the reference consults the core's fault flags (`refcpu_set_dut_expected_faults`), they are those of the event. -/
def Told (e : RefCpu.Env) (i : Event) : Prop :=
  e.check = true → (e.dutInst = true ↔ ∃ v, i = .trap .pfInst v) ∧ (e.dutLoad = true ↔ ∃ v, i = .trap .pfLoad v) ∧
    (e.dutStore = true ↔ ∃ v, i = .trap .pfStore v)

/-- The reference, having sampled its timer, is in the state `σ`. -/
structure Agrees (e : RefCpu.Env) (σ : Isa Ext) (s : RefCpu.State) : Prop where
  regs : ∀ a, a < 32 → s.gpr a = σ.regs a
  zero : σ.regs 0 = 0#32
  pc : s.pc = σ.pc
  mem : RefMem.view s.mem = σ.ext.mem
  csr : RefCpu.Spec.Same σ.ext.csr (RefCpu.syncTimer e s)
  /-- the last store was not to a device -/
  last : ¬ Props.Device s.mem.storeAddr

end Verif.SysRef

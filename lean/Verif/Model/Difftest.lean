import Verif.Model.RefMem
import Verif.Model.Csr
/-
Differential testing: what the simulator compares at every committed instruction (diff/diff.cpp) and how it
prepares the comparison (`SimCpu::difftest_prepare`, rv_simu_mmu_v2.cpp:779-887; `SimContext::run_difftest_inst`,
rv_simu_mmu_v2.cpp:901-917, called from Ren.cpp:314-319 once per committed instruction).

The reference that is linked (`refcpu_*`, GenSimpoint/librefcpu.a) is not part of the repository, so it is a parameter:
`Reference`.
-/
namespace Verif.Difftest
open Verif.Csr

/-- `CPU_state`, ref.h:68-85 (`inst_idx` and `commit_pc`, used in messages only, are left out). -/
structure Cpu where
  gpr : Nat → BitVec 32
  csr : File
  pc : BitVec 32
  store : Bool
  storeAddr : BitVec 32
  storeData : BitVec 32
  storeStrb : BitVec 32
  inst : BitVec 32
  pfInst : Bool
  pfLoad : Bool
  pfStore : Bool
  resValid : Bool
  resAddr : BitVec 32

/-- The fault flags handed over with `refcpu_set_dut_expected_faults`. -/
structure Faults where
  inst : Bool
  load : Bool
  store : Bool
  deriving DecidableEq, Repr

def Cpu.faults (d : Cpu) : Faults := ⟨d.pfInst, d.pfLoad, d.pfStore⟩

/-- The linked reference: `refcpu_step` after the expected faults and the time have been set, `refcpu_set_state`
likewise, `refcpu_get_state` and `refcpu_get_step_info` (of which instruction and fault flags are used; they are taken
from one `Cpu`). -/
structure Reference where
  R : Type
  step : Faults → Nat → R → R
  load : Faults → Nat → Cpu → Nat → R → R
  view : R → Cpu

/-- `StqEntry` as far as `difftest_prepare` looks at it; `ours`: its rob index and flag are the instruction's. -/
structure StqView where
  suppress : Bool
  ours : Bool
  paddrValid : Bool
  dataValid : Bool
  paddr : BitVec 32
  data : BitVec 32
  func3 : BitVec 3

/-- What `difftest_prepare` reads of the core when an instruction commits. -/
structure Commit where
  /-- `reg_file_1[arch_RAT_1[i]]` -/
  reg : Nat → BitVec 32
  isStore : Bool
  isLoad : Bool
  stq : StqView
  pfInst : Bool
  pfLoad : Bool
  pfStore : Bool
  mmio : Bool
  inst : BitVec 32
  /-- the injected lines: external, timer -/
  lines : Inject
  /-- `CSR_RegFile_1`, `privilege_1` -/
  csr : File
  priv : Nat
  /-- `is_branch(type) || type == JAL` -/
  jumps : Bool
  flush : Bool
  interrupt : Bool
  diagVal : BitVec 32
  pc : BitVec 32
  skip : Bool

/-- rv_simu_mmu_v2.cpp:829-833, diff.cpp:214-218. -/
def irqCsr (w : BitVec 32) : Bool :=
  decide (w &&& 0x7f#32 = 0x73#32) && (decide (w >>> 20 = 0x344#32) || decide (w >>> 20 = 0x144#32))

/-- The store as reported, rv_simu_mmu_v2.cpp:795-820: the new `store`, address and data, and whether to synchronise. -/
def prepareStore (c : Commit) (d : Cpu) : Cpu × Bool :=
  if c.isStore && !c.pfStore then
    let e := c.stq
    if e.suppress && e.ours then ({ d with store := false }, false)
    else if !(e.paddrValid && e.dataValid) then ({ d with store := false }, true)
    else
      let v := if e.func3 = 0#3 then e.data &&& 0xFF#32 else if e.func3 = 1#3 then e.data &&& 0xFFFF#32 else e.data
      ({ d with store := true, storeAddr := e.paddr, storeData := v <<< ((e.paddr &&& 3#32).toNat * 8) }, false)
  else ({ d with store := false }, false)

/-- One line of rv_simu_mmu_v2.cpp:845-874: hidden, or made visible. -/
def showLine (visible : Bool) (line : Option Bool) (b m : BitVec 32) : BitVec 32 :=
  match line with
  | none => m
  | some v => if visible && v then m ||| b else m &&& ~~~b

/-- The CSRs as reported, rv_simu_mmu_v2.cpp:840-874. -/
def prepareCsr (c : Commit) : File :=
  let m := showLine (irqCsr c.inst) c.lines.timer MTIP (showLine (irqCsr c.inst) c.lines.ext MEIP (c.csr .mip))
  set (set c.csr .mip m) .sip (m &&& 0x333#32)

/-- `SimCpu::difftest_prepare`, rv_simu_mmu_v2.cpp:779-887: the state shown to the checker and `*sync`.  `d` is the global
`dut_cpu` before. -/
def prepare (c : Commit) (d : Cpu) : Cpu × Bool :=
  let (d1, s1) := prepareStore c { d with gpr := c.reg }
  let s2 := c.mmio && c.isStore && !c.pfStore
  let s3 := c.mmio && c.isLoad && !c.pfLoad
  let s4 := irqCsr c.inst && (c.lines.ext.isSome || c.lines.timer.isSome)
  ({ d1 with
      csr := prepareCsr c
      pc := if c.jumps || c.flush then c.diagVal else c.pc + 4#32
      inst := c.inst
      pfInst := c.pfInst
      pfLoad := c.pfLoad
      pfStore := c.pfStore },
    s1 || s2 || s3 || s4 || c.skip || c.interrupt)

/-- The CSRs as compared, diff.cpp:209-224. -/
def maskIrq (w : BitVec 32) (f : File) : File :=
  if irqCsr w then f
  else
    let m := f .mip &&& ~~~(MEIP ||| MTIP)
    set (set f .mip m) .sip (m &&& 0x333#32)

def allRegs : List Reg :=
  [.mtvec, .mepc, .mcause, .mie, .mip, .mtval, .mscratch, .mstatus, .mideleg, .medeleg,
   .sepc, .stvec, .scause, .sscratch, .stval, .sstatus, .sie, .sip, .satp, .mhartid, .misa]

/-- `checkregs`, diff.cpp:205-262: true if no fault is reported. -/
def check (r d : Cpu) : Bool :=
  let rc := maskIrq r.inst r.csr
  let dc := maskIrq r.inst d.csr
  if r.pc ≠ d.pc then false
  else if !r.pfInst && r.inst != d.inst then false
  else if r.pfInst != d.pfInst then false
  else if r.pfLoad != d.pfLoad then false
  else if r.pfStore != d.pfStore then false
  else if !(List.range 32).all (fun i => r.gpr i == d.gpr i) then false
  else if !allRegs.all (fun q => rc q == dc q) then false
  else if r.store then
    if d.store != r.store then false
    else if d.storeData != r.storeData then false
    else if d.storeAddr != r.storeAddr then false
    else true
  else true

/-- The state of the test: the reference and the global `dut_cpu`. -/
structure Test (F : Reference) where
  ref : F.R
  dut : Cpu

/-- `run_difftest_inst`, rv_simu_mmu_v2.cpp:901-917 with `difftest_step` (diff.cpp:327-336) and `difftest_sync_from_dut`
(diff.cpp:305-313): one committed instruction at the time `now`.  `none`: a mismatch is reported and the program ends. -/
def commit (F : Reference) (now : Nat) (c : Commit) (t : Test F) : Option (Test F) :=
  let (d, sync) := prepare c t.dut
  if sync then some ⟨F.load d.faults now d c.priv t.ref, d⟩
  else
    let r := F.step d.faults now t.ref
    if check (F.view r) d then some ⟨r, d⟩ else none

/-- The commits of a run. -/
def run (F : Reference) : List (Nat × Commit) → Test F → Option (Test F)
  | [], t => some t
  | (n, c) :: l, t => (commit F n c t).bind (run F l)

end Verif.Difftest

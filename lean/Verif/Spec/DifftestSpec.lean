import Verif.Model.Difftest
/-
What a passed comparison is supposed to mean, and which instructions are exempt.
-/
namespace Verif.Difftest.Spec
open Verif.Csr

/-- A SYSTEM instruction whose CSR field is `mip` or `sip`. -/
def NamesPending (w : BitVec 32) : Prop :=
  w.extractLsb' 0 7 = 0x73#7 ∧ (w.extractLsb' 20 12 = 0x344#12 ∨ w.extractLsb' 20 12 = 0x144#12)

/-- The architectural state of core (`d`) and reference (`r`) after an instruction agrees. -/
structure Agree (r d : Cpu) : Prop where
  pc : d.pc = r.pc
  word : r.pfInst = false → d.inst = r.inst
  fetchFault : d.pfInst = r.pfInst
  loadFault : d.pfLoad = r.pfLoad
  storeFault : d.pfStore = r.pfStore
  regs : ∀ i < 32, d.gpr i = r.gpr i
  csrs : ∀ q, q ≠ .mip → q ≠ .sip → d.csr q = r.csr q
  /-- the pending bits the devices drive (7 and 11) count only for instructions that look at them -/
  pending : ∀ i < 32, i ≠ 7 → i ≠ 11 → (d.csr .mip).getLsbD i = (r.csr .mip).getLsbD i
  pendingAll : NamesPending r.inst → d.csr .mip = r.csr .mip ∧ d.csr .sip = r.csr .sip
  /-- a store of the reference is made by the core, at the same address with the same data -/
  memory : r.store = true → d.store = true ∧ d.storeAddr = r.storeAddr ∧ d.storeData = r.storeData

/-- The instruction's memory access is made: it is a store (load) that does not fault. -/
def Commit.stores (c : Commit) : Prop := c.isStore = true ∧ c.pfStore = false
def Commit.loads (c : Commit) : Prop := c.isLoad = true ∧ c.pfLoad = false

/-- The store is a store-conditional that failed. -/
def Commit.failed (c : Commit) : Prop := c.stq.suppress = true ∧ c.stq.ours = true

/-- The instructions not compared: interrupted, marked (reads of the time), accessing a device, looking at pending bits while
a device drives one, or storing to an unknown address. -/
def Exempt (c : Commit) : Prop :=
  c.interrupt = true ∨ c.skip = true ∨ (c.mmio = true ∧ (Commit.stores c ∨ Commit.loads c)) ∨
  (NamesPending c.inst ∧ (c.lines.ext ≠ none ∨ c.lines.timer ≠ none)) ∨
  (Commit.stores c ∧ ¬ Commit.failed c ∧ (c.stq.paddrValid = false ∨ c.stq.dataValid = false))

/-- The value of the stored bytes, on their lanes. -/
def lanes (f3 : BitVec 3) (addr data : BitVec 32) : BitVec 32 :=
  let v : BitVec 32 := if f3 = 0#3 then (data.setWidth 8).setWidth 32 else if f3 = 1#3 then (data.setWidth 16).setWidth 32 else data
  v <<< (8 * (addr.toNat % 4))

/-- What the core shows of a committed instruction that is not exempt. -/
structure Shows (c : Commit) (d : Cpu) : Prop where
  regs : d.gpr = c.reg
  word : d.inst = c.inst
  fetchFault : d.pfInst = c.pfInst
  loadFault : d.pfLoad = c.pfLoad
  storeFault : d.pfStore = c.pfStore
  /-- jumps and flushing instructions: their target; all others: the next word -/
  next : d.pc = if c.jumps = true ∨ c.flush = true then c.diagVal else c.pc + 4#32
  csrs : ∀ q, q ≠ .mip → q ≠ .sip → d.csr q = c.csr q
  pending : ∀ i < 32, i ≠ 7 → i ≠ 11 → (d.csr .mip).getLsbD i = (c.csr .mip).getLsbD i
  /-- an instruction that names the pending registers is shown them as they are; to others a line that is driven is hidden -/
  named : NamesPending c.inst → d.csr .mip = c.csr .mip
  hidden : ¬ NamesPending c.inst → (c.lines.timer ≠ none → (d.csr .mip).getLsbD 7 = false) ∧
    (c.lines.ext ≠ none → (d.csr .mip).getLsbD 11 = false)
  sip : d.csr .sip = d.csr .mip &&& 0x333#32
  store : d.store = true ↔ Commit.stores c ∧ ¬ Commit.failed c
  memory : d.store = true → d.storeAddr = c.stq.paddr ∧ d.storeData = lanes c.stq.func3 c.stq.paddr c.stq.data

end Verif.Difftest.Spec

import Verif.Spec.CoreFlow
import Verif.Spec.RefStep
import Verif.Props.DecodeLegal
import Verif.Props.RefMem
import Verif.Props.Decode
/-
The core of `Spec/CoreFlow` running machine words: an instruction is what the decoder (Idu.cpp), the splitting into
micro-operations (Dispatch.cpp), the functional units (Fu.h) and the byte-lane helpers of the load/store unit (MemUtils.h)
make of the word at its address; the external state is the memory, byte by byte.  And the reference model running on its own.

Simplifications: physical addresses (no translation), no interrupts; the words of the program are integer, multiplication,
division, bit-manipulation, jump, branch, load, store and read-modify-write instructions (`Step`).  Memory answers in program order
(C53, C54).
-/
namespace Verif.CoreRef
open Verif.Core Verif.Decode Verif.Isa Verif.Spec.ByteMem


/-- The value-producing micro-operation on its operands (first micro-operation; Dispatch.cpp:797-992). -/
def valueOf (w pc a b : W) : Option W :=
  match decompose (decode w) with
  | m :: _ => intResult m pc a b
  | [] => none

/-- The next pc found by the branch unit (Fu.h:349-418), or the next word. -/
def nextOf (w pc a b : W) : W :=
  match (decompose (decode w)).find? (fun m => m.iq == .br) with
  | some m => (Fu.bru (m.toInst pc a b false 0#32)).nextPc
  | none => pc + 4#32

/-- The address of the micro-operation on queue `q` (`AguUnit`, Fu.h:227-233). -/
def addrOf (q : Iq) (w pc a b : W) : W :=
  match (decompose (decode w)).find? (fun m => m.iq == q) with
  | some m => Fu.agu (m.toInst pc a b false 0#32)
  | none => 0#32

/-- The store data (`SduUnit`, Fu.h:244-297); source 1 of a read-modify-write instruction is the loaded value
(Dispatch.cpp:938). -/
def dataOf (w pc a b old : W) : W :=
  match (decompose (decode w)).find? (fun m => m.iq == .std) with
  | some m => Fu.sdu (m.toInst pc (if m.src1FromDest then old else a) b false 0#32)
  | none => 0#32

/-- The lanes the strobe selects are replaced (MemUtils.h:47-74). -/
def putLanes (m : Mem) (p v : W) (f3 : BitVec 3) : Mem :=
  fun a => if a.toNat / 4 = p.toNat / 4 ∧ (Lane.storeStrb p f3).getLsbD (a.toNat % 4) = true
    then byteOf (Lane.alignStoreData v p f3) (a.toNat % 4) else m a

/-- What the core makes of the word `w` at address `pc`. -/
def coreSem (w pc : W) : Sem Mem where
  destEn := (decode w).destEn
  areg := (decode w).destAreg
  use1 := (decode w).src1En
  src1 := (decode w).src1Areg
  use2 := (decode w).src2En
  src2 := (decode w).src2Areg
  isBr := (decompose (decode w)).any fun m => m.iq == .br
  serial := false
  value := fun m a b =>
    if (decode w).type = .load ∨ (decode w).type = .amo then
      Lane.extractData (word m (addrOf .ld w pc a b)) (addrOf .ld w pc a b) (decode w).func3
    else (valueOf w pc a b).getD 0#32
  next := fun _ a b => nextOf w pc a b
  effect := fun m a b =>
    if (decode w).type = .store ∨ (decode w).type = .amo then
      putLanes m (addrOf .sta w pc a b)
        (dataOf w pc a b (Lane.extractData (word m (addrOf .ld w pc a b)) (addrOf .ld w pc a b) (decode w).func3)) (decode w).func3
    else m

/-- The program whose word at `pc` is `text pc`. -/
def program (text : W → W) (pc : W) : Sem Mem := coreSem (text pc) pc

/-- With the register values `x`, the word is one of the instructions covered, its accesses are aligned and not to the
simulator's devices, and it does not rotate by zero (undefined in both C++ models). -/
inductive Step (x : Nat → W) (w : W) : Prop
  | int (ins : Instr) : w = ins.encode → ¬ Exec.rotZero ins x → Step x w
  | branch (op : BrOp) (imm : BitVec 12) (rs2 rs1 : BitVec 5) : w = encB imm rs2 rs1 op.funct3 0b1100011#7 → Step x w
  | load (sz : Size) (sg : Bool) (f3 : BitVec 3) (imm : BitVec 12) (rs1 rd : BitVec 5) : loadCode sz sg = some f3 →
      w = encI imm rs1 f3 rd 0b0000011#7 → aligned sz (x rs1.toNat + imm.signExtend 32) →
      ¬ Props.Device (x rs1.toNat + imm.signExtend 32) → Step x w
  | store (sz : Size) (imm : BitVec 12) (rs2 rs1 : BitVec 5) : w = encS imm rs2 rs1 sz.code 0b0100011#7 →
      aligned sz (x rs1.toNat + imm.signExtend 32) → ¬ Props.Device (x rs1.toNat + imm.signExtend 32) → Step x w
  | amo (op : AmoOp) (aqrl : BitVec 2) (rs2 rs1 rd : BitVec 5) : w = Props.encAmo op.funct5 aqrl rs2 rs1 rd →
      aligned .word (x rs1.toNat) → ¬ Props.Device (x rs1.toNat) → Step x w

/-- The program runs for `n` instructions from `σ` within these limits, and what it executes is what is in memory. -/
def Runnable (text : W → W) : Nat → Isa Mem → Prop
  | 0, _ => True
  | n + 1, σ => σ.pc.toNat % 4 = 0 ∧ load σ.ext .word false σ.pc = text σ.pc ∧ Step σ.regs (text σ.pc) ∧
      Runnable text n (exec (program text σ.pc) σ)

/-- `n` calls of the reference model's `exec`, in any environment (time, fault flags of the core). -/
def refRun (F : Fp.SoftFloat) (e : Nat → RefCpu.Env) : Nat → RefCpu.State → Option RefCpu.State
  | 0, s => some s
  | n + 1, s => (RefCpu.exec F (e n) s).bind (refRun F e n)

/-- No translation, and no interrupt whatever is pending. -/
structure Calm (s : RefCpu.State) : Prop where
  fetch : RefMmu.fetchTranslation s.ctx = false
  data : RefMmu.dataTranslation s.ctx = false
  irq : ∀ mip, Csr.evalInterrupts (s.file .mstatus) (s.file .mie) mip (s.file .mideleg) s.priv = ⟨false, false, false, false, false, false⟩

/-- The reference is in the state `σ`. -/
structure Agrees (σ : Isa Mem) (s : RefCpu.State) : Prop where
  regs : ∀ a, a < 32 → s.gpr a = σ.regs a
  zero : σ.regs 0 = 0#32
  pc : s.pc = σ.pc
  mem : RefMem.view s.mem = σ.ext
  calm : Calm s

end Verif.CoreRef

import Verif.Model.RefCpu
import Verif.Spec.CsrSpec
/-
What "the reference executes the word `w`" and "the instruction raises this exception" mean, and what it means
that core and reference do the same.
-/
namespace Verif.RefCpu.Spec
open Verif.Csr Verif.Csr.Spec

/-- The reference fetches the word `w`: translation is off, or it succeeds. -/
def Fetches (e : Env) (s : State) (w : BitVec 32) : Prop :=
  (RefMmu.fetchTranslation s.ctx = false ∧ RefMem.loadWord s.mem s.pc = w) ∨
  (RefMmu.fetchTranslation s.ctx = true ∧ ∃ p, s.fix e s.pc 0 = .ok p ∧ RefMem.loadWord s.mem p = w)

/-- The address of a load, a store, and an atomic. -/
def loadAddr (s : State) (w : BitVec 32) : BitVec 32 :=
  s.gpr (w.extractLsb' 15 5).toNat + (w.extractLsb' 20 12).signExtend 32
def storeAddr (s : State) (w : BitVec 32) : BitVec 32 :=
  s.gpr (w.extractLsb' 15 5).toNat + (w.extractLsb' 25 7 ++ w.extractLsb' 7 5).signExtend 32
def amoAddr (s : State) (w : BitVec 32) : BitVec 32 := s.gpr (w.extractLsb' 15 5).toNat

/-- The data access of type `t` (1 load, 2 store) to `v` faults. -/
def DataFault (e : Env) (s : State) (v : BitVec 32) (t : Nat) : Prop :=
  RefMmu.dataTranslation s.ctx = true ∧ s.fix e v t = .fault

/-- The instruction at the program counter raises exception `x` with trap value `v`. -/
inductive Raises (e : Env) (s : State) : Exc → BitVec 32 → Prop
  | ecall : Fetches e s 0x00000073#32 → Raises e s .ecall 0#32
  | fetch : RefMmu.fetchTranslation s.ctx = true → s.fix e s.pc 0 = .fault → Raises e s .pfInst s.pc
  | load (w : BitVec 32) : Fetches e s w → w.extractLsb' 0 7 = 0x03#7 → DataFault e s (loadAddr s w) 1 →
      Raises e s .pfLoad (loadAddr s w)
  | lr (w : BitVec 32) : Fetches e s w → w.extractLsb' 0 7 = 0x2f#7 → w.extractLsb' 27 5 = 2#5 →
      DataFault e s (amoAddr s w) 1 → Raises e s .pfLoad (amoAddr s w)
  | store (w : BitVec 32) : Fetches e s w → w.extractLsb' 0 7 = 0x23#7 → DataFault e s (storeAddr s w) 2 →
      Raises e s .pfStore (storeAddr s w)
  | sc (w : BitVec 32) : Fetches e s w → w.extractLsb' 0 7 = 0x2f#7 → w.extractLsb' 27 5 = 3#5 →
      DataFault e s (amoAddr s w) 2 → Raises e s .pfStore (amoAddr s w)
  | time (w : BitVec 32) : Fetches e s w → w.extractLsb' 0 7 = 0x73#7 → w.extractLsb' 12 2 ≠ 0#2 →
      w.extractLsb' 20 12 = 0xc01#12 ∨ w.extractLsb' 20 12 = 0xc81#12 → Raises e s .illegal w

/-- The reference holds the core's CSRs and privilege level. -/
structure Same (c : Csr.State) (s : State) : Prop where
  file : s.file = c.file
  priv : s.priv = c.priv

/-- Memory and the registers are as before, but for register 0 which is reset to zero. -/
structure Untouched (s s' : State) : Prop where
  gpr : ∀ n, s'.gpr n = s.gpr n ∨ (n = 0 ∧ s'.gpr n = 0#32)
  mem : s'.mem = { s.mem with store := false }

/-- The timer bit of `mip` shows whether the reference's timer has expired. -/
def TimerSync (e : Env) (s : State) : Prop :=
  (s.file .mip).getLsbD 7 = true ↔ s.mem.timerCmp.toNat ≤ (e.now + s.mem.timerOff).toNat

/-- No interrupt was recognised when the previous instruction was executed, and it was not an ECALL: `exec` looks at both
again when the next fetch faults. -/
def Quiet (s : State) : Prop := s.inst ≠ 0x00000073#32 ∧ s.irq = ⟨false, false, false, false, false, false⟩

/-- The direct mode of both trap vectors. -/
def Direct (f : File) : Prop := f .mtvec &&& 3#32 = 0#32 ∧ f .stvec &&& 3#32 = 0#32

end Verif.RefCpu.Spec

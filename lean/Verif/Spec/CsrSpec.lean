/-
The parts of the RISC-V privileged architecture that the CSR properties refer to, stated bit by
bit and independently of how the program computes them.
-/
import Verif.Model.Csr
namespace Verif.Csr.Spec

/-- The fields of `mstatus` visible in `sstatus`: UIE, SIE, UPIE, SPIE, SPP, FS, XS, SUM, MXR, SD. -/
def sstatusFields : List Nat := [0, 1, 4, 5, 8, 13, 14, 15, 16, 18, 19, 31]

/-- The fields of `mie`/`mip` visible in `sie`/`sip`: user and supervisor software, timer, external. -/
def sinterruptFields : List Nat := [0, 1, 4, 5, 8, 9]

/-- Bit `i` of `v` is bit `i` of `m` if it is a visible field and zero otherwise. -/
def View (fields : List Nat) (m v : BitVec 32) : Prop :=
  ∀ i < 32, v.getLsbD i = (decide (i ∈ fields) && m.getLsbD i)

/-- The supervisor registers show their fields of the machine registers. -/
structure Consistent (f : File) : Prop where
  status : View sstatusFields (f .mstatus) (f .sstatus)
  ie : View sinterruptFields (f .mie) (f .sie)
  ip : View sinterruptFields (f .mip) (f .sip)

/-- States reachable by any sequence of requests, commits, traps, returns and interrupts. -/
inductive Reach : State → Prop
  | init : Reach .init
  | step (s s' : State) (e : Exe) (r : Rob) (x : Inject) : Reach s → step e r x s = some s' → Reach s'

/-! ### Interrupts -/

/-- The standard interrupts: SSI, MSI, STI, MTI, SEI, MEI. -/
def standard : List Nat := [1, 3, 5, 7, 9, 11]

/-- Interrupt `i` is pending, enabled, and its target mode accepts interrupts now: the target is S if the
interrupt is delegated, M otherwise; a mode accepts when the hart runs in a less privileged one, or
in that mode with its interrupt-enable bit (SIE = bit 1, MIE = bit 3 of `mstatus`). -/
def Taken (f : File) (priv : Nat) (deleg : BitVec 32) (i : Nat) : Prop :=
  (f .mip).getLsbD i = true ∧ (f .mie).getLsbD i = true ∧
    if deleg.getLsbD i then priv < 1 ∨ (priv = 1 ∧ (f .mstatus).getLsbD 1 = true)
    else priv < 3 ∨ (f .mstatus).getLsbD 3 = true

/-! ### Traps -/

/-- Exceptions the core raises. -/
inductive Exc where
  | ecall | pfInst | pfLoad | pfStore | illegal
  deriving DecidableEq, Repr

/-- The exception code. -/
def Exc.code (priv : Nat) : Exc → Nat
  | .ecall => 8 + priv
  | .pfInst => 12
  | .pfLoad => 13
  | .pfStore => 15
  | .illegal => 2

/-- The reorder buffer's report of an exception at `pc` with trap value `v`. -/
def Exc.report (pc v : BitVec 32) (x : Exc) : Rob :=
  { commit := false, interruptResp := false, ecall := x == .ecall, pfInst := x == .pfInst
    pfLoad := x == .pfLoad, pfStore := x == .pfStore, illegal := x == .illegal, mret := false
    sret := false, pc := pc, trapVal := v }

/-- The trap value: nothing for an environment call. -/
def Exc.value (v : BitVec 32) : Exc → BitVec 32
  | .ecall => 0#32
  | _ => v

/-- The report of an interrupt taken before the instruction at `pc`. -/
def interruptAt (pc v : BitVec 32) : Rob :=
  { commit := false, interruptResp := true, ecall := false, pfInst := false, pfLoad := false
    pfStore := false, illegal := false, mret := false, sret := false, pc := pc, trapVal := v }

def nothing : Rob :=
  { commit := false, interruptResp := false, ecall := false, pfInst := false, pfLoad := false
    pfStore := false, illegal := false, mret := false, sret := false, pc := 0#32, trapVal := 0#32 }

/-- The reorder buffer commits a CSR instruction. -/
def committed : Rob :=
  { commit := true, interruptResp := false, ecall := false, pfInst := false, pfLoad := false
    pfStore := false, illegal := false, mret := false, sret := false, pc := 0#32, trapVal := 0#32 }

/-- The reorder buffer commits an MRET / SRET at `pc`. -/
def mretAt (pc : BitVec 32) : Rob :=
  { commit := false, interruptResp := false, ecall := false, pfInst := false, pfLoad := false
    pfStore := false, illegal := false, mret := true, sret := false, pc := pc, trapVal := 0#32 }
def sretAt (pc : BitVec 32) : Rob :=
  { commit := false, interruptResp := false, ecall := false, pfInst := false, pfLoad := false
    pfStore := false, illegal := false, mret := false, sret := true, pc := pc, trapVal := 0#32 }

/-- No request from the execution unit. -/
def idle : Exe := ⟨false, false, 0, 0, 0#32⟩
/-- No interrupt line changes. -/
def noLines : Inject := ⟨none, none⟩

/-- A trap into M-mode: the hart state is saved in the machine registers, interrupts are disabled,
nothing else changes (apart from the `sstatus` view). -/
structure EnterM (s s' : State) (pc cause value : BitVec 32) : Prop where
  priv : s'.priv = 3
  epc : s'.file .mepc = pc
  cause : s'.file .mcause = cause
  tval : s'.file .mtval = value
  /-- MPP (12:11) := privilege, MPIE (7) := MIE (3), MIE := 0 -/
  status : ∀ i < 32, (s'.file .mstatus).getLsbD i =
    if i = 3 then false else if i = 7 then (s.file .mstatus).getLsbD 3
    else if i = 11 then s.priv.testBit 0 else if i = 12 then s.priv.testBit 1
    else (s.file .mstatus).getLsbD i
  other : ∀ r, r ∉ [Reg.mepc, .mcause, .mtval, .mstatus, .sstatus] → s'.file r = s.file r

/-- A trap into S-mode. -/
structure EnterS (s s' : State) (pc cause value : BitVec 32) : Prop where
  priv : s'.priv = 1
  epc : s'.file .sepc = pc
  cause : s'.file .scause = cause
  tval : s'.file .stval = value
  /-- SPP (8) := privilege, SPIE (5) := SIE (1), SIE := 0 -/
  status : ∀ i < 32, (s'.file .mstatus).getLsbD i =
    if i = 1 then false else if i = 5 then (s.file .mstatus).getLsbD 1
    else if i = 8 then decide (s.priv = 1) else (s.file .mstatus).getLsbD i
  other : ∀ r, r ∉ [Reg.sepc, .scause, .stval, .mstatus, .sstatus] → s'.file r = s.file r

/-- Trap vector: BASE is the register without its two low bits; in vectored mode (low bits 1)
interrupts go to BASE + 4 × code, everything else to BASE. -/
def target (tvec : BitVec 32) (interrupt : Bool) (code : Nat) : BitVec 32 :=
  let base := tvec &&& ~~~3#32
  if tvec &&& 3#32 = 1#32 ∧ interrupt = true then base + BitVec.ofNat 32 (4 * code) else base

/-! ### CSR instructions -/

/-- What a CSR write of operand `w` makes of the old value. -/
inductive Cmd where
  | write | set | clear
  deriving DecidableEq, Repr

def Cmd.code : Cmd → Nat
  | .write => 1
  | .set => 2
  | .clear => 3

def Cmd.apply (old w : BitVec 32) : Cmd → BitVec 32
  | .write => w
  | .set => old ||| w
  | .clear => old &&& ~~~w

/-- The bits of each register that software can change. -/
def writable : Reg → BitVec 32
  | .mstatus => 0x807FF9BB#32
  | .sstatus => 0x800DE133#32
  | .mie | .mip => 0xbbb#32
  | .sie | .sip => 0x333#32
  | _ => 0xffffffff#32

/-- The register numbers of the privileged architecture. -/
def number : Reg → Nat
  | .sstatus => 0x100 | .sie => 0x104 | .stvec => 0x105
  | .sscratch => 0x140 | .sepc => 0x141 | .scause => 0x142 | .stval => 0x143 | .sip => 0x144
  | .satp => 0x180
  | .mstatus => 0x300 | .misa => 0x301 | .medeleg => 0x302 | .mideleg => 0x303 | .mie => 0x304 | .mtvec => 0x305
  | .mscratch => 0x340 | .mepc => 0x341 | .mcause => 0x342 | .mtval => 0x343 | .mip => 0x344
  | .mhartid => 0xf14

/-- The other name of a register, if it has one. -/
def alias : Reg → Option Reg
  | .mstatus => some .sstatus
  | .sstatus => some .mstatus
  | .mie => some .sie
  | .sie => some .mie
  | .mip => some .sip
  | .sip => some .mip
  | _ => none

end Verif.Csr.Spec

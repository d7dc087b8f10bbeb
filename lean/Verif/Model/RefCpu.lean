import Verif.Model.RefIM
import Verif.Model.RefMmu
import Verif.Model.Csr
import Verif.Model.Zfinx
/-
The reference model's whole instruction step: `RefCpu::exec`, `exception`, `RISCV`, `RV32CSR`
(diff/ref.cpp:267-631, 851-979) on top of `RV32IM` (`Model.RefIM`), loads, stores and atomics
(`Model.RefMem`), translation (`Model.RefMmu`) and `RV32Zfinx` (`Model.Zfinx`).

Simplifications: the flags that only feed statistics (`is_csr`, `is_br`, `br_taken`, `is_mmio_*`) are left out;
the globals (simulation time, the core's fault flags set by `refcpu_set_dut_expected_faults`) are inputs of the step.
`none`: an `Assert`, an `exit` or an undefined shift.
-/
namespace Verif.RefCpu
open Verif.Csr

/-- `RefCpu` (ref.h:87-137).  `inst` is `Instruction`, `irq` the six interrupt members: both keep their values from
one call of `exec` to the next.  The `mip`, `sip` of `mem` are not used: they are entries of `file`. -/
structure State where
  mem : RefMem.State
  gpr : Nat → BitVec 32
  pc : BitVec 32
  file : File
  priv : Nat
  inst : BitVec 32
  irq : Irq
  pfInst : Bool
  pfLoad : Bool
  pfStore : Bool
  illegal : Bool
  simEnd : Bool

/-- What a step depends on besides the state: time, whether the core's fault flags are consulted
(`dut_pf_check_enable && !ref_only`), the flags, and `ref_only`. -/
structure Env where
  now : BitVec 64
  check : Bool
  refOnly : Bool
  dutInst : Bool
  dutLoad : Bool
  dutStore : Bool

/-- `dut_fault` in `va2pa_fix`, ref.cpp:1851-1862. -/
def Env.fault (e : Env) (type : Nat) : Bool :=
  if type = 0 then e.dutInst else if type = 1 then e.dutLoad else e.dutStore

abbrev INST_ECALL : BitVec 32 := 0x00000073#32
abbrev INST_EBREAK : BitVec 32 := 0x00100073#32
abbrev INST_MRET : BitVec 32 := 0x30200073#32
abbrev INST_SRET : BitVec 32 := 0x10200073#32
abbrev INST_WFI : BitVec 32 := 0x10500073#32

/-- Memory state with the interrupt registers of the file, and back. -/
def State.memIn (s : State) : RefMem.State := { s.mem with mip := s.file .mip, sip := s.file .sip }
def State.memOut (s : State) (m : RefMem.State) : State :=
  { s with mem := m, file := set (set s.file .mip m.mip) .sip m.sip }

def State.ctx (s : State) : RefMmu.Ctx := ⟨s.file .mstatus, s.file .satp, s.priv⟩

/-- `va2pa_fix` on the current state. -/
def State.fix (e : Env) (s : State) (v : BitVec 32) (type : Nat) : RefMmu.Fix :=
  RefMmu.va2paFix (RefMem.loadWord s.mem) s.ctx v type e.check (e.fault type)

/-- `ref_effective_mip`, ref.cpp:76-82. -/
def effMip (e : Env) (s : State) (mip : BitVec 32) : BitVec 32 :=
  if (RefMem.timerNow s.mem e.now).toNat ≥ s.mem.timerCmp.toNat then mip ||| MTIP else mip &&& ~~~MTIP

/-- `sync_timer_csrs`, ref.cpp:84-87. -/
def syncTimer (e : Env) (s : State) : State :=
  let m := effMip e s (s.file .mip)
  { s with file := set (set s.file .mip m) .sip (m &&& sieMask) }

/-- `MTrap`, ref.cpp:329-337. -/
def mTrap (s : State) : Bool :=
  let d := s.file .medeleg
  let ecall := decide (s.inst = INST_ECALL)
  s.irq.mSoft || s.irq.mTimer || s.irq.mExt ||
    (decide (s.priv = 0) && !bit d 8 && ecall) ||
    (ecall && decide (s.priv = 1) && !bit d 9) ||
    (ecall && decide (s.priv = 3)) ||
    (s.pfInst && !bit d 12) || (s.pfLoad && !bit d 13) || (s.pfStore && !bit d 15) || s.illegal

/-- `STrap`, ref.cpp:339-345. -/
def sTrap (s : State) : Bool :=
  let d := s.file .medeleg
  let ecall := decide (s.inst = INST_ECALL)
  s.irq.sSoft || s.irq.sTimer || s.irq.sExt ||
    (ecall && decide (s.priv = 0) && bit d 8) ||
    (ecall && decide (s.priv = 1) && bit d 9) ||
    (s.pfInst && bit d 12) || (s.pfLoad && bit d 13) || (s.pfStore && bit d 15)

/-- `cause` of a trap to M, ref.cpp:349-380. -/
def mCause (s : State) : BitVec 32 :=
  let d := s.file .medeleg
  let q := s.irq
  let ecall := decide (s.inst = INST_ECALL)
  (if q.mSoft || q.mTimer || q.mExt then 1#32 <<< 31 else 0#32) |||
  (if q.mSoft then 3#32
   else if q.mTimer then 7#32
   else if q.mExt || (ecall && decide (s.priv = 3) && !bit d 8) then 11#32
   else if ecall && decide (s.priv = 0) && !bit d 8 then 8#32
   else if ecall && decide (s.priv = 1) && !bit d 9 then 9#32
   else if s.pfInst && !bit d 12 then 12#32
   else if s.pfLoad && !bit d 13 then 13#32
   else if s.pfStore && !bit d 15 then 15#32
   else if s.illegal then 2#32 else 0#32)

/-- `cause` of a trap to S, ref.cpp:412-436. -/
def sCause (s : State) : BitVec 32 :=
  let d := s.file .medeleg
  let q := s.irq
  let ecall := decide (s.inst = INST_ECALL)
  (if q.sSoft || q.sTimer || q.sExt then 1#32 <<< 31 else 0#32) |||
  (if q.sExt || (ecall && decide (s.priv = 1) && bit d 9) then 9#32
   else if q.sTimer then 5#32
   else if ecall && decide (s.priv = 0) && bit d 8 then 8#32
   else if q.sSoft then 1#32
   else if s.pfInst && bit d 12 then 12#32
   else if s.pfLoad && bit d 13 then 13#32
   else if s.pfStore && bit d 15 then 15#32 else 0#32)

/-- `next_pc` of a trap, ref.cpp:383-388, 438-442. -/
def vector (tvec cause : BitVec 32) : BitVec 32 :=
  if on tvec 1#32 && on cause (1#32 <<< 31) then
    (tvec &&& 0xfffffffc#32) + 4#32 * (cause &&& 0x7fffffff#32)
  else tvec &&& 0xfffffffc#32

/-- `RefCpu::exception`, ref.cpp:297-507. -/
def exception (tval : BitVec 32) (s : State) : State :=
  let f := s.file
  if mTrap s then
    let ms := mstatusTrap (f .mstatus) s.priv
    let g := set (set (set (set f .mepc s.pc) .mcause (mCause s)) .mstatus ms) .sstatus (ms &&& sstatusMask)
    { s with file := set g .mtval tval, priv := 3, pc := vector (f .mtvec) (mCause s) }
  else if sTrap s then
    let ss := sstatusTrap (f .sstatus) s.priv
    let g := set (set (set (set f .sepc s.pc) .scause (sCause s)) .sstatus ss) .mstatus (mergeS (f .mstatus) ss)
    { s with file := set g .stval tval, priv := 1, pc := vector (f .stvec) (sCause s) }
  else if s.inst = INST_MRET then
    let ms := mstatusRet (f .mstatus)
    { s with
      file := set (set f .mstatus ms) .sstatus (ms &&& sstatusMask)
      priv := (((copyFlag (f .mstatus) MPIE MIE) >>> 11) &&& 3#32).toNat
      pc := f .mepc }
  else if s.inst = INST_SRET then
    let ss := sstatusRet (f .sstatus)
    { s with
      file := set (set f .sstatus ss) .mstatus (mergeS (f .mstatus) ss)
      priv := (((copyFlag (f .sstatus) SPIE SIE) >>> 8) &&& 1#32).toNat
      pc := f .sepc }
  else { s with pc := s.pc + 4#32 }

/-- The interrupt members as `RISCV` computes them, ref.cpp:550-590.  `mip` is `ref_effective_mip` of the register, which
`sync_timer_csrs` has just made equal to it. -/
def evalIrq (s : State) : Irq :=
  evalInterrupts (s.file .mstatus) (s.file .mie) (s.file .mip) (s.file .mideleg) s.priv

/-- `asy`, ref.cpp:593-609. -/
def asy (s : State) : Bool :=
  let d := s.file .medeleg
  let ecall := decide (s.inst = INST_ECALL)
  let m := s.irq.mSoft || s.irq.mTimer || s.irq.mExt ||
    (decide (s.priv = 0) && !bit d 8 && ecall) || (decide (s.priv = 1) && !bit d 9 && ecall) ||
    (decide (s.priv = 3) && ecall) || (s.pfInst && !bit d 12) || s.illegal
  let t := s.irq.sSoft || s.irq.sTimer || s.irq.sExt ||
    (decide (s.priv = 0) && bit d 8 && ecall) || (decide (s.priv = 1) && bit d 9 && ecall) ||
    (s.pfInst && bit d 12)
  m || t || decide (s.inst = INST_MRET) || decide (s.inst = INST_SRET)

/-- The value of a CSR as an instruction reads it, ref.cpp:892-900, 905-911. -/
def csrValue (e : Env) (s : State) (r : Reg) : BitVec 32 :=
  match r with
  | .mip => effMip e s (s.file .mip)
  | .sip => effMip e s (s.file .mip) &&& 0x333#32
  | r => s.file r

/-- `csr_wdata`, ref.cpp:912-919. -/
def csrCombine (wcmd : BitVec 3) (wdata old : BitVec 32) : BitVec 32 :=
  if wcmd = 1#3 then wdata else if wcmd = 2#3 then old ||| wdata
  else if wcmd = 3#3 then old &&& ~~~wdata else 0#32

/-- The write, ref.cpp:921-974.  The branch for `mip` and `sip` (939-957) compares an index below 21 with register
numbers 0x344 and 0x144 and is never taken. -/
def csrStore (f : File) (r : Reg) (w : BitVec 32) : File :=
  match r with
  | .sie =>
    let m := (f .mie &&& ~~~sieMask) ||| (w &&& sieMask)
    set (set f .mie m) .sie (m &&& sieMask)
  | .mie => set (set f .mie (w &&& mieMask)) .sie (w &&& mieMask &&& sieMask)
  | .sstatus =>
    let m := (f .mstatus &&& ~~~sstatusMask) ||| (w &&& sstatusMask)
    set (set f .mstatus m) .sstatus (m &&& sstatusMask)
  | .mstatus =>
    let m := (f .mstatus &&& ~~~mstatusMask) ||| (w &&& mstatusMask)
    set (set f .mstatus m) .sstatus (m &&& sstatusMask)
  | r => set f r w

/-- `RefCpu::RV32CSR`, ref.cpp:851-979. -/
def csrInst (e : Env) (s : State) : State :=
  let rd := (s.inst.extractLsb' 7 5).toNat
  let rs1 : BitVec 5 := s.inst.extractLsb' 15 5
  let f3 : BitVec 3 := s.inst.extractLsb' 12 3
  let num := (s.inst.extractLsb' 20 12).toNat
  let we := f3 = 1#3 ∨ rs1 ≠ 0#5
  let re := f3 ≠ 1#3 ∨ rd ≠ 0
  let wdata := if f3 &&& 4#3 ≠ 0#3 then rs1.setWidth 32 else s.gpr rs1.toNat
  if num = 0xc01 ∨ num = 0xc81 then exception s.inst { s with illegal := true }
  else
    match cvt num with
    | none => { s with pc := s.pc + 4#32 }
    | some r =>
      { s with
        gpr := if re then Ref.wr s.gpr rd (csrValue e s r) else s.gpr
        file := if we then csrStore s.file r (csrCombine (f3 &&& 3#3) wdata (csrValue e s r)) else s.file
        pc := s.pc + 4#32 }

/-- Loads, ref.cpp:1195-1253. -/
def loadInst (e : Env) (s : State) : Option State :=
  let f3 : BitVec 3 := s.inst.extractLsb' 12 3
  let v := s.gpr (s.inst.extractLsb' 15 5).toNat + (Decode.immI s.inst).setWidth 32
  let go (p : BitVec 32) : Option State :=
    (RefMem.load e.now s.memIn f3 p).map fun d =>
      { s with gpr := Ref.wr s.gpr (s.inst.extractLsb' 7 5).toNat d, pc := s.pc + 4#32 }
  if RefMmu.dataTranslation s.ctx then
    match s.fix e v 1 with
    | .abort => none
    | .fault => some (exception v { s with pfLoad := true })
    | .ok p => go p
  else go v

/-- Stores, ref.cpp:1255-1290. -/
def storeInst (e : Env) (s : State) : Option State :=
  let f3 : BitVec 3 := s.inst.extractLsb' 12 3
  let v := s.gpr (s.inst.extractLsb' 15 5).toNat + (Decode.immS s.inst).setWidth 32
  let go (p : BitVec 32) : Option State :=
    (RefMem.storeInst e.now s.memIn f3 p (s.gpr (s.inst.extractLsb' 20 5).toNat)).map fun m =>
      { s.memOut m with pc := s.pc + 4#32 }
  if RefMmu.dataTranslation s.ctx then
    match s.fix e v 2 with
    | .abort => none
    | .fault => some (exception v { s with pfStore := true })
    | .ok p => go p
  else go v

/-- `RefCpu::RV32A`, ref.cpp:980-1108. -/
def amoInst (e : Env) (s : State) : Option State :=
  let f5 : BitVec 5 := s.inst.extractLsb' 27 5
  let v := s.gpr (s.inst.extractLsb' 15 5).toNat
  let go (p : BitVec 32) : Option State :=
    (RefMem.amo e.now s.memIn f5 p (s.gpr (s.inst.extractLsb' 20 5).toNat)).map fun (r, m) =>
      { s.memOut m with
        gpr := match r with
          | some d => Ref.wr s.gpr (s.inst.extractLsb' 7 5).toNat d
          | none => s.gpr
        pc := s.pc + 4#32 }
  if RefMmu.dataTranslation s.ctx then
    if f5 = 2#5 then
      match s.fix e v 1 with
      | .abort => none
      | .fault => some (exception v { s with pfLoad := true })
      | .ok p => go p
    else if f5 = 3#5 then
      match s.fix e v 2 with
      | .abort => none
      | .fault => some (exception v { s with pfStore := true })
      | .ok p => go p
    else
      match s.fix e v 1, s.fix e v 2 with
      | .abort, _ => none
      | _, .abort => none
      | .ok _, .ok p => go p
      | _, _ => some (exception v { s with pfStore := true })
  else go v

/-- `RefCpu::RV32Zfinx` on the state. -/
def fpInst (F : Fp.SoftFloat) (s : State) : State :=
  let rd := (s.inst.extractLsb' 7 5).toNat
  match Fp.refFp F (s.inst.extractLsb' 0 7) (s.inst.extractLsb' 12 3) (s.inst.extractLsb' 25 7)
      (s.inst.extractLsb' 20 5) (s.gpr (s.inst.extractLsb' 15 5).toNat) (s.gpr (s.inst.extractLsb' 20 5).toNat)
      (s.gpr (s.inst.extractLsb' 27 5).toNat) with
  | .value v => { s with gpr := Ref.wr s.gpr rd v, pc := s.pc + 4#32 }
  | .stuck => { s with illegal := true }

/-- `state.gpr[0] = 0`, ref.cpp:629. -/
def zero0 (s : State) : State := { s with gpr := Ref.wr s.gpr 0 0#32 }

/-- `RefCpu::RISCV`, ref.cpp:509-631. -/
def riscv (F : Fp.SoftFloat) (e : Env) (s0 : State) : Option State :=
  let s1 := syncTimer e s0
  let s := { s1 with irq := evalIrq s1 }
  if s.inst = INST_WFI ∧ asy s = false ∧ s.pfInst = false ∧ s.pfLoad = false ∧ s.pfStore = false then
    some { s with pc := s.pc + 4#32, simEnd := s.simEnd || e.refOnly }
  else
    Option.map zero0 <|
    if s.pfInst then some (exception s.pc s)
    else if s.illegal then some (exception s.inst s)
    else if asy s = true ∨ s.inst = INST_ECALL then some (exception 0#32 s)
    else
      let op : BitVec 7 := s.inst.extractLsb' 0 7
      if op = 0x73#7 then some (csrInst e s)
      else if op = 0x2f#7 then amoInst e s
      else if op = 0x53#7 ∨ op = 0x43#7 ∨ op = 0x4b#7 ∨ op = 0x4f#7 ∨ op = 0x47#7 then some (fpInst F s)
      else if op = 0x03#7 then loadInst e s
      else if op = 0x23#7 then storeInst e s
      else (Ref.refIM s.inst ⟨s.gpr, s.pc⟩).map fun t => { s with gpr := t.gpr, pc := t.pc }

/-- The flags cleared at the head of `exec`, ref.cpp:268-271. -/
def clear (s : State) : State :=
  { s with
    mem := { s.mem with store := false }
    pfInst := false
    pfLoad := false
    pfStore := false
    illegal := false }

/-- The part of `exec` after the fetch, ref.cpp:281-294. -/
def fetched (F : Fp.SoftFloat) (e : Env) (s : State) (p : BitVec 32) : Option State :=
  let s := { s with inst := RefMem.loadWord s.mem p }
  if s.inst = INST_EBREAK then some { s with pc := s.pc + 4#32, simEnd := true }
  else riscv F e s

/-- `RefCpu::exec`, ref.cpp:267-295. -/
def exec (F : Fp.SoftFloat) (e : Env) (s0 : State) : Option State :=
  let s := clear s0
  if RefMmu.fetchTranslation s.ctx then
    match s.fix e s.pc 0 with
    | .abort => none
    | .fault => some (exception s.pc { s with pfInst := true })
    | .ok p => fetched F e s p
  else fetched F e s s.pc

end Verif.RefCpu

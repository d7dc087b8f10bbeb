import Verif.Model.Fu
/-
Instruction decoder (`Idu::decode`, back-end/Idu.cpp:289-551), the immediate
macros it uses (diff/include/ref.h:11-30) and the split of an instruction into
micro-operations (`Dispatch::decompose_inst`, back-end/Dispatch.cpp:797-992).

Not modelled: the debug and TMA (performance) fields of the decoded record.
-/
namespace Verif.Decode
open Verif.CInt Verif.Fu

abbrev W64 := BitVec 64

/-- `BITS(x, hi, lo)`, ref.h:11-13.  `1ull << n` makes the result 64 bits wide;
`n ≤ 20` at every use, so the shift is defined. -/
def bits (x : W32) (hi lo : Nat) : W64 :=
  (x >>> lo).setWidth 64 &&& (1#64 <<< (hi - lo + 1) - 1#64)

/-- `SEXT(x, len)`, ref.h:14-20: the value is stored in a signed bit-field of
`len` bits and read back as `uint64_t`. -/
def sext (x : W64) (len : Nat) : W64 := (x.setWidth len).signExtend 64

/-- ref.h:22 -/
def immI (i : W32) : W64 := sext (bits i 31 20) 12
/-- ref.h:23 -/
def immU (i : W32) : W64 := sext (bits i 31 12) 20 <<< 12
/-- ref.h:24 -/
def immS (i : W32) : W64 := (sext (bits i 31 25) 7 <<< 5) ||| bits i 11 7
/-- ref.h:25-27 -/
def immJ (i : W32) : W64 :=
  (sext (bits i 31 31) 1 <<< 20) ||| (bits i 19 12 <<< 12) ||| (bits i 20 20 <<< 11) |||
    (bits i 30 21 <<< 1)
/-- ref.h:28-30 -/
def immB (i : W32) : W64 :=
  (sext (bits i 31 31) 1 <<< 12) ||| (bits i 7 7 <<< 11) ||| (bits i 30 25 <<< 5) |||
    (bits i 11 8 <<< 1)

/-- `enum InstType`, back-end/include/types.h:23-44. -/
inductive InstType
  | nop | jal | jalr | add | br | load | store | csr | fence | ecall | ebreak | wfi
  | sfenceVma | fenceI | mret | sret | mul | div | amo | fp
  deriving DecidableEq, Repr

/-- The architectural fields of `DecRenIO::DecRenInst`, back-end/include/IO.h:13-50.
Defaults are those of the zeroing constructor (IO.h:49). -/
structure DecInst where
  type : InstType := .nop
  destEn : Bool := false
  src1En : Bool := false
  src2En : Bool := false
  isAtomic : Bool := false
  src1IsPc : Bool := false
  src2IsImm : Bool := false
  destAreg : Nat := 0
  src1Areg : Nat := 0
  src2Areg : Nat := 0
  func3 : BitVec 3 := 0#3
  func7 : BitVec 7 := 0#7
  imm : W32 := 0#32
  csrIdx : BitVec 12 := 0#12
  pageFault : Bool := false
  illegal : Bool := false
  isRet : Bool := false
  diag : W32 := 0#32
  deriving DecidableEq, Repr

/-- `func7 >> 2`, the AMO funct5 field. -/
def DecInst.amoOp (u : DecInst) : BitVec 7 := u.func7 >>> (2 : Nat)

/-- The implemented CSR numbers tested in Idu.cpp:438-448 (values from
back-end/Exu/include/Csr.h:12-36). -/
def knownCsr : List (BitVec 12) :=
  [0x305, 0x341, 0x342, 0x304, 0x344, 0x343, 0x340, 0x300, 0x303, 0x302, 0x141, 0x105,
   0x142, 0x140, 0x143, 0x100, 0x104, 0x144, 0x180, 0xf14, 0x301]

/-- Idu.cpp:303-319: field extraction before the opcode switch. -/
def decodeFields (inst : W32) : DecInst :=
  { diag := inst
    destAreg := (inst.extractLsb' 7 5).toNat
    src1Areg := (inst.extractLsb' 15 5).toNat
    src2Areg := (inst.extractLsb' 20 5).toNat
    src1IsPc := false
    src2IsImm := true
    func3 := inst.extractLsb' 12 3
    func7 := inst.extractLsb' 25 7
    csrIdx := inst.extractLsb' 20 12
    pageFault := false
    illegal := false
    type := .nop }

/-- Idu.cpp:431-492: the SYSTEM opcode. -/
def decodeSystem (inst : W32) (u : DecInst) : DecInst :=
  let csrOp := u.func3.getLsbD 0 || u.func3.getLsbD 1
  let u := { u with src2IsImm := u.func3.getLsbD 2 && csrOp }
  if csrOp then
    if u.csrIdx ∉ knownCsr then
      { u with type := .nop, destEn := false, src1En := false, src2En := false,
               illegal := u.csrIdx = 0xc01#12 || u.csrIdx = 0xc81#12 }
    else
      { u with type := .csr, destEn := true, src1En := true, src2En := !u.src2IsImm,
               imm := (inst.extractLsb' 15 5).setWidth 32 }
  else
    let u := { u with destEn := false, src1En := false, src2En := false }
    if inst = 0x00000073#32 then { u with type := .ecall }
    else if inst = 0x00100073#32 then { u with type := .ebreak }
    else if inst = 0x30200073#32 then { u with type := .mret }
    else if inst = 0x10500073#32 then { u with type := .wfi }
    else if inst = 0x10200073#32 then { u with type := .sret }
    else if u.func7 = 0x09#7 ∧ u.func3 = 0#3 ∧ u.destAreg = 0 then
      { u with type := .sfenceVma, src1En := true, src2En := true }
    else { u with type := .nop }

/-- Idu.cpp:323-532: the opcode switch (opcodes from include/RISCV.h:21-44). -/
def decodeOpcode (inst : W32) (u : DecInst) : DecInst :=
  match inst.extractLsb' 0 7 with
  | 0b0110111#7 => { u with destEn := true, src1En := true, src1Areg := 0, src2En := false,
                            type := .add, func3 := 0#3, imm := (immU inst).setWidth 32 }
  | 0b0010111#7 => { u with destEn := true, src1En := false, src2En := false, src1IsPc := true,
                            type := .add, func3 := 0#3, imm := (immU inst).setWidth 32 }
  | 0b1101111#7 => { u with destEn := true, src1En := false, src2En := false, src1IsPc := true,
                            src2IsImm := true, func3 := 0#3, type := .jal,
                            imm := (immJ inst).setWidth 32 }
  | 0b1100111#7 => { u with destEn := true, src1En := true, src2En := false, src1IsPc := true,
                            src2IsImm := true, func3 := 0#3, type := .jalr,
                            imm := (immI inst).setWidth 32 }
  | 0b1100011#7 => { u with destEn := false, src1En := true, src2En := true, type := .br,
                            imm := (immB inst).setWidth 32 }
  | 0b0000011#7 => { u with destEn := true, src1En := true, src2En := false, type := .load,
                            imm := (immI inst).setWidth 32 }
  | 0b0100011#7 => { u with destEn := false, src1En := true, src2En := true, type := .store,
                            imm := (immS inst).setWidth 32 }
  | 0b0010011#7 => { u with destEn := true, src1En := true, src2En := false, type := .add,
                            imm := (immI inst).setWidth 32 }
  | 0b0110011#7 => { u with destEn := true, src1En := true, src2En := true, src2IsImm := false,
                            type := if u.func7 = 1#7 then
                                (if u.func3.getLsbD 2 then .div else .mul) else .add }
  | 0b0001111#7 => { u with destEn := false, src1En := false, src2En := false,
                            type := if u.func3 = 1#3 then .fenceI else .fence }
  | 0b1110011#7 => decodeSystem inst u
  | 0b0101111#7 => { u with destEn := true, src1En := true,
                            src2En := !(u.amoOp == 2#7), imm := 0#32, type := .amo,
                            isAtomic := true }
  | 0b1010011#7 => { u with destEn := true, src1En := true, src2IsImm := false,
                            src2En := !(u.func7 == 0x60#7 || u.func7 == 0x68#7 ||
                              u.func7 == 0x2C#7 || u.func7 == 0x70#7),
                            imm := (inst.extractLsb' 20 5).setWidth 32, type := .fp }
  | _ => { u with destEn := false, src1En := false, src2En := false, type := .nop,
                  illegal := true }

/-- Idu.cpp:534-550: fix-ups after the switch. -/
def decodeFinish (u : DecInst) : DecInst :=
  let u := { u with isRet := u.type = .jalr && u.src1Areg = 1 && u.destAreg = 0 && u.imm = 0#32 }
  let u := if u.type = .amo ∧ u.destAreg = 0 ∧ u.amoOp ≠ 2#7 ∧ u.amoOp ≠ 3#7
    then { u with destAreg := 32 } else u
  if u.destAreg = 0 then { u with destEn := false } else u

/-- `Idu::decode`, Idu.cpp:289-551, on a zero-initialised record
(Idu.cpp:112-113). -/
def decode (inst : W32) : DecInst := decodeFinish (decodeOpcode inst (decodeFields inst))

/-- Decoding of one instruction-buffer entry, Idu.cpp:113-126. -/
def decodeEntry (inst : W32) (pageFault : Bool) : DecInst :=
  if pageFault then { diag := inst, pageFault := true, type := .nop } else decode inst

/-- Issue queues, `IQ_*` (back-end/include/types.h). -/
inductive Iq | int | ld | sta | std | br
  deriving DecidableEq, Repr

/-- The fields of `DisIssUop` that `decompose_inst` may change; everything else
is copied by `make_dis_iss_uop`, Dispatch.cpp:766-795. -/
structure MicroOp where
  iq : Iq
  op : Uop
  inst : DecInst
  /-- true if source 1 was redirected to the destination register
  (Dispatch.cpp:938). -/
  src1FromDest : Bool := false
  /-- Dispatch.cpp:939-944: forced value of `src1_busy`. -/
  src1BusyForced : Option Bool := none
  deriving DecidableEq, Repr

/-- `Dispatch::decompose_inst`, Dispatch.cpp:797-992. -/
def decompose (u : DecInst) : List MicroOp :=
  match u.type with
  | .add => [⟨.int, .add, u, false, none⟩]
  | .mul => [⟨.int, .mul, u, false, none⟩]
  | .div => [⟨.int, .div, u, false, none⟩]
  | .fp => [⟨.int, .fp, u, false, none⟩]
  | .br => [⟨.br, .br, u, false, none⟩]
  | .load => [⟨.ld, .load, u, false, none⟩]
  | .store => [⟨.sta, .sta, { u with src2En := false }, false, none⟩,
               ⟨.std, .std, { u with src1En := false, src2En := true }, false, none⟩]
  | .jalr => [⟨.int, .add, { u with imm := 4#32, src1En := false, src2En := false }, false, none⟩,
              ⟨.br, .jump, { u with src1En := true, destEn := false }, false, none⟩]
  | .jal => [⟨.int, .add, { u with imm := 4#32, src1En := false, src2En := false }, false, none⟩,
             ⟨.br, .jump, { u with destEn := false }, false, none⟩]
  | .amo =>
    if u.amoOp = 2#7 then [⟨.ld, .load, { u with src2En := false }, false, none⟩]
    else if u.amoOp = 3#7 then
      [⟨.sta, .sta, { u with src2En := false, destEn := true }, false, none⟩,
       ⟨.std, .std, { u with isAtomic := true, src1En := false, destEn := false }, false, none⟩]
    else
      [⟨.ld, .load, { u with src2En := false }, false, none⟩,
       ⟨.sta, .sta, { u with src2En := false, destEn := false }, false, none⟩,
       ⟨.std, .std, { u with isAtomic := true, destEn := false }, true,
         some (!(u.amoOp == 1#7))⟩]
  | .nop => [⟨.int, .add, u, false, none⟩]
  | .csr => [⟨.int, .csr, u, false, none⟩]
  | .fence => [⟨.int, .fence, u, false, none⟩]
  | .ecall => [⟨.int, .ecall, u, false, none⟩]
  | .mret => [⟨.int, .mret, u, false, none⟩]
  | .sret => [⟨.int, .sret, u, false, none⟩]
  | .sfenceVma => [⟨.int, .sfenceVma, u, false, none⟩]
  | .fenceI => [⟨.int, .fenceI, u, false, none⟩]
  | .ebreak => [⟨.int, .ebreak, u, false, none⟩]
  | .wfi => [⟨.int, .wfi, u, false, none⟩]

/-- The record handed to a functional unit for a micro-operation: the decoded
fields plus the pc, the two register operands and the branch prediction
(back-end/Exu/include/ExuTypes.h; `ExuInst::result` starts at 0). -/
def MicroOp.toInst (m : MicroOp) (pc s1 s2 : W32) (predTaken : Bool) (predNextPc : W32) : Fu.Inst :=
  { op := m.op, func3 := m.inst.func3, func7 := m.inst.func7, src1IsPc := m.inst.src1IsPc
    src2IsImm := m.inst.src2IsImm, src1En := m.inst.src1En, isAtomic := m.inst.isAtomic
    pc := pc, imm := m.inst.imm, src1 := s1, src2 := s2
    predTaken := predTaken, predNextPc := predNextPc, result := 0#32 }

/-- The integer functional unit selected by the micro-operation kind
(Exu.cpp, port configuration) applied to its operands. -/
def intResult (m : MicroOp) (pc s1 s2 : W32) : Option W32 :=
  let i := m.toInst pc s1 s2 false 0#32
  match m.op with
  | .mul => Fu.mul i.func3 i.src1 i.src2
  | .div => Fu.div i.func3 i.src1 i.src2
  | _ => Fu.alu i

/-- The value an instruction word writes through the integer pipeline: decode
(Idu.cpp:289), split (Dispatch.cpp:797; the value-producing micro-operation is
always the first one), read the operands and execute.  Renaming, scheduling and
bypassing are abstracted by the register-value function `regs`; they are the
subject of the rename/PRF models. -/
def execInt (inst pc : W32) (regs : Nat → W32) : Option W32 :=
  match decompose (decode inst) with
  | m :: _ => intResult m pc (regs m.inst.src1Areg) (regs m.inst.src2Areg)
  | [] => none

/-- Branch resolution of an instruction word: the micro-operation sent to the
branch queue (Dispatch.cpp:826-831, 862-891), executed by `BruUnit`. -/
def execBr (inst pc : W32) (regs : Nat → W32) (predTaken : Bool) (predNextPc : W32) :
    Option Fu.BruOut :=
  ((decompose (decode inst)).find? (fun m => m.iq == .br)).map fun m =>
    Fu.bru (m.toInst pc (regs m.inst.src1Areg) (regs m.inst.src2Areg) predTaken predNextPc)

/-- Address generation of a memory micro-operation on queue `q`
(`AguUnit`, Fu.h:227-233). -/
def execAddr (q : Iq) (inst pc : W32) (regs : Nat → W32) : Option W32 :=
  ((decompose (decode inst)).find? (fun m => m.iq == q)).map fun m =>
    Fu.agu (m.toInst pc (regs m.inst.src1Areg) (regs m.inst.src2Areg) false 0#32)

/-- Store data of an instruction word: the micro-operation on the store-data
queue executed by `SduUnit`.  `old` is the value loaded by the AMO's load
micro-operation, read through the destination physical register
(Dispatch.cpp:938). -/
def execStoreData (inst pc : W32) (regs : Nat → W32) (old : W32) : Option W32 :=
  ((decompose (decode inst)).find? (fun m => m.iq == .std)).map fun m =>
    Fu.sdu (m.toInst pc (if m.src1FromDest then old else regs m.inst.src1Areg)
      (regs m.inst.src2Areg) false 0#32)

end Verif.Decode

/-
Specification of the RV32IM + Zba/Zbb/Zbs/Zbc computational instructions,
written from the RISC-V ISA manual with `Nat`/`Int` arithmetic and bit-indexed
definitions.  It does not mention the simulator model.
-/
namespace Verif.Isa

abbrev Word := BitVec 32

/-- The 32-bit word whose bit `i` is `f i`. -/
def ofBits (f : Nat → Bool) : Word :=
  BitVec.ofNat 32 (((List.range 32).map (fun i => if f i then 2 ^ i else 0)).sum)

/-- 1 for true, 0 for false. -/
def flag (p : Prop) [Decidable p] : Word := if p then 1#32 else 0#32

/-- Register-register instructions (opcode OP). -/
inductive ROp
  | add | sub | sll | slt | sltu | xor | srl | sra | or | and
  | mul | mulh | mulhsu | mulhu | div | divu | rem | remu
  | sh1add | sh2add | sh3add
  | andn | orn | xnor | min | minu | max | maxu | rol | ror | pack | packh
  | bclr | bext | binv | bset
  | clmul | clmulh | clmulr
  deriving DecidableEq, Repr

/-- Register-immediate instructions with a 12-bit immediate (opcode OP-IMM). -/
inductive IOp | addi | slti | sltiu | xori | ori | andi
  deriving DecidableEq, Repr

/-- Register-immediate instructions with a 5-bit shift amount (opcode OP-IMM). -/
inductive ShOp | slli | srli | srai | rori | bclri | bexti | binvi | bseti
  deriving DecidableEq, Repr

/-- One-operand instructions (opcode OP-IMM, fixed 12-bit immediate). -/
inductive UnOp | clz | ctz | cpop | sextb | sexth | rev8 | orcb
  deriving DecidableEq, Repr

/-- Bit `k` of the carry-less product of `a` and `b`: the parity of the number
of pairs `i + j = k` with bit `i` of `b` and bit `j` of `a` set. -/
def clmulBit (a b : Word) (k : Nat) : Bool :=
  ((List.range (k + 1)).countP (fun i => b.getLsbD i && a.getLsbD (k - i))) % 2 == 1

/-- Number of leading zeros: the greatest `n ≤ 32` such that the `n` most
significant bits are all zero. -/
def IsClz (a : Word) (n : Nat) : Prop :=
  n ≤ 32 ∧ (∀ i, 32 - n ≤ i → i < 32 → a.getLsbD i = false) ∧
    (n < 32 → a.getLsbD (31 - n) = true)

/-- Number of trailing zeros: the greatest `n ≤ 32` such that the `n` least
significant bits are all zero. -/
def IsCtz (a : Word) (n : Nat) : Prop :=
  n ≤ 32 ∧ (∀ i, i < n → a.getLsbD i = false) ∧ (n < 32 → a.getLsbD n = true)

/-- The value written to `rd` by a register-register instruction. -/
def rSem (op : ROp) (a b : Word) : Word :=
  let sh := b.toNat % 32
  match op with
  | .add => BitVec.ofNat 32 (a.toNat + b.toNat)
  | .sub => BitVec.ofInt 32 (a.toInt - b.toInt)
  | .sll => BitVec.ofNat 32 (a.toNat * 2 ^ sh)
  | .slt => flag (a.toInt < b.toInt)
  | .sltu => flag (a.toNat < b.toNat)
  | .xor => ofBits fun i => a.getLsbD i != b.getLsbD i
  | .srl => BitVec.ofNat 32 (a.toNat / 2 ^ sh)
  | .sra => BitVec.ofInt 32 (a.toInt / 2 ^ sh)
  | .or => ofBits fun i => a.getLsbD i || b.getLsbD i
  | .and => ofBits fun i => a.getLsbD i && b.getLsbD i
  | .mul => BitVec.ofNat 32 (a.toNat * b.toNat)
  | .mulh => BitVec.ofInt 32 (a.toInt * b.toInt / 2 ^ 32)
  | .mulhsu => BitVec.ofInt 32 (a.toInt * (b.toNat : Int) / 2 ^ 32)
  | .mulhu => BitVec.ofNat 32 (a.toNat * b.toNat / 2 ^ 32)
  | .div => if b.toInt = 0 then BitVec.ofInt 32 (-1)
            else BitVec.ofInt 32 (a.toInt.tdiv b.toInt)
  | .divu => if b.toNat = 0 then BitVec.ofNat 32 (2 ^ 32 - 1)
             else BitVec.ofNat 32 (a.toNat / b.toNat)
  | .rem => if b.toInt = 0 then a else BitVec.ofInt 32 (a.toInt.tmod b.toInt)
  | .remu => if b.toNat = 0 then a else BitVec.ofNat 32 (a.toNat % b.toNat)
  | .sh1add => BitVec.ofNat 32 (2 * a.toNat + b.toNat)
  | .sh2add => BitVec.ofNat 32 (4 * a.toNat + b.toNat)
  | .sh3add => BitVec.ofNat 32 (8 * a.toNat + b.toNat)
  | .andn => ofBits fun i => a.getLsbD i && !b.getLsbD i
  | .orn => ofBits fun i => a.getLsbD i || !b.getLsbD i
  | .xnor => ofBits fun i => a.getLsbD i == b.getLsbD i
  | .min => BitVec.ofInt 32 (Min.min a.toInt b.toInt)
  | .minu => BitVec.ofNat 32 (Min.min a.toNat b.toNat)
  | .max => BitVec.ofInt 32 (Max.max a.toInt b.toInt)
  | .maxu => BitVec.ofNat 32 (Max.max a.toNat b.toNat)
  | .rol => ofBits fun i => a.getLsbD ((i + (32 - sh)) % 32)
  | .ror => ofBits fun i => a.getLsbD ((i + sh) % 32)
  | .pack => ofBits fun i => if i < 16 then a.getLsbD i else b.getLsbD (i - 16)
  | .packh => ofBits fun i =>
      if i < 8 then a.getLsbD i else if i < 16 then b.getLsbD (i - 8) else false
  | .bclr => ofBits fun i => if i = sh then false else a.getLsbD i
  | .bext => flag (a.getLsbD sh = true)
  | .binv => ofBits fun i => if i = sh then !a.getLsbD i else a.getLsbD i
  | .bset => ofBits fun i => if i = sh then true else a.getLsbD i
  | .clmul => ofBits fun i => clmulBit a b i
  | .clmulh => ofBits fun i => clmulBit a b (i + 32)
  | .clmulr => ofBits fun i => clmulBit a b (i + 31)

/-- The register-register operation an immediate instruction abbreviates. -/
def IOp.base : IOp → ROp
  | .addi => .add | .slti => .slt | .sltiu => .sltu
  | .xori => .xor | .ori => .or | .andi => .and

def ShOp.base : ShOp → ROp
  | .slli => .sll | .srli => .srl | .srai => .sra | .rori => .ror
  | .bclri => .bclr | .bexti => .bext | .binvi => .binv | .bseti => .bset

/-- `r` is a correct result of the one-operand instruction `op` on `a`. -/
def UnSem (op : UnOp) (a r : Word) : Prop :=
  match op with
  | .clz => ∃ n, IsClz a n ∧ r = BitVec.ofNat 32 n
  | .ctz => ∃ n, IsCtz a n ∧ r = BitVec.ofNat 32 n
  | .cpop => r = BitVec.ofNat 32 ((List.range 32).countP fun i => a.getLsbD i)
  | .sextb => r = ofBits fun i => if i < 8 then a.getLsbD i else a.getLsbD 7
  | .sexth => r = ofBits fun i => if i < 16 then a.getLsbD i else a.getLsbD 15
  | .rev8 => r = ofBits fun i => a.getLsbD (8 * (3 - i / 8) + i % 8)
  | .orcb => r = ofBits fun i =>
      a.getLsbD (8 * (i / 8)) || a.getLsbD (8 * (i / 8) + 1) || a.getLsbD (8 * (i / 8) + 2) ||
      a.getLsbD (8 * (i / 8) + 3) || a.getLsbD (8 * (i / 8) + 4) || a.getLsbD (8 * (i / 8) + 5) ||
      a.getLsbD (8 * (i / 8) + 6) || a.getLsbD (8 * (i / 8) + 7)

/-! ### Encodings (ISA manual, instruction listings) -/

/-- `(funct7, funct3)` of a register-register instruction. -/
def ROp.funct : ROp → BitVec 7 × BitVec 3
  | .add => (0x00, 0) | .sub => (0x20, 0) | .sll => (0x00, 1) | .slt => (0x00, 2)
  | .sltu => (0x00, 3) | .xor => (0x00, 4) | .srl => (0x00, 5) | .sra => (0x20, 5)
  | .or => (0x00, 6) | .and => (0x00, 7)
  | .mul => (0x01, 0) | .mulh => (0x01, 1) | .mulhsu => (0x01, 2) | .mulhu => (0x01, 3)
  | .div => (0x01, 4) | .divu => (0x01, 5) | .rem => (0x01, 6) | .remu => (0x01, 7)
  | .sh1add => (0x10, 2) | .sh2add => (0x10, 4) | .sh3add => (0x10, 6)
  | .andn => (0x20, 7) | .orn => (0x20, 6) | .xnor => (0x20, 4)
  | .min => (0x05, 4) | .minu => (0x05, 5) | .max => (0x05, 6) | .maxu => (0x05, 7)
  | .rol => (0x30, 1) | .ror => (0x30, 5) | .pack => (0x04, 4) | .packh => (0x04, 7)
  | .bclr => (0x24, 1) | .bext => (0x24, 5) | .binv => (0x34, 1) | .bset => (0x14, 1)
  | .clmul => (0x05, 1) | .clmulr => (0x05, 2) | .clmulh => (0x05, 3)

def IOp.funct3 : IOp → BitVec 3
  | .addi => 0 | .slti => 2 | .sltiu => 3 | .xori => 4 | .ori => 6 | .andi => 7

/-- `(imm[11:5], funct3)` of a shift-immediate instruction. -/
def ShOp.funct : ShOp → BitVec 7 × BitVec 3
  | .slli => (0x00, 1) | .srli => (0x00, 5) | .srai => (0x20, 5) | .rori => (0x30, 5)
  | .bclri => (0x24, 1) | .bexti => (0x24, 5) | .binvi => (0x34, 1) | .bseti => (0x14, 1)

/-- `(imm[11:5], imm[4:0], funct3)` of a one-operand instruction. -/
def UnOp.funct : UnOp → BitVec 7 × BitVec 5 × BitVec 3
  | .clz => (0x30, 0, 1) | .ctz => (0x30, 1, 1) | .cpop => (0x30, 2, 1)
  | .sextb => (0x30, 4, 1) | .sexth => (0x30, 5, 1)
  | .rev8 => (0x34, 24, 5) | .orcb => (0x14, 7, 5)

/-- R-type layout. -/
def encR (f7 : BitVec 7) (rs2 rs1 : BitVec 5) (f3 : BitVec 3) (rd : BitVec 5) (opc : BitVec 7) :
    Word :=
  (f7 ++ rs2 ++ rs1 ++ f3 ++ rd ++ opc).cast rfl

/-- I-type layout. -/
def encI (imm : BitVec 12) (rs1 : BitVec 5) (f3 : BitVec 3) (rd : BitVec 5) (opc : BitVec 7) :
    Word :=
  (imm ++ rs1 ++ f3 ++ rd ++ opc).cast rfl

/-- S-type layout. -/
def encS (imm : BitVec 12) (rs2 rs1 : BitVec 5) (f3 : BitVec 3) (opc : BitVec 7) : Word :=
  (imm.extractLsb' 5 7 ++ rs2 ++ rs1 ++ f3 ++ imm.extractLsb' 0 5 ++ opc).cast rfl

/-- B-type layout; `imm` is the byte offset divided by two (bits 12..1). -/
def encB (imm : BitVec 12) (rs2 rs1 : BitVec 5) (f3 : BitVec 3) (opc : BitVec 7) : Word :=
  (imm.extractLsb' 11 1 ++ imm.extractLsb' 4 6 ++ rs2 ++ rs1 ++ f3 ++ imm.extractLsb' 0 4 ++
    imm.extractLsb' 10 1 ++ opc).cast rfl

/-- U-type layout. -/
def encU (imm : BitVec 20) (rd : BitVec 5) (opc : BitVec 7) : Word :=
  (imm ++ rd ++ opc).cast rfl

/-- J-type layout; `imm` is the byte offset divided by two (bits 20..1). -/
def encJ (imm : BitVec 20) (rd : BitVec 5) (opc : BitVec 7) : Word :=
  (imm.extractLsb' 19 1 ++ imm.extractLsb' 0 10 ++ imm.extractLsb' 10 1 ++
    imm.extractLsb' 11 8 ++ rd ++ opc).cast rfl

/-- Conditional branches. -/
inductive BrOp | beq | bne | blt | bge | bltu | bgeu
  deriving DecidableEq, Repr

def BrOp.funct3 : BrOp → BitVec 3
  | .beq => 0 | .bne => 1 | .blt => 4 | .bge => 5 | .bltu => 6 | .bgeu => 7

/-- The condition under which a branch is taken. -/
def BrOp.cond (op : BrOp) (a b : Word) : Prop :=
  match op with
  | .beq => a.toNat = b.toNat
  | .bne => a.toNat ≠ b.toNat
  | .blt => a.toInt < b.toInt
  | .bge => b.toInt ≤ a.toInt
  | .bltu => a.toNat < b.toNat
  | .bgeu => b.toNat ≤ a.toNat

/-- Atomic memory operations (all but LR/SC). -/
inductive AmoOp | swap | add | xor | and | or | min | max | minu | maxu
  deriving DecidableEq, Repr

def AmoOp.funct5 : AmoOp → BitVec 5
  | .add => 0x00 | .swap => 0x01 | .xor => 0x04 | .or => 0x08 | .and => 0x0c
  | .min => 0x10 | .max => 0x14 | .minu => 0x18 | .maxu => 0x1c

/-- Value stored to memory, from the old memory value and `rs2`. -/
def AmoOp.sem (op : AmoOp) (old rs2 : Word) : Word :=
  match op with
  | .swap => rs2
  | .add => BitVec.ofNat 32 (old.toNat + rs2.toNat)
  | .xor => ofBits fun i => old.getLsbD i != rs2.getLsbD i
  | .and => ofBits fun i => old.getLsbD i && rs2.getLsbD i
  | .or => ofBits fun i => old.getLsbD i || rs2.getLsbD i
  | .min => BitVec.ofInt 32 (Min.min old.toInt rs2.toInt)
  | .max => BitVec.ofInt 32 (Max.max old.toInt rs2.toInt)
  | .minu => BitVec.ofNat 32 (Min.min old.toNat rs2.toNat)
  | .maxu => BitVec.ofNat 32 (Max.max old.toNat rs2.toNat)

/-! ### Computational instructions -/

/-- The computational (register-writing, non-memory) instructions. -/
inductive Instr
  | r (op : ROp) (rd rs1 rs2 : BitVec 5)
  | i (op : IOp) (rd rs1 : BitVec 5) (imm : BitVec 12)
  | sh (op : ShOp) (rd rs1 : BitVec 5) (shamt : BitVec 5)
  | un (op : UnOp) (rd rs1 : BitVec 5)
  | lui (rd : BitVec 5) (imm : BitVec 20)
  | auipc (rd : BitVec 5) (imm : BitVec 20)
  | jal (rd : BitVec 5) (imm : BitVec 20)
  | jalr (rd rs1 : BitVec 5) (imm : BitVec 12)
  deriving DecidableEq, Repr

/-- The instruction word. -/
def Instr.encode : Instr → Word
  | .r op rd rs1 rs2 => encR op.funct.1 rs2 rs1 op.funct.2 rd 0b0110011#7
  | .i op rd rs1 imm => encI imm rs1 op.funct3 rd 0b0010011#7
  | .sh op rd rs1 s => encI ((op.funct.1 ++ s : BitVec (7 + 5)).cast rfl) rs1 op.funct.2 rd 0b0010011#7
  | .un op rd rs1 =>
    encI ((op.funct.1 ++ op.funct.2.1 : BitVec (7 + 5)).cast rfl) rs1 op.funct.2.2 rd 0b0010011#7
  | .lui rd imm => encU imm rd 0b0110111#7
  | .auipc rd imm => encU imm rd 0b0010111#7
  | .jal rd imm => encJ imm rd 0b1101111#7
  | .jalr rd rs1 imm => encI imm rs1 0 rd 0b1100111#7

/-- `v` is the value the instruction writes to `rd`, given the pc and the values
of the architectural registers. -/
def Instr.Sem (ins : Instr) (pc : Word) (x : Nat → Word) (v : Word) : Prop :=
  match ins with
  | .r op _ rs1 rs2 => v = rSem op (x rs1.toNat) (x rs2.toNat)
  | .i op _ rs1 imm => v = rSem op.base (x rs1.toNat) (BitVec.ofInt 32 imm.toInt)
  | .sh op _ rs1 s => v = rSem op.base (x rs1.toNat) (BitVec.ofNat 32 s.toNat)
  | .un op _ rs1 => UnSem op (x rs1.toNat) v
  | .lui _ imm => v = BitVec.ofNat 32 (imm.toNat * 4096)
  | .auipc _ imm => v = BitVec.ofNat 32 (pc.toNat + imm.toNat * 4096)
  | .jal _ _ => v = BitVec.ofNat 32 (pc.toNat + 4)
  | .jalr _ _ _ => v = BitVec.ofNat 32 (pc.toNat + 4)

/-- Base-ISA operations (RV32I). -/
def ROp.isBase : ROp → Bool
  | .add | .sub | .sll | .slt | .sltu | .xor | .srl | .sra | .or | .and => true
  | _ => false

/-- M-extension operations. -/
def ROp.isMul : ROp → Bool
  | .mul | .mulh | .mulhsu | .mulhu => true
  | _ => false
def ROp.isDiv : ROp → Bool
  | .div | .divu | .rem | .remu => true
  | _ => false

def ShOp.isBase : ShOp → Bool
  | .slli | .srli | .srai => true
  | _ => false

/-- Destination register of a computational instruction. -/
def Instr.rd : Instr → BitVec 5
  | .r _ rd _ _ | .i _ rd _ _ | .sh _ rd _ _ | .un _ rd _ | .lui rd _ | .auipc rd _
  | .jal rd _ | .jalr rd _ _ => rd

/-- RV32I computational instructions. -/
def Instr.isRv32i : Instr → Bool
  | .r op _ _ _ => op.isBase
  | .sh op _ _ _ => op.isBase
  | .un _ _ _ => false
  | _ => true

/-- Zba/Zbb/Zbs/Zbc (and pack/packh) instructions. -/
def Instr.isZb : Instr → Bool
  | .r op _ _ _ => !op.isBase && !op.isMul && !op.isDiv
  | .sh op _ _ _ => !op.isBase
  | .un _ _ _ => true
  | _ => false

end Verif.Isa

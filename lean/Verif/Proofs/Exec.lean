import Verif.Proofs.Alu
import Verif.Proofs.Imm
/-
Decode + execute computes the ISA value, for every computational instruction.
-/
namespace Verif.Exec
open Verif.Isa Verif.EncLemmas Verif.AluLemmas Verif.Decode Verif.ImmLemmas Verif.Alu

/-- The rotate-by-zero cases, undefined in the C++ code. -/
def rotZero (ins : Instr) (x : Nat → Word) : Prop :=
  match ins with
  | .r op _ _ rs2 => (op = .rol ∨ op = .ror) ∧ (x rs2.toNat).toNat % 32 = 0
  | .sh op _ _ s => op = .rori ∧ s.toNat = 0
  | _ => False

/-- `decodeFinish` only touches `destEn`, `destAreg`, `isRet`. -/
theorem finish_fields (u : DecInst) :
    (decodeFinish u).type = u.type ∧ (decodeFinish u).func3 = u.func3 ∧
    (decodeFinish u).func7 = u.func7 ∧ (decodeFinish u).src1IsPc = u.src1IsPc ∧
    (decodeFinish u).src2IsImm = u.src2IsImm ∧ (decodeFinish u).imm = u.imm ∧
    (decodeFinish u).src1Areg = u.src1Areg ∧ (decodeFinish u).src2Areg = u.src2Areg ∧
    (decodeFinish u).src1En = u.src1En ∧ (decodeFinish u).src2En = u.src2En ∧
    (decodeFinish u).isAtomic = u.isAtomic ∧ (decodeFinish u).illegal = u.illegal ∧
    (decodeFinish u).csrIdx = u.csrIdx ∧ (decodeFinish u).pageFault = u.pageFault := by
  unfold decodeFinish
  simp only
  split <;> split <;> simp

/-- `execInt` in terms of the record before the final fix-ups. -/
theorem exec_add (w pc : Word) (x : Nat → Word) (u : DecInst)
    (hu : decodeOpcode w (decodeFields w) = u) (ht : u.type = .add) :
    execInt w pc x = Fu.aluAdd u.func3 u.func7 u.src2IsImm u.imm
      (if u.src1IsPc then pc else x u.src1Areg)
      (if u.src2IsImm then u.imm else x u.src2Areg) 0#32 := by
  have hf := finish_fields u
  obtain ⟨h1, h2, h3, h4, h5, h6, h7, h8, -⟩ := hf
  have : decode w = decodeFinish u := by rw [decode, hu]
  unfold execInt decompose
  rw [this, h1, ht]
  simp [intResult, MicroOp.toInst, Fu.alu, Fu.operand1, Fu.operand2, h2, h3, h4, h5, h6, h7, h8]

theorem exec_jump (w pc : Word) (x : Nat → Word) (u : DecInst)
    (hu : decodeOpcode w (decodeFields w) = u) (ht : u.type = .jal ∨ u.type = .jalr)
    (hp : u.src1IsPc = true) (hi : u.src2IsImm = true) (h30 : u.func3 = 0#3) :
    execInt w pc x = some (pc + 4#32) := by
  obtain ⟨h1, h2, h3, h4, h5, h6, h7, h8, -⟩ := finish_fields u
  have : decode w = decodeFinish u := by rw [decode, hu]
  unfold execInt decompose
  rw [this, h1]
  rcases ht with ht | ht <;> rw [ht] <;>
    simp [intResult, MicroOp.toInst, Fu.alu, Fu.operand1, Fu.operand2, h2, h4, h5, hp, hi, h30,
      Fu.aluAdd]

theorem exec_mul (w pc : Word) (x : Nat → Word) (u : DecInst)
    (hu : decodeOpcode w (decodeFields w) = u) (ht : u.type = .mul) :
    execInt w pc x = Fu.mul u.func3 (x u.src1Areg) (x u.src2Areg) := by
  obtain ⟨h1, h2, h3, h4, h5, h6, h7, h8, -⟩ := finish_fields u
  have : decode w = decodeFinish u := by rw [decode, hu]
  unfold execInt decompose
  rw [this, h1, ht]
  simp [intResult, MicroOp.toInst, h2, h7, h8]

theorem exec_div (w pc : Word) (x : Nat → Word) (u : DecInst)
    (hu : decodeOpcode w (decodeFields w) = u) (ht : u.type = .div) :
    execInt w pc x = Fu.div u.func3 (x u.src1Areg) (x u.src2Areg) := by
  obtain ⟨h1, h2, h3, h4, h5, h6, h7, h8, -⟩ := finish_fields u
  have : decode w = decodeFinish u := by rw [decode, hu]
  unfold execInt decompose
  rw [this, h1, ht]
  simp [intResult, MicroOp.toInst, h2, h7, h8]

/-- Decoding of an OP word. -/
theorem dec_r (f7 : BitVec 7) (rs2 rs1 rd : BitVec 5) (f3 : BitVec 3) :
    ∃ u, decodeOpcode (encR f7 rs2 rs1 f3 rd 0b0110011#7)
        (decodeFields (encR f7 rs2 rs1 f3 rd 0b0110011#7)) = u ∧
      u.type = (if f7 = 1#7 then (if f3.getLsbD 2 then .div else .mul) else .add) ∧
      u.func3 = f3 ∧ u.func7 = f7 ∧ u.src1IsPc = false ∧ u.src2IsImm = false ∧
      u.src1Areg = rs1.toNat ∧ u.src2Areg = rs2.toNat := by
  refine ⟨_, rfl, ?_⟩
  unfold decodeOpcode
  rw [encR_opc]
  simp only [decodeFields, encR_f3, encR_f7, encR_rs1, encR_rs2, and_self]

/-- Decoding of an OP-IMM word. -/
theorem dec_i (imm : BitVec 12) (rs1 rd : BitVec 5) (f3 : BitVec 3) :
    ∃ u, decodeOpcode (encI imm rs1 f3 rd 0b0010011#7)
        (decodeFields (encI imm rs1 f3 rd 0b0010011#7)) = u ∧
      u.type = .add ∧ u.func3 = f3 ∧
      u.func7 = (encI imm rs1 f3 rd 0b0010011#7).extractLsb' 25 7 ∧
      u.src1IsPc = false ∧ u.src2IsImm = true ∧
      u.src1Areg = rs1.toNat ∧ u.imm = imm.signExtend 32 := by
  refine ⟨_, rfl, ?_⟩
  unfold decodeOpcode
  rw [encI_opc]
  simp only [decodeFields, encI_f3, encI_rs1, immI_enc, and_self]

/-- Decoding of LUI / AUIPC / JAL / JALR words. -/
theorem dec_lui (imm : BitVec 20) (rd : BitVec 5) :
    ∃ u, decodeOpcode (encU imm rd 0b0110111#7) (decodeFields (encU imm rd 0b0110111#7)) = u ∧
      u.type = .add ∧ u.func3 = 0#3 ∧ u.src1IsPc = false ∧ u.src2IsImm = true ∧
      u.src1Areg = 0 ∧ u.imm = BitVec.ofNat 32 (imm.toNat * 4096) := by
  refine ⟨_, rfl, ?_⟩
  unfold decodeOpcode
  rw [encU_opc]
  simp only [decodeFields, immU_enc, and_self]

theorem dec_auipc (imm : BitVec 20) (rd : BitVec 5) :
    ∃ u, decodeOpcode (encU imm rd 0b0010111#7) (decodeFields (encU imm rd 0b0010111#7)) = u ∧
      u.type = .add ∧ u.func3 = 0#3 ∧ u.src1IsPc = true ∧ u.src2IsImm = true ∧
      u.imm = BitVec.ofNat 32 (imm.toNat * 4096) := by
  refine ⟨_, rfl, ?_⟩
  unfold decodeOpcode
  rw [encU_opc]
  simp only [decodeFields, immU_enc, and_self]

theorem dec_jal (imm : BitVec 20) (rd : BitVec 5) :
    ∃ u, decodeOpcode (encJ imm rd 0b1101111#7) (decodeFields (encJ imm rd 0b1101111#7)) = u ∧
      u.type = .jal ∧ u.func3 = 0#3 ∧ u.src1IsPc = true ∧ u.src2IsImm = true ∧
      u.src1En = false ∧ u.imm = (imm.signExtend 32) <<< 1 := by
  refine ⟨_, rfl, ?_⟩
  unfold decodeOpcode
  rw [encJ_opc]
  simp only [immJ_enc, and_self]

theorem dec_jalr (imm : BitVec 12) (rs1 rd : BitVec 5) (f3 : BitVec 3) :
    ∃ u, decodeOpcode (encI imm rs1 f3 rd 0b1100111#7)
        (decodeFields (encI imm rs1 f3 rd 0b1100111#7)) = u ∧
      u.type = .jalr ∧ u.func3 = 0#3 ∧ u.src1IsPc = true ∧ u.src2IsImm = true ∧
      u.src1Areg = rs1.toNat ∧ u.imm = imm.signExtend 32 := by
  refine ⟨_, rfl, ?_⟩
  unfold decodeOpcode
  rw [encI_opc]
  simp only [decodeFields, encI_rs1, immI_enc, and_self]

theorem sx_ofInt (imm : BitVec 12) : imm.signExtend 32 = BitVec.ofInt 32 imm.toInt := rfl

/-- The low five bits of a sign-extended `f7 ++ s`. -/
theorem shamt_bits (f7 : BitVec 7) (s : BitVec 5) :
    (((f7 ++ s : BitVec (7 + 5)).cast rfl : BitVec 12).signExtend 32) &&& 0x1F#32 =
      BitVec.ofNat 32 s.toNat := by
  have e : BitVec.ofNat 32 s.toNat = s.setWidth 32 := by
    apply BitVec.eq_of_toNat_eq; simp
  rw [e]
  apply BitVec.eq_of_getLsbD_eq
  intro i hi
  have hm : ∀ i, i < 32 → (0x1F#32).getLsbD i = decide (i < 5) := by decide
  rw [BitVec.getLsbD_and, hm i hi, sx_bit _ _ hi (by decide), BitVec.getLsbD_setWidth,
    decide_eq_true hi, Bool.true_and]
  by_cases h : i < 5
  · rw [decide_eq_true h, Bool.and_true, if_pos (by omega), BitVec.getLsbD_cast,
      BitVec.getLsbD_append, if_pos h]
  · rw [decide_eq_false h, Bool.and_false, BitVec.getLsbD_of_ge _ _ (by omega)]

theorem shamt_mod (f7 : BitVec 7) (s : BitVec 5) :
    (((f7 ++ s : BitVec (7 + 5)).cast rfl : BitVec 12).signExtend 32).toNat % 32 = s.toNat := by
  rw [← shamt_eq, shamt_bits, BitVec.toNat_ofNat]
  have := s.isLt; omega

/-- The shift-type operations read only the low five bits of their second operand. -/
theorem sh_congr (op : ShOp) (a b b' : Word) (h : b.toNat % 32 = b'.toNat % 32) :
    rSem op.base a b = rSem op.base a b' := by
  cases op <;> simp only [ShOp.base, rSem, h]

theorem exec_sem (ins : Instr) (pc : Word) (x : Nat → Word) (hx : x 0 = 0#32)
    (hr : ¬ rotZero ins x) : ∃ v, execInt ins.encode pc x = some v ∧ ins.Sem pc x v := by
  cases ins with
  | r op rd rs1 rs2 =>
    obtain ⟨u, hu, ht, h3, h7, hpc, him, hs1, hs2⟩ := dec_r op.funct.1 rs2 rs1 rd op.funct.2
    simp only [Instr.encode, Instr.Sem]
    refine ⟨_, ?_, rfl⟩
    by_cases hm : op.isMul = true
    · have : u.type = .mul := by
        rw [ht]; cases op <;> simp only [ROp.isMul, Bool.false_eq_true] at hm <;> rfl
      rw [exec_mul _ _ _ u hu this, h3, hs1, hs2, mul_r op hm]
    · by_cases hd : op.isDiv = true
      · have : u.type = .div := by
          rw [ht]; cases op <;> simp only [ROp.isDiv, Bool.false_eq_true] at hd <;> rfl
        rw [exec_div _ _ _ u hu this, h3, hs1, hs2, div_r op hd]
      · have : u.type = .add := by
          rw [ht]; cases op <;> simp only [ROp.isDiv, ROp.isMul, not_true_eq_false] at hd hm <;> rfl
        rw [exec_add _ _ _ u hu this, h3, h7, hpc, him, hs1, hs2]
        simp only [Bool.false_eq_true, if_false]
        apply alu_r op (by simpa using hm) (by simpa using hd)
        intro h h0
        exact hr ⟨h, h0⟩
  | i op rd rs1 imm =>
    obtain ⟨u, hu, ht, h3, h7, hpc, him, hs1, himm⟩ := dec_i imm rs1 rd op.funct3
    simp only [Instr.encode, Instr.Sem]
    refine ⟨_, ?_, rfl⟩
    rw [exec_add _ _ _ u hu ht, h3, hpc, him, hs1, himm]
    simp only [Bool.false_eq_true, if_false, if_true]
    rw [alu_i, sx_ofInt]
  | sh op rd rs1 s =>
    obtain ⟨u, hu, ht, h3, h7, hpc, him, hs1, himm⟩ :=
      dec_i ((op.funct.1 ++ s : BitVec (7 + 5)).cast rfl) rs1 rd op.funct.2
    simp only [Instr.encode, Instr.Sem]
    refine ⟨_, ?_, rfl⟩
    rw [exec_add _ _ _ u hu ht, h3, h7, hpc, him, hs1, himm, encI_f7]
    simp only [Bool.false_eq_true, if_false, if_true]
    have hmod := shamt_mod op.funct.1 s
    rw [alu_sh]
    · rw [sh_congr op _ _ (BitVec.ofNat 32 s.toNat)]
      rw [hmod, BitVec.toNat_ofNat]; have := s.isLt; omega
    · intro h; rw [hmod]; intro h0; exact hr ⟨h, h0⟩
  | un op rd rs1 =>
    obtain ⟨u, hu, ht, h3, h7, hpc, him, hs1, himm⟩ :=
      dec_i ((op.funct.1 ++ op.funct.2.1 : BitVec (7 + 5)).cast rfl) rs1 rd op.funct.2.2
    simp only [Instr.encode, Instr.Sem]
    rw [exec_add _ _ _ u hu ht, h3, h7, hpc, him, hs1, himm, encI_f7]
    simp only [Bool.false_eq_true, if_false, if_true]
    exact alu_un op _ _ _ _ (shamt_bits _ _)
  | lui rd imm =>
    obtain ⟨u, hu, ht, h3, hpc, him, hs1, himm⟩ := dec_lui imm rd
    simp only [Instr.encode, Instr.Sem]
    refine ⟨_, ?_, rfl⟩
    rw [exec_add _ _ _ u hu ht, h3, hpc, him, hs1, himm]
    simp only [Bool.false_eq_true, if_false, if_true, Fu.aluAdd, Bool.not_true, Bool.and_false, hx,
      BitVec.zero_add]
  | auipc rd imm =>
    obtain ⟨u, hu, ht, h3, hpc, him, himm⟩ := dec_auipc imm rd
    simp only [Instr.encode, Instr.Sem]
    refine ⟨_, ?_, rfl⟩
    rw [exec_add _ _ _ u hu ht, h3, hpc, him, himm]
    simp only [Bool.false_eq_true, if_false, if_true, Fu.aluAdd, Bool.not_true, Bool.and_false]
    rw [sum_eq]
    congr 1
    apply BitVec.eq_of_toNat_eq
    simp
  | jal rd imm =>
    obtain ⟨u, hu, ht, h3, hpc, him, hs1, himm⟩ := dec_jal imm rd
    simp only [Instr.encode, Instr.Sem]
    refine ⟨_, ?_, rfl⟩
    rw [exec_jump _ _ _ u hu (Or.inl ht) hpc him h3, sum_eq]
    rfl
  | jalr rd rs1 imm =>
    obtain ⟨u, hu, ht, h3, hpc, him, hs1, himm⟩ := dec_jalr imm rs1 rd 0
    simp only [Instr.encode, Instr.Sem]
    refine ⟨_, ?_, rfl⟩
    rw [exec_jump _ _ _ u hu (Or.inr ht) hpc him h3, sum_eq]
    rfl

end Verif.Exec

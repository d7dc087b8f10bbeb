import Verif.Proofs.Exec
/-
C05–C08: branches, store data, immediates, decoder.
-/
namespace Verif.Props
open Verif.Isa Verif.Decode

/-! ### C07 immediates -/

/-- **C07.** For every instruction word, each immediate the decoder extracts has,
bit by bit, the layout of the ISA manual. -/
theorem C07_layout (w : Word) :
    (immI w).setWidth 32 = ofBits (immIBit w) ∧ (immS w).setWidth 32 = ofBits (immSBit w) ∧
    (immB w).setWidth 32 = ofBits (immBBit w) ∧ (immU w).setWidth 32 = ofBits (immUBit w) ∧
    (immJ w).setWidth 32 = ofBits (immJBit w) :=
  ⟨ImmLemmas.immI_eq w, ImmLemmas.immS_eq w, ImmLemmas.immB_eq w, ImmLemmas.immU_eq w,
    ImmLemmas.immJ_eq w⟩

/-- **C07, round trip.** Assembling an in-range immediate and decoding the word returns
it, sign-extended (times two for branch offsets, times 4096 for U-type). -/
theorem C07_roundtrip (i12 : BitVec 12) (i20 : BitVec 20) (rs2 rs1 rd : BitVec 5) (f3 : BitVec 3)
    (opc : BitVec 7) :
    ((immI (encI i12 rs1 f3 rd opc)).setWidth 32 : Word).toInt = i12.toInt ∧
    ((immS (encS i12 rs2 rs1 f3 opc)).setWidth 32 : Word).toInt = i12.toInt ∧
    ((immB (encB i12 rs2 rs1 f3 opc)).setWidth 32 : Word).toInt = 2 * i12.toInt ∧
    ((immJ (encJ i20 rd opc)).setWidth 32 : Word).toInt = 2 * i20.toInt ∧
    ((immU (encU i20 rd opc)).setWidth 32 : Word).toNat = 4096 * i20.toNat := by
  have dbl : ∀ {n : Nat} (z : BitVec n), n ≤ 30 → 0 < n →
      ((z.signExtend 32 : Word) <<< 1).toInt = 2 * z.toInt := by
    intro n z hn h0
    have e : (z.signExtend 32 : Word) <<< 1 = BitVec.ofInt 32 (2 * z.toInt) := by
      rw [BitVec.shiftLeft_eq_mul_twoPow]
      have : (BitVec.twoPow 32 1) = BitVec.ofInt 32 2 := rfl
      rw [this, BitVec.signExtend, ← BitVec.ofInt_mul, Int.mul_comm]
    rw [e, BitVec.toInt_ofInt]
    have h1 := BitVec.le_toInt z
    have h2 := BitVec.toInt_lt (x := z)
    have hp : (2 : Int) ^ (n - 1) ≤ 2 ^ 29 := by
      have : (2 : Nat) ^ (n - 1) ≤ 2 ^ 29 := Nat.pow_le_pow_right (by omega) (by omega)
      exact_mod_cast this
    apply Int.bmod_eq_of_le <;> omega
  refine ⟨?_, ?_, ?_, ?_, ?_⟩
  · rw [ImmLemmas.immI_enc, BitVec.toInt_signExtend_of_le (by decide)]
  · rw [ImmLemmas.immS_enc, BitVec.toInt_signExtend_of_le (by decide)]
  · rw [ImmLemmas.immB_enc, dbl _ (by decide) (by decide)]
  · rw [ImmLemmas.immJ_enc, dbl _ (by decide) (by decide)]
  · rw [ImmLemmas.immU_enc, BitVec.toNat_ofNat]; have := i20.isLt; omega

/-- **C07, evenness.** Branch and jump offsets are always even. -/
theorem C07_even (w : Word) :
    ((immB w).setWidth 32 : Word).getLsbD 0 = false ∧
    ((immJ w).setWidth 32 : Word).getLsbD 0 = false := by
  rw [ImmLemmas.immB_eq, ImmLemmas.immJ_eq, AluLemmas.getLsbD_ofBits, AluLemmas.getLsbD_ofBits]
  exact ⟨rfl, rfl⟩

example : ((immB 0xFE209EE3#32).setWidth 32 : Word) = (-4 : Word) := by decide +kernel

/-! ### C05 branches -/

/-- Next pc prescribed by the ISA for a conditional branch with offset `2 * imm`. -/
def branchNextPc (op : BrOp) (pc a b : Word) (imm : BitVec 12) (next : Word) : Prop :=
  (op.cond a b → next = BitVec.ofInt 32 ((pc.toNat : Int) + 2 * imm.toInt)) ∧
  (¬ op.cond a b → next = BitVec.ofNat 32 (pc.toNat + 4))

/-- The pc the front end would fetch next according to the prediction. -/
def predictedNextPc (pc : Word) (predTaken : Bool) (predNextPc : Word) : Word :=
  if predTaken then predNextPc else pc + 4#32

theorem ofInt_pc_add (pc : Word) (k : Int) :
    BitVec.ofInt 32 ((pc.toNat : Int) + k) = pc + BitVec.ofInt 32 k := by
  rw [BitVec.ofInt_add]
  congr 1
  apply BitVec.eq_of_toNat_eq
  simp

theorem sx_shl {n : Nat} (z : BitVec n) :
    (z.signExtend 32 : Word) <<< 1 = BitVec.ofInt 32 (2 * z.toInt) := by
  rw [BitVec.shiftLeft_eq_mul_twoPow]
  have : (BitVec.twoPow 32 1) = BitVec.ofInt 32 2 := rfl
  rw [this, BitVec.signExtend, ← BitVec.ofInt_mul, Int.mul_comm]

theorem dec_b (imm : BitVec 12) (rs2 rs1 : BitVec 5) (f3 : BitVec 3) :
    ∃ u, decode (encB imm rs2 rs1 f3 0b1100011#7) = u ∧ u.type = .br ∧ u.func3 = f3 ∧
      u.src1Areg = rs1.toNat ∧ u.src2Areg = rs2.toNat ∧ u.imm = (imm.signExtend 32) <<< 1 := by
  refine ⟨_, rfl, ?_⟩
  unfold decode
  obtain ⟨h1, h2, h3, h4, h5, h6, h7, h8, -⟩ := Exec.finish_fields
    (decodeOpcode (encB imm rs2 rs1 f3 0b1100011#7) (decodeFields (encB imm rs2 rs1 f3 0b1100011#7)))
  rw [h1, h2, h6, h7, h8]
  unfold decodeOpcode
  rw [EncLemmas.encB_opc]
  simp only [decodeFields, EncLemmas.encB_f3, EncLemmas.encB_rs1, EncLemmas.encB_rs2,
    ImmLemmas.immB_enc, and_self]

/-- **C05, conditional branches.** Direction, next pc, and no missed misprediction:
when the unit reports no misprediction, the predicted next pc was the right one. -/
theorem C05_branch (op : BrOp) (imm : BitVec 12) (rs2 rs1 : BitVec 5) (pc : Word)
    (x : Nat → Word) (predTaken : Bool) (predNext : Word) :
    ∃ o, execBr (encB imm rs2 rs1 op.funct3 0b1100011#7) pc x predTaken predNext = some o ∧
      (o.taken = true ↔ op.cond (x rs1.toNat) (x rs2.toNat)) ∧
      branchNextPc op pc (x rs1.toNat) (x rs2.toNat) imm o.nextPc ∧
      (o.mispred = false → predictedNextPc pc predTaken predNext = o.nextPc) ∧
      (o.mispred = true → o.taken ≠ predTaken ∨
        predictedNextPc pc predTaken predNext ≠ o.nextPc) := by
  obtain ⟨u, hu, ht, h3, hs1, hs2, himm⟩ := dec_b imm rs2 rs1 op.funct3
  have hd : decompose u = [⟨.br, .br, u, false, none⟩] := by unfold decompose; rw [ht]
  refine ⟨_, by simp [execBr, hu, hd]; rfl, ?_⟩
  generalize hi : MicroOp.toInst ⟨.br, .br, u, false, none⟩ pc (x u.src1Areg) (x u.src2Areg)
    predTaken predNext = i
  have e1 : i.src1 = x rs1.toNat := by rw [← hi, ← hs1]; rfl
  have e2 : i.src2 = x rs2.toNat := by rw [← hi, ← hs2]; rfl
  have e3 : i.op = .br := by rw [← hi]; rfl
  have e4 : i.func3 = op.funct3 := by rw [← hi, ← h3]; rfl
  have e5 : i.pc = pc := by rw [← hi]; rfl
  have e6 : i.imm = (imm.signExtend 32) <<< 1 := by rw [← hi, ← himm]; rfl
  have e7 : i.predTaken = predTaken := by rw [← hi]; rfl
  have e8 : i.predNextPc = predNext := by rw [← hi]; rfl
  have htk : Fu.bruTaken i = true ↔ op.cond (x rs1.toNat) (x rs2.toNat) := by
    unfold Fu.bruTaken
    rw [e3, e4, e1, e2]
    generalize x rs1.toNat = a
    generalize x rs2.toNat = b
    have hn : (a.toNat = b.toNat) ↔ a = b := BitVec.toNat_inj
    cases op <;> simp only [BrOp.funct3, BrOp.cond]
    · simp [hn]
    · simp [hn]
    · exact Alu.slt_iff a b
    · have := Alu.slt_iff a b
      cases h : a.slt b
      · simp only [h, Bool.false_eq_true, false_iff] at this; simp; omega
      · simp only [h, true_iff] at this; simp; omega
    · exact Alu.ult_iff a b
    · have := Alu.ult_iff a b
      cases h : a.ult b
      · simp only [h, Bool.false_eq_true, false_iff] at this; simp; omega
      · simp only [h, true_iff] at this; simp; omega
  have htg : Fu.bruTarget i = BitVec.ofInt 32 ((pc.toNat : Int) + 2 * imm.toInt) := by
    unfold Fu.bruTarget
    rw [e3, e5, e6, ofInt_pc_add, sx_shl]
    simp
  have hnt : pc + 4#32 = BitVec.ofNat 32 (pc.toNat + 4) := by
    apply BitVec.eq_of_toNat_eq; simp
  refine ⟨htk, ⟨?_, ?_⟩, ?_, ?_⟩
  · intro hc
    simp only [Fu.bru, htk.2 hc, if_true, htg]
  · intro hc
    have : Fu.bruTaken i = false := by
      cases h : Fu.bruTaken i
      · rfl
      · exact absurd (htk.1 h) hc
    simp only [Fu.bru, this, Bool.false_eq_true, if_false, e5, hnt]
  · simp only [Fu.bru, e7, e8, e5, predictedNextPc]
    cases Fu.bruTaken i <;> cases predTaken <;> simp
  · simp only [Fu.bru, e7, e8, e5, predictedNextPc]
    cases Fu.bruTaken i <;> cases predTaken <;> simp

theorem decompose_jal (u : DecInst) (h : u.type = .jal) : decompose u =
    [⟨.int, .add, { u with imm := 4#32, src1En := false, src2En := false }, false, none⟩,
     ⟨.br, .jump, { u with destEn := false }, false, none⟩] := by
  cases u; simp only at h; subst h; rfl

theorem decompose_jalr (u : DecInst) (h : u.type = .jalr) : decompose u =
    [⟨.int, .add, { u with imm := 4#32, src1En := false, src2En := false }, false, none⟩,
     ⟨.br, .jump, { u with src1En := true, destEn := false }, false, none⟩] := by
  cases u; simp only at h; subst h; rfl

/-- **C05, jumps.** JAL/JALR: target and no missed misprediction. -/
theorem C05_jump (rd rs1 : BitVec 5) (i20 : BitVec 20) (i12 : BitVec 12) (pc : Word)
    (x : Nat → Word) (predTaken : Bool) (predNext : Word) :
    (∃ o, execBr (Instr.jal rd i20).encode pc x predTaken predNext = some o ∧
      o.taken = true ∧ o.nextPc = BitVec.ofInt 32 ((pc.toNat : Int) + 2 * i20.toInt) ∧
      (o.mispred = true ↔ ¬ (predTaken = true ∧ predNext = o.nextPc))) ∧
    (∃ o, execBr (Instr.jalr rd rs1 i12).encode pc x predTaken predNext = some o ∧
      o.taken = true ∧
      o.nextPc = ofBits (fun k => if k = 0 then false else
        (BitVec.ofInt 32 (((x rs1.toNat).toNat : Int) + i12.toInt)).getLsbD k) ∧
      (o.mispred = true ↔ ¬ (predTaken = true ∧ predNext = o.nextPc))) := by
  refine ⟨?_, ?_⟩
  · obtain ⟨u, hu, ht, h3, hpc, him, hs1, himm⟩ := Exec.dec_jal i20 rd
    obtain ⟨f1, f2, f3, f4, f5, f6, f7, f8, f9, -⟩ := Exec.finish_fields u
    have hdec : decode (Instr.jal rd i20).encode = decodeFinish u := by
      simp only [Instr.encode]; rw [decode, hu]
    have hd : (decompose (decodeFinish u)).find? (fun m => m.iq == .br) =
        some ⟨.br, .jump, { decodeFinish u with destEn := false }, false, none⟩ := by
      rw [decompose_jal _ (f1.trans ht)]; rfl
    refine ⟨_, by rw [execBr, hdec, hd]; rfl, ?_, ?_, ?_⟩
    · simp [Fu.bru, Fu.bruTaken, MicroOp.toInst]
    · simp only [Fu.bru, Fu.bruTaken, MicroOp.toInst, if_true, Fu.bruTarget, f9, hs1, f6, himm,
        ofInt_pc_add, sx_shl]
      simp
    · simp only [Fu.bru, Fu.bruTaken, MicroOp.toInst]
      cases predTaken <;> simp
  · obtain ⟨u, hu, ht, h3, hpc, him, hs1, himm⟩ := Exec.dec_jalr i12 rs1 rd 0
    obtain ⟨f1, f2, f3, f4, f5, f6, f7, f8, f9, -⟩ := Exec.finish_fields u
    have hdec : decode (Instr.jalr rd rs1 i12).encode = decodeFinish u := by
      simp only [Instr.encode]; rw [decode, hu]
    have hd : (decompose (decodeFinish u)).find? (fun m => m.iq == .br) =
        some ⟨.br, .jump, { decodeFinish u with src1En := true, destEn := false }, false, none⟩ := by
      rw [decompose_jalr _ (f1.trans ht)]; rfl
    refine ⟨_, by rw [execBr, hdec, hd]; rfl, ?_, ?_, ?_⟩
    · simp [Fu.bru, Fu.bruTaken, MicroOp.toInst]
    · simp only [Fu.bru, Fu.bruTaken, MicroOp.toInst, if_true, Fu.bruTarget, f6, himm, f7, hs1,
        ofInt_pc_add, and_self]
      apply AluLemmas.eq_ofBits
      intro i hi
      rw [BitVec.getLsbD_and, BitVec.getLsbD_not, BitVec.getLsbD_one]
      by_cases h0 : i = 0
      · simp [h0]
      · simp only [h0, hi, if_false, BitVec.signExtend]; simp
    · simp only [Fu.bru, Fu.bruTaken, MicroOp.toInst]
      cases predTaken <;> simp

/-- **C05 (negation of "exactly").** The misprediction flag is not *equivalent* to a wrong
predicted next pc: a not-taken branch predicted taken to `pc + 4` is reported as
mispredicted although the predicted next pc was correct.  This costs a redirect, not
correctness. -/
theorem C05_spurious_mispredict :
    ∃ (pc : Word) (x : Nat → Word) (o : Fu.BruOut),
      execBr (encB 8 2 1 BrOp.beq.funct3 0b1100011#7) pc x true (pc + 4#32) = some o ∧
      predictedNextPc pc true (pc + 4#32) = o.nextPc ∧ o.mispred = true :=
  ⟨0x1000#32, (fun n => if n = 1 then 1#32 else 0#32), ⟨false, 0x1004#32, true⟩, by decide +kernel⟩

example : execBr (encB 0xFFE 2 1 BrOp.blt.funct3 0b1100011#7) 0x1000#32
    (fun n => if n = 1 then 0xFFFFFFFF#32 else 0#32) true 0x0FFC#32
    = some ⟨true, 0x0FFC#32, false⟩ := by decide +kernel

/-! ### C06 store data -/

/-- The word of an AMO (opcode AMO, width `.w`) with ordering bits `aqrl`. -/
def encAmo (f5 : BitVec 5) (aqrl : BitVec 2) (rs2 rs1 rd : BitVec 5) : Word :=
  encR ((f5 ++ aqrl : BitVec (5 + 2)).cast rfl) rs2 rs1 2 rd 0b0101111#7

theorem dec_amo (f7 : BitVec 7) (rs2 rs1 rd : BitVec 5) (f3 : BitVec 3) :
    ∃ u, decode (encR f7 rs2 rs1 f3 rd 0b0101111#7) = u ∧ u.type = .amo ∧
      u.func7 = f7 ∧ u.imm = 0#32 ∧ u.isAtomic = true ∧
      u.src1Areg = rs1.toNat ∧ u.src2Areg = rs2.toNat := by
  refine ⟨_, rfl, ?_⟩
  unfold decode
  obtain ⟨h1, h2, h3, h4, h5, h6, h7, h8, h9, h10, h11, -⟩ := Exec.finish_fields
    (decodeOpcode (encR f7 rs2 rs1 f3 rd 0b0101111#7)
      (decodeFields (encR f7 rs2 rs1 f3 rd 0b0101111#7)))
  rw [h1, h3, h6, h7, h8, h11]
  unfold decodeOpcode
  rw [EncLemmas.encR_opc]
  simp only [decodeFields, EncLemmas.encR_f7, EncLemmas.encR_rs1, EncLemmas.encR_rs2, and_self]

theorem amoOp_code (f5 : BitVec 5) (aqrl : BitVec 2) :
    ((f5 ++ aqrl : BitVec (5 + 2)).cast rfl : BitVec 7) >>> (2 : Nat) = f5.setWidth 7 := by
  revert f5 aqrl; decide

theorem sdu_atomic (i : Fu.Inst) (o : BitVec 7) (h : i.isAtomic = true)
    (ho : i.func7 >>> (2 : Nat) = o) : Fu.sdu i =
    if o = 0x01#7 then i.src2
    else if o = 0x00#7 then i.src1 + i.src2
    else if o = 0x04#7 then i.src1 ^^^ i.src2
    else if o = 0x0c#7 then i.src1 &&& i.src2
    else if o = 0x08#7 then i.src1 ||| i.src2
    else if o = 0x10#7 then (if i.src1.slt i.src2 then i.src1 else i.src2)
    else if o = 0x14#7 then (if i.src2.slt i.src1 then i.src1 else i.src2)
    else if o = 0x18#7 then (if i.src1.ult i.src2 then i.src1 else i.src2)
    else if o = 0x1c#7 then (if i.src2.ult i.src1 then i.src1 else i.src2)
    else i.src2 := by
  subst ho
  simp only [Fu.sdu, h, Bool.not_true, Bool.false_eq_true, if_false]

/-- **C06.** For every AMO, every ordering-bit combination and all values, the value
stored back is the AMO function of the old memory value and `rs2`, and the address
used by both the load and the store half is `rs1`. -/
theorem C06_amo (op : AmoOp) (aqrl : BitVec 2) (rs2 rs1 rd : BitVec 5) (pc old : Word)
    (x : Nat → Word) :
    execStoreData (encAmo op.funct5 aqrl rs2 rs1 rd) pc x old =
      some (op.sem old (x rs2.toNat)) ∧
    execAddr .ld (encAmo op.funct5 aqrl rs2 rs1 rd) pc x = some (x rs1.toNat) ∧
    execAddr .sta (encAmo op.funct5 aqrl rs2 rs1 rd) pc x = some (x rs1.toNat) := by
  obtain ⟨u, hu, ht, h7, himm, hat, hs1, hs2⟩ :=
    dec_amo ((op.funct5 ++ aqrl : BitVec (5 + 2)).cast rfl) rs2 rs1 rd 2
  have hop : u.amoOp = op.funct5.setWidth 7 := by
    rw [DecInst.amoOp, h7]; exact amoOp_code _ _
  have n2 : ¬ u.amoOp = 2#7 := by rw [hop]; cases op <;> decide
  have n3 : ¬ u.amoOp = 3#7 := by rw [hop]; cases op <;> decide
  have hdc : decompose u =
      [⟨.ld, .load, { u with src2En := false }, false, none⟩,
       ⟨.sta, .sta, { u with src2En := false, destEn := false }, false, none⟩,
       ⟨.std, .std, { u with isAtomic := true, destEn := false }, true,
         some (!(u.amoOp == 1#7))⟩] := by
    unfold decompose; rw [ht]; simp only [n2, n3, if_false]
  have hw : decode (encAmo op.funct5 aqrl rs2 rs1 rd) = u := hu
  refine ⟨?_, ?_, ?_⟩
  · have : execStoreData (encAmo op.funct5 aqrl rs2 rs1 rd) pc x old =
        some (Fu.sdu (MicroOp.toInst ⟨.std, .std, { u with isAtomic := true, destEn := false }, true,
         some (!(u.amoOp == 1#7))⟩ pc old (x u.src2Areg) false 0#32)) := by
      rw [execStoreData, hw, hdc]; rfl
    rw [this, hs2]
    congr 1
    have hf : u.func7 >>> (2 : Nat) = op.funct5.setWidth 7 := hop
    rw [sdu_atomic _ (op.funct5.setWidth 7) rfl hf]
    simp only [MicroOp.toInst]
    cases op <;> simp only [AmoOp.funct5, AmoOp.sem]
    · rfl
    · simp [Alu.sum_eq]
    · simp [Alu.xor_eq]
    · simp [Alu.and_eq]
    · simp [Alu.or_eq]
    · exact Alu.min_eq _ _
    · exact Alu.max_eq _ _
    · exact Alu.minu_eq _ _
    · exact Alu.maxu_eq _ _
  · rw [execAddr, hw, hdc]
    simp [Fu.agu, MicroOp.toInst, himm, hs1]
  · rw [execAddr, hw, hdc]
    simp [Fu.agu, MicroOp.toInst, himm, hs1]

/-- **C06, plain stores and loads.** A store writes `rs2` unchanged to `rs1 + imm`; a
load reads from `rs1 + imm`. -/
theorem C06_store_load (imm : BitVec 12) (rs2 rs1 rd : BitVec 5) (f3 : BitVec 3) (pc old : Word)
    (x : Nat → Word) :
    execStoreData (encS imm rs2 rs1 f3 0b0100011#7) pc x old = some (x rs2.toNat) ∧
    execAddr .sta (encS imm rs2 rs1 f3 0b0100011#7) pc x =
      some (BitVec.ofInt 32 (((x rs1.toNat).toNat : Int) + imm.toInt)) ∧
    execAddr .ld (encI imm rs1 f3 rd 0b0000011#7) pc x =
      some (BitVec.ofInt 32 (((x rs1.toNat).toNat : Int) + imm.toInt)) := by
  have hs : ∃ u, decode (encS imm rs2 rs1 f3 0b0100011#7) = u ∧ u.type = .store ∧
      u.isAtomic = false ∧ u.imm = imm.signExtend 32 ∧ u.src1Areg = rs1.toNat ∧
      u.src2Areg = rs2.toNat := by
    refine ⟨_, rfl, ?_⟩
    unfold decode
    obtain ⟨h1, h2, h3, h4, h5, h6, h7, h8, h9, h10, h11, -⟩ := Exec.finish_fields
      (decodeOpcode (encS imm rs2 rs1 f3 0b0100011#7)
        (decodeFields (encS imm rs2 rs1 f3 0b0100011#7)))
    rw [h1, h6, h7, h8, h11]
    unfold decodeOpcode
    rw [EncLemmas.encS_opc]
    simp only [decodeFields, EncLemmas.encS_rs1, EncLemmas.encS_rs2, ImmLemmas.immS_enc, and_self]
  have hl : ∃ u, decode (encI imm rs1 f3 rd 0b0000011#7) = u ∧ u.type = .load ∧
      u.imm = imm.signExtend 32 ∧ u.src1Areg = rs1.toNat := by
    refine ⟨_, rfl, ?_⟩
    unfold decode
    obtain ⟨h1, h2, h3, h4, h5, h6, h7, h8, h9, h10, h11, -⟩ := Exec.finish_fields
      (decodeOpcode (encI imm rs1 f3 rd 0b0000011#7)
        (decodeFields (encI imm rs1 f3 rd 0b0000011#7)))
    rw [h1, h6, h7]
    unfold decodeOpcode
    rw [EncLemmas.encI_opc]
    simp only [decodeFields, EncLemmas.encI_rs1, ImmLemmas.immI_enc, and_self]
  obtain ⟨u, hu, ht, hat, himm, hs1, hs2⟩ := hs
  obtain ⟨v, hv, vt, vimm, vs1⟩ := hl
  refine ⟨?_, ?_, ?_⟩
  · rw [execStoreData, hu]; unfold decompose; rw [ht]
    simp [Fu.sdu, MicroOp.toInst, hat, hs2]
  · rw [execAddr, hu]; unfold decompose; rw [ht]
    simp [Fu.agu, MicroOp.toInst, himm, hs1, ofInt_pc_add, BitVec.signExtend]
  · rw [execAddr, hv]; unfold decompose; rw [vt]
    simp [Fu.agu, MicroOp.toInst, vimm, vs1, ofInt_pc_add, BitVec.signExtend]

example : execStoreData (encAmo AmoOp.min.funct5 3 2 1 5) 0#32
    (fun n => if n = 2 then 5#32 else 0#32) 0xFFFFFFFE#32 = some 0xFFFFFFFE#32 := by decide +kernel

end Verif.Props

import Verif.Proofs.Exec
import Verif.Props.Decode
import Verif.Model.RefIM
/-
C09: the reference simulator and the pipeline agree on every supported
computational, jump and branch instruction.
-/
namespace Verif.Props
open Verif.Isa Verif.Decode Verif.Ref

theorem ref_r (op : ROp) (hm : op.isMul = false) (hd : op.isDiv = false) (imm a b s s' : Word) :
    refOp op.funct.2 op.funct.1 a b s = Fu.aluAdd op.funct.2 op.funct.1 false imm a b s' := by
  cases op <;> simp only [ROp.isMul, ROp.isDiv, reduceCtorEq] at hm hd <;> rfl

theorem ref_mul (op : ROp) (hm : op.isMul = true) (a b : Word) :
    some (refMulDiv op.funct.2 a b) = Fu.mul op.funct.2 a b := by
  cases op <;> simp only [ROp.isMul, reduceCtorEq] at hm <;> rfl

theorem ref_div (op : ROp) (hm : op.isDiv = true) (a b : Word) :
    some (refMulDiv op.funct.2 a b) = Fu.div op.funct.2 a b := by
  cases op <;> simp only [ROp.isDiv, reduceCtorEq] at hm <;> rfl

theorem ref_i (op : IOp) (f7 : BitVec 7) (r2 : Nat) (imm a s s' : Word) :
    refOpImm op.funct3 f7 r2 imm a s = Fu.aluAdd op.funct3 f7 true imm a imm s' := by
  cases op <;> simp [refOpImm, Fu.aluAdd, IOp.funct3]

theorem ref_sh (op : ShOp) (r2 : Nat) (imm a s s' : Word) :
    refOpImm op.funct.2 op.funct.1 r2 imm a s =
      Fu.aluAdd op.funct.2 op.funct.1 true imm a imm s' := by
  cases op <;> rfl

theorem ref_un (op : UnOp) (imm a s s' : Word)
    (h : imm &&& 0x1F#32 = BitVec.ofNat 32 op.funct.2.1.toNat) :
    refOpImm op.funct.2.2 op.funct.1 op.funct.2.1.toNat imm a s =
      Fu.aluAdd op.funct.2.2 op.funct.1 true imm a imm s' := by
  cases op <;> simp only [UnOp.funct] at h <;>
    simp [refOpImm, Fu.aluAdd, UnOp.funct, refUnary, Fu.zbbUnary, h] <;> rfl

/-- The register file after writing `v` to register `rd`, x0 staying zero. -/
def writeReg (g : Nat → Word) (rd : BitVec 5) (v : Word) : Nat → Word :=
  fun n => if n = 0 then 0#32 else if n = rd.toNat then v else g n

/-- The instructions that do not redirect the pc. -/
def isJump : Instr → Bool
  | .jal _ _ | .jalr _ _ _ => true
  | _ => false

theorem trunc_add (a : Word) (b : BitVec 64) :
    ((a.setWidth 64 + b).setWidth 32 : Word) = a + b.setWidth 32 := by
  apply BitVec.eq_of_toNat_eq
  simp only [BitVec.toNat_setWidth, BitVec.toNat_add]
  have := a.isLt; omega

theorem trunc_add' (a : Word) (b : BitVec 64) :
    ((b + a.setWidth 64).setWidth 32 : Word) = a + b.setWidth 32 := by
  rw [BitVec.add_comm, trunc_add]

theorem not_muldiv (op : ROp) : op.funct.1 = 1#7 ↔ (op.isMul = true ∨ op.isDiv = true) := by
  cases op <;> decide

theorem isMul_not_isDiv (op : ROp) : op.isMul = true → op.isDiv = false := by
  cases op <;> decide

/-- **C09.** For every supported computational or jump instruction, register file (with
x0 = 0) and pc, the reference simulator's new register file is the old one with exactly the
value the pipeline computes written to rd; if one side executes an undefined C++ shift, so
does the other (rotate by zero, cf. C02). -/
theorem C09_alu (ins : Instr) (x : Nat → Word) (hx : x 0 = 0#32) (pc : Word) :
    (refIM ins.encode ⟨x, pc⟩).map IState.gpr =
      (execInt ins.encode pc x).map (writeReg x ins.rd) := by
  cases ins with
  | r op rd rs1 rs2 =>
    obtain ⟨u, hu, ht, h3, h7, hpc, him, hs1, hs2⟩ := Exec.dec_r op.funct.1 rs2 rs1 rd op.funct.2
    have key : execInt (encR op.funct.1 rs2 rs1 op.funct.2 rd 0b0110011#7) pc x =
        (if op.funct.1 = 1#7 then some (refMulDiv op.funct.2 (x rs1.toNat) (x rs2.toNat))
         else refOp op.funct.2 op.funct.1 (x rs1.toNat) (x rs2.toNat) (x rd.toNat)) := by
      by_cases hm : op.isMul = true
      · have : u.type = .mul := by
          rw [ht]; cases op <;> simp only [ROp.isMul, Bool.false_eq_true] at hm <;> rfl
        rw [Exec.exec_mul _ _ _ u hu this, h3, hs1, hs2,
          if_pos ((not_muldiv op).2 (Or.inl hm)), ref_mul op hm]
      · by_cases hd : op.isDiv = true
        · have : u.type = .div := by
            rw [ht]; cases op <;> simp only [ROp.isDiv, Bool.false_eq_true] at hd <;> rfl
          rw [Exec.exec_div _ _ _ u hu this, h3, hs1, hs2,
            if_pos ((not_muldiv op).2 (Or.inr hd)), ref_div op hd]
        · have : u.type = .add := by
            rw [ht]
            cases op <;> simp only [ROp.isDiv, ROp.isMul, not_true_eq_false] at hd hm <;> rfl
          have hne : ¬ op.funct.1 = 1#7 := by rw [not_muldiv]; simp [hm, hd]
          rw [Exec.exec_add _ _ _ u hu this, h3, h7, hpc, him, hs1, hs2, if_neg hne]
          simp only [Bool.false_eq_true, if_false]
          rw [ref_r op (by simpa using hm) (by simpa using hd)]
    simp only [Instr.encode, Instr.rd]
    rw [key]
    unfold refIM
    rw [EncLemmas.encR_opc]
    simp only [EncLemmas.encR_f3, EncLemmas.encR_f7, EncLemmas.encR_rs1, EncLemmas.encR_rs2,
      EncLemmas.encR_rd]
    by_cases h1 : op.funct.1 = 1#7
    · simp only [if_pos h1]; rfl
    · simp only [if_neg h1]
      generalize refOp _ _ _ _ _ = o
      cases o <;> rfl
  | i op rd rs1 imm =>
    obtain ⟨u, hu, ht, h3, h7, hpc, him, hs1, himm⟩ := Exec.dec_i imm rs1 rd op.funct3
    simp only [Instr.encode, Instr.rd]
    rw [Exec.exec_add _ _ _ u hu ht, h3, hpc, him, hs1, himm]
    simp only [Bool.false_eq_true, if_false, if_true]
    unfold refIM
    rw [EncLemmas.encI_opc]
    simp only [EncLemmas.encI_f3, EncLemmas.encI_rs1, EncLemmas.encI_rd, ImmLemmas.immI_enc]
    rw [ref_i op _ _ _ _ _ 0#32, h7]
    generalize Fu.aluAdd _ _ _ _ _ _ _ = o
    cases o <;> rfl
  | sh op rd rs1 s =>
    obtain ⟨u, hu, ht, h3, h7, hpc, him, hs1, himm⟩ :=
      Exec.dec_i ((op.funct.1 ++ s : BitVec (7 + 5)).cast rfl) rs1 rd op.funct.2
    simp only [Instr.encode, Instr.rd]
    rw [Exec.exec_add _ _ _ u hu ht, h3, h7, hpc, him, hs1, himm, EncLemmas.encI_f7]
    simp only [Bool.false_eq_true, if_false, if_true]
    unfold refIM
    rw [EncLemmas.encI_opc]
    simp only [EncLemmas.encI_f3, EncLemmas.encI_rs1, EncLemmas.encI_rd, ImmLemmas.immI_enc,
      EncLemmas.encI_f7]
    rw [ref_sh op _ _ _ _ 0#32]
    generalize Fu.aluAdd _ _ _ _ _ _ _ = o
    cases o <;> rfl
  | un op rd rs1 =>
    obtain ⟨u, hu, ht, h3, h7, hpc, him, hs1, himm⟩ :=
      Exec.dec_i ((op.funct.1 ++ op.funct.2.1 : BitVec (7 + 5)).cast rfl) rs1 rd op.funct.2.2
    simp only [Instr.encode, Instr.rd]
    rw [Exec.exec_add _ _ _ u hu ht, h3, h7, hpc, him, hs1, himm, EncLemmas.encI_f7]
    simp only [Bool.false_eq_true, if_false, if_true]
    have hrs2 : ((encI ((op.funct.1 ++ op.funct.2.1 : BitVec (7 + 5)).cast rfl) rs1 op.funct.2.2 rd
        0b0010011#7).extractLsb' 20 5) = op.funct.2.1 := by
      apply BitVec.eq_of_getLsbD_eq
      intro i hi
      rw [BitVec.getLsbD_extractLsb']
      simp only [hi, decide_true, Bool.true_and]
      rw [EncLemmas.encI_getLsbD]
      rw [BitVec.getLsbD_cast, BitVec.getLsbD_append]
      simp [show ¬ 20 + i < 7 by omega, show ¬ 20 + i < 12 by omega, show ¬ 20 + i < 15 by omega,
        show ¬ 20 + i < 20 by omega, hi]
    unfold refIM
    rw [EncLemmas.encI_opc]
    simp only [EncLemmas.encI_f3, EncLemmas.encI_rs1, EncLemmas.encI_rd, ImmLemmas.immI_enc,
      EncLemmas.encI_f7, hrs2]
    rw [ref_un op _ _ _ 0#32 (Exec.shamt_bits _ _)]
    generalize Fu.aluAdd _ _ _ _ _ _ _ = o
    cases o <;> rfl
  | lui rd imm =>
    obtain ⟨u, hu, ht, h3, hpc, him, hs1, himm⟩ := Exec.dec_lui imm rd
    simp only [Instr.encode, Instr.rd]
    rw [Exec.exec_add _ _ _ u hu ht, h3, hpc, him, hs1, himm, hx]
    unfold refIM
    rw [EncLemmas.encU_opc]
    simp only [EncLemmas.encU_rd, ImmLemmas.immU_enc, Fu.aluAdd]
    simp; rfl
  | auipc rd imm =>
    obtain ⟨u, hu, ht, h3, hpc, him, himm⟩ := Exec.dec_auipc imm rd
    simp only [Instr.encode, Instr.rd]
    rw [Exec.exec_add _ _ _ u hu ht, h3, hpc, him, himm]
    unfold refIM
    rw [EncLemmas.encU_opc]
    simp only [EncLemmas.encU_rd, Fu.aluAdd, trunc_add', ImmLemmas.immU_enc]
    simp; rfl
  | jal rd imm =>
    obtain ⟨u, hu, ht, h3, hpc, him, hs1, himm⟩ := Exec.dec_jal imm rd
    simp only [Instr.encode, Instr.rd]
    rw [Exec.exec_jump _ _ _ u hu (Or.inl ht) hpc him h3]
    unfold refIM
    rw [EncLemmas.encJ_opc]
    simp only [EncLemmas.encJ_rd]
    rfl
  | jalr rd rs1 imm =>
    obtain ⟨u, hu, ht, h3, hpc, him, hs1, himm⟩ := Exec.dec_jalr imm rs1 rd 0
    simp only [Instr.encode, Instr.rd]
    rw [Exec.exec_jump _ _ _ u hu (Or.inr ht) hpc him h3]
    unfold refIM
    rw [EncLemmas.encI_opc]
    simp only [EncLemmas.encI_rd]
    rfl

/-- **C09, pc.** The reference simulator's next pc is `pc + 4` for non-jumps and the
pipeline's next pc for jumps. -/
theorem C09_pc (ins : Instr) (x : Nat → Word) (pc : Word) (s : IState)
    (h : refIM ins.encode ⟨x, pc⟩ = some s) :
    (isJump ins = false → s.pc = pc + 4#32) ∧
    (isJump ins = true → ∀ predTaken predNext, ∃ o,
      execBr ins.encode pc x predTaken predNext = some o ∧ s.pc = o.nextPc) := by
  cases ins with
  | jal rd imm =>
    refine ⟨fun h => by simp [isJump] at h, fun _ pt pn => ?_⟩
    obtain ⟨o, ho, -, hn, -⟩ := (C05_jump rd 0 imm 0 pc x pt pn).1
    refine ⟨o, ho, ?_⟩
    rw [hn, ofInt_pc_add, ← sx_shl, ← ImmLemmas.immJ_enc imm rd 0b1101111#7, ← trunc_add]
    unfold refIM at h
    simp only [Instr.encode] at h
    rw [EncLemmas.encJ_opc] at h
    have := Option.some.inj h
    rw [← this]
  | jalr rd rs1 imm =>
    refine ⟨fun h => by simp [isJump] at h, fun _ pt pn => ?_⟩
    obtain ⟨o, ho, -, hn, -⟩ := (C05_jump rd rs1 0 imm pc x pt pn).2
    refine ⟨o, ho, ?_⟩
    rw [hn]
    unfold refIM at h
    simp only [Instr.encode] at h
    rw [EncLemmas.encI_opc] at h
    have := Option.some.inj h
    rw [← this]
    simp only [EncLemmas.encI_rs1]
    apply AluLemmas.eq_ofBits
    intro i hi
    have hs : ∀ a b : BitVec 64, ((a &&& b).setWidth 32 : Word) = a.setWidth 32 &&& b.setWidth 32 :=
      fun a b => BitVec.setWidth_and
    rw [hs, trunc_add, ImmLemmas.immI_enc, ofInt_pc_add, Exec.sx_ofInt]
    have hc : ((0xFFFFFFFE#64).setWidth 32 : Word) = ~~~ 1#32 := by decide
    rw [hc, BitVec.getLsbD_and, BitVec.getLsbD_not, BitVec.getLsbD_one]
    by_cases h0 : i = 0
    · simp [h0]
    · simp [h0, hi]
  | r op rd rs1 rs2 =>
    refine ⟨fun _ => ?_, fun h => by simp [isJump] at h⟩
    unfold refIM at h
    simp only [Instr.encode] at h
    rw [EncLemmas.encR_opc] at h
    simp only at h
    simp only [EncLemmas.encR_f7] at h
    by_cases h1 : op.funct.1 = 1#7
    · simp only [if_pos h1] at h; cases h; rfl
    · simp only [if_neg h1] at h
      revert h
      generalize refOp _ _ _ _ _ = o
      cases o with
      | none => intro h; cases h
      | some v => intro h; cases h; rfl
  | lui rd imm | auipc rd imm =>
    refine ⟨fun _ => ?_, fun h => by simp [isJump] at h⟩
    unfold refIM at h
    simp only [Instr.encode] at h
    rw [EncLemmas.encU_opc] at h
    have := Option.some.inj h
    rw [← this]
  | i op rd rs1 imm | sh op rd rs1 imm | un op rd rs1 =>
    refine ⟨fun _ => ?_, fun h => by simp [isJump] at h⟩
    unfold refIM at h
    simp only [Instr.encode] at h
    rw [EncLemmas.encI_opc] at h
    simp only at h
    revert h
    generalize refOpImm _ _ _ _ _ _ = o
    cases o with
    | none => intro h; cases h
    | some v => intro h; cases h; rfl

/-- **C09, branches.** Same direction, same next pc, no register changed. -/
theorem C09_branch (op : BrOp) (imm : BitVec 12) (rs2 rs1 : BitVec 5) (pc : Word)
    (x : Nat → Word) (hx : x 0 = 0#32) (predTaken : Bool) (predNext : Word) :
    ∃ s o, refIM (encB imm rs2 rs1 op.funct3 0b1100011#7) ⟨x, pc⟩ = some s ∧
      execBr (encB imm rs2 rs1 op.funct3 0b1100011#7) pc x predTaken predNext = some o ∧
      s.pc = o.nextPc ∧ s.gpr = x := by
  obtain ⟨o, ho, ht, ⟨hn1, hn2⟩, -⟩ := C05_branch op imm rs2 rs1 pc x predTaken predNext
  have hr : refTaken op.funct3 (x rs1.toNat) (x rs2.toNat) = true ↔
      op.cond (x rs1.toNat) (x rs2.toNat) := by
    generalize x rs1.toNat = a
    generalize x rs2.toNat = b
    have hn : (a.toNat = b.toNat) ↔ a = b := BitVec.toNat_inj
    cases op <;> simp only [BrOp.funct3, BrOp.cond, refTaken]
    · simp [hn]
    · simp [hn]
    · exact Alu.slt_iff a b
    · have := Alu.slt_iff a b
      cases h : a.slt b
      · simp only [h, Bool.false_eq_true, false_iff] at this; simp; omega
      · simp only [h, true_iff] at this; simp; omega
    · exact Alu.ult_iff a b
    · have := Alu.ult_iff a b
      cases h : a.ult b
      · simp only [h, Bool.false_eq_true, false_iff] at this; simp; omega
      · simp only [h, true_iff] at this; simp; omega
  refine ⟨⟨wr x 0 0#32, o.nextPc⟩, o, ?_, ho, rfl, ?_⟩
  · unfold refIM
    rw [EncLemmas.encB_opc]
    simp only [EncLemmas.encB_f3, EncLemmas.encB_rs1, EncLemmas.encB_rs2]
    congr 2
    by_cases hc : op.cond (x rs1.toNat) (x rs2.toNat)
    · rw [if_pos (hr.2 hc), hn1 hc, trunc_add, ImmLemmas.immB_enc, sx_shl, ofInt_pc_add]
    · rw [if_neg (fun h => hc (hr.1 h)), hn2 hc]
      apply BitVec.eq_of_toNat_eq; simp
  · funext n
    simp only [wr]
    by_cases h : n = 0
    · simp [h, hx]
    · simp [h]

/-- Reserved encodings are *not* covered by C09, and the two sides really differ there: for
funct7 = 2, funct3 = 0 the pipeline adds, the reference leaves rd unchanged. -/
theorem C09_reserved_differ :
    ∃ (w : Word) (x : Nat → Word), x 0 = 0#32 ∧ (decode w).illegal = false ∧
      ∃ s, refIM w ⟨x, 0#32⟩ = some s ∧ some (s.gpr 3) ≠ execInt w 0#32 x :=
  ⟨0x042081B3#32, fun n => if n = 0 then 0#32 else 5#32, rfl, by decide +kernel, _, rfl,
    by decide +kernel⟩

example : ∃ s, refIM (Instr.r .clmulh 3 1 2).encode
    ⟨fun n => if n = 1 then 0x80000000#32 else if n = 2 then 6#32 else 0#32, 0x1000#32⟩ = some s ∧
    s.gpr 3 = 3#32 ∧ s.pc = 0x1004#32 := ⟨_, rfl, by decide +kernel, by decide +kernel⟩

end Verif.Props

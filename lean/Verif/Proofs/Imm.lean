import Verif.Proofs.EncLemmas
import Verif.Proofs.AluLemmas
import Verif.Spec.Imm
/-
The immediate macros produce the ISA immediates.
-/
namespace Verif.ImmLemmas
open Verif.Isa Verif.EncLemmas Verif.AluLemmas Verif.Decode

/-- Closes `Bool` goals made of `decide`s of linear facts and bit reads. -/
macro "bits_tac" : tactic =>
  `(tactic| (repeat' split
             all_goals try omega
             all_goals first
               | rfl
               | (congr 1; omega)))

theorem trunc_bit (x : BitVec 64) (i : Nat) (hi : i < 32) :
    (x.setWidth 32).getLsbD i = x.getLsbD i := by
  rw [BitVec.getLsbD_setWidth, decide_eq_true hi, Bool.true_and]

theorem immI_eq (w : Word) : (immI w).setWidth 32 = ofBits (immIBit w) := by
  apply eq_ofBits
  intro i hi
  rw [trunc_bit _ i hi, immI, sext_getLsbD _ _ _ (by decide) (by decide),
    bits_getLsbD _ _ _ _ (by decide), bits_getLsbD _ _ _ _ (by decide), immIBit,
    decide_eq_true (by omega : i < 64), Bool.true_and]
  by_cases h : i < 12
  · rw [if_pos h, decide_eq_true (by omega : i < 31 - 20 + 1), Bool.true_and]
    by_cases h' : i ≤ 10
    · rw [if_pos h']
    · rw [if_neg h']; congr 1; omega
  · rw [if_neg h, if_neg (by omega : ¬ i ≤ 10)]; rfl

theorem bits_shl_getLsbD (x : Word) (hi lo s i : Nat) (h : hi - lo + 1 < 64) (hi64 : i < 64) :
    (bits x hi lo <<< s).getLsbD i =
      (decide (s ≤ i ∧ i - s < hi - lo + 1) && x.getLsbD (lo + (i - s))) := by
  rw [BitVec.getLsbD_shiftLeft, bits_getLsbD _ _ _ _ h, decide_eq_true hi64, Bool.true_and]
  by_cases h1 : i < s
  · have : ¬ (s ≤ i ∧ i - s < hi - lo + 1) := by omega
    simp [h1, this]
  · by_cases h2 : i - s < hi - lo + 1
    · have : (s ≤ i ∧ i - s < hi - lo + 1) := by omega
      simp [h1, this]
    · have : ¬ (s ≤ i ∧ i - s < hi - lo + 1) := by omega
      simp [h2]

theorem sext_shl_getLsbD (x : BitVec 64) (len s i : Nat) (h0 : 0 < len) (h : len < 64)
    (hi64 : i < 64) : (sext x len <<< s).getLsbD i =
      (decide (s ≤ i) && if i - s < len then x.getLsbD (i - s) else x.getLsbD (len - 1)) := by
  rw [BitVec.getLsbD_shiftLeft, sext_getLsbD _ _ _ h0 h, decide_eq_true hi64, Bool.true_and,
    decide_eq_true (by omega : i - s < 64), Bool.true_and]
  by_cases h1 : i < s
  · have : ¬ s ≤ i := by omega
    simp [h1, this]
  · have : s ≤ i := by omega
    simp [h1, this]

theorem immU_eq (w : Word) : (immU w).setWidth 32 = ofBits (immUBit w) := by
  apply eq_ofBits
  intro i hi
  rw [trunc_bit _ i hi, immU, sext_shl_getLsbD _ _ _ _ (by decide) (by decide) (by omega),
    bits_getLsbD _ _ _ _ (by decide), bits_getLsbD _ _ _ _ (by decide), immUBit]
  by_cases h : i ≤ 11
  · rw [if_pos h, decide_eq_false (by omega : ¬ 12 ≤ i), Bool.false_and]
  · rw [if_neg h, decide_eq_true (by omega : 12 ≤ i), Bool.true_and,
      if_pos (by omega : i - 12 < 20), decide_eq_true (by omega : i - 12 < 31 - 12 + 1),
      Bool.true_and]
    congr 1; omega

theorem immS_eq (w : Word) : (immS w).setWidth 32 = ofBits (immSBit w) := by
  apply eq_ofBits
  intro i hi
  rw [trunc_bit _ i hi, immS, BitVec.getLsbD_or,
    sext_shl_getLsbD _ _ _ _ (by decide) (by decide) (by omega),
    bits_getLsbD _ _ _ _ (by decide), bits_getLsbD _ _ _ _ (by decide),
    bits_getLsbD _ _ _ _ (by decide), immSBit]
  by_cases h : i ≤ 4
  · rw [if_pos h, decide_eq_false (by omega : ¬ 5 ≤ i), Bool.false_and, Bool.false_or,
      decide_eq_true (by omega : i < 11 - 7 + 1), Bool.true_and]
  · rw [if_neg h, decide_eq_true (by omega : 5 ≤ i), Bool.true_and,
      decide_eq_false (by omega : ¬ i < 11 - 7 + 1), Bool.false_and, Bool.or_false]
    by_cases h' : i ≤ 10
    · rw [if_pos h', if_pos (by omega : i - 5 < 7), decide_eq_true (by omega : i - 5 < 31 - 25 + 1),
        Bool.true_and]
    · rw [if_neg h']
      by_cases h'' : i = 11
      · subst h''; rfl
      · rw [if_neg (by omega : ¬ i - 5 < 7)]; rfl

theorem immB_eq (w : Word) : (immB w).setWidth 32 = ofBits (immBBit w) := by
  apply eq_ofBits
  intro i hi
  rw [trunc_bit _ i hi, immB, BitVec.getLsbD_or, BitVec.getLsbD_or, BitVec.getLsbD_or,
    sext_shl_getLsbD _ _ _ _ (by decide) (by decide) (by omega),
    bits_shl_getLsbD _ _ _ _ _ (by decide) (by omega),
    bits_shl_getLsbD _ _ _ _ _ (by decide) (by omega),
    bits_shl_getLsbD _ _ _ _ _ (by decide) (by omega),
    bits_getLsbD _ _ _ _ (by decide), bits_getLsbD _ _ _ _ (by decide), immBBit]
  have hc : i = 0 ∨ (1 ≤ i ∧ i ≤ 4) ∨ (5 ≤ i ∧ i ≤ 10) ∨ i = 11 ∨ 12 ≤ i := by omega
  rcases hc with h | h | h | h | h
  · subst h; simp
  · have a1 : ¬ 12 ≤ i := by omega
    have a2 : ¬ (11 ≤ i ∧ i - 11 < 7 - 7 + 1) := by omega
    have a3 : ¬ (5 ≤ i ∧ i - 5 < 30 - 25 + 1) := by omega
    have a4 : 1 ≤ i ∧ i - 1 < 11 - 8 + 1 := by omega
    rw [if_neg (by omega : ¬ i = 0), if_pos (by omega : i ≤ 4)]
    simp only [decide_eq_false a1, decide_eq_false a2, decide_eq_false a3, decide_eq_true a4,
      Bool.false_and, Bool.true_and, Bool.false_or]
  · have a1 : ¬ 12 ≤ i := by omega
    have a2 : ¬ (11 ≤ i ∧ i - 11 < 7 - 7 + 1) := by omega
    have a3 : (5 ≤ i ∧ i - 5 < 30 - 25 + 1) := by omega
    have a4 : ¬ (1 ≤ i ∧ i - 1 < 11 - 8 + 1) := by omega
    rw [if_neg (by omega : ¬ i = 0), if_neg (by omega : ¬ i ≤ 4), if_pos (by omega : i ≤ 10)]
    simp only [decide_eq_false a1, decide_eq_false a2, decide_eq_true a3, decide_eq_false a4,
      Bool.false_and, Bool.true_and, Bool.false_or, Bool.or_false]
  · subst h; simp
  · have a1 : 12 ≤ i := by omega
    have a2 : ¬ (11 ≤ i ∧ i - 11 < 7 - 7 + 1) := by omega
    have a3 : ¬ (5 ≤ i ∧ i - 5 < 30 - 25 + 1) := by omega
    have a4 : ¬ (1 ≤ i ∧ i - 1 < 11 - 8 + 1) := by omega
    rw [if_neg (by omega : ¬ i = 0), if_neg (by omega : ¬ i ≤ 4), if_neg (by omega : ¬ i ≤ 10),
      if_neg (by omega : ¬ i = 11)]
    simp only [decide_eq_true a1, decide_eq_false a2, decide_eq_false a3, decide_eq_false a4,
      Bool.false_and, Bool.true_and, Bool.or_false]
    by_cases h12 : i = 12
    · subst h12; rfl
    · rw [if_neg (by omega : ¬ i - 12 < 1)]; rfl

theorem immJ_eq (w : Word) : (immJ w).setWidth 32 = ofBits (immJBit w) := by
  apply eq_ofBits
  intro i hi
  rw [trunc_bit _ i hi, immJ, BitVec.getLsbD_or, BitVec.getLsbD_or, BitVec.getLsbD_or,
    sext_shl_getLsbD _ _ _ _ (by decide) (by decide) (by omega),
    bits_shl_getLsbD _ _ _ _ _ (by decide) (by omega),
    bits_shl_getLsbD _ _ _ _ _ (by decide) (by omega),
    bits_shl_getLsbD _ _ _ _ _ (by decide) (by omega),
    bits_getLsbD _ _ _ _ (by decide), bits_getLsbD _ _ _ _ (by decide), immJBit]
  have hc : i = 0 ∨ (1 ≤ i ∧ i ≤ 10) ∨ i = 11 ∨ (12 ≤ i ∧ i ≤ 19) ∨ 20 ≤ i := by omega
  rcases hc with h | h | h | h | h
  · subst h; simp
  · have a1 : ¬ 20 ≤ i := by omega
    have a2 : ¬ (12 ≤ i ∧ i - 12 < 19 - 12 + 1) := by omega
    have a3 : ¬ (11 ≤ i ∧ i - 11 < 20 - 20 + 1) := by omega
    have a4 : 1 ≤ i ∧ i - 1 < 30 - 21 + 1 := by omega
    rw [if_neg (by omega : ¬ i = 0), if_pos (by omega : i ≤ 10)]
    simp only [decide_eq_false a1, decide_eq_false a2, decide_eq_false a3, decide_eq_true a4,
      Bool.false_and, Bool.true_and, Bool.false_or]
  · subst h; simp
  · have a1 : ¬ 20 ≤ i := by omega
    have a2 : (12 ≤ i ∧ i - 12 < 19 - 12 + 1) := by omega
    have a3 : ¬ (11 ≤ i ∧ i - 11 < 20 - 20 + 1) := by omega
    have a4 : ¬ (1 ≤ i ∧ i - 1 < 30 - 21 + 1) := by omega
    rw [if_neg (by omega : ¬ i = 0), if_neg (by omega : ¬ i ≤ 10), if_neg (by omega : ¬ i = 11),
      if_pos (by omega : i ≤ 19)]
    simp only [decide_eq_false a1, decide_eq_true a2, decide_eq_false a3, decide_eq_false a4,
      Bool.false_and, Bool.true_and, Bool.false_or, Bool.or_false]
    congr 1; omega
  · have a1 : 20 ≤ i := by omega
    have a2 : ¬ (12 ≤ i ∧ i - 12 < 19 - 12 + 1) := by omega
    have a3 : ¬ (11 ≤ i ∧ i - 11 < 20 - 20 + 1) := by omega
    have a4 : ¬ (1 ≤ i ∧ i - 1 < 30 - 21 + 1) := by omega
    rw [if_neg (by omega : ¬ i = 0), if_neg (by omega : ¬ i ≤ 10), if_neg (by omega : ¬ i = 11),
      if_neg (by omega : ¬ i ≤ 19)]
    simp only [decide_eq_true a1, decide_eq_false a2, decide_eq_false a3, decide_eq_false a4,
      Bool.false_and, Bool.true_and, Bool.or_false]
    by_cases h12 : i = 20
    · subst h12; rfl
    · rw [if_neg (by omega : ¬ i - 20 < 1)]; rfl

/-! ### round trips -/

theorem sx_bit {n : Nat} (x : BitVec n) (i : Nat) (hi : i < 32) (hn : 0 < n) :
    (x.signExtend 32).getLsbD i = if i < n then x.getLsbD i else x.getLsbD (n - 1) := by
  rw [BitVec.getLsbD_signExtend, decide_eq_true hi, Bool.true_and, BitVec.msb_eq_getLsbD_last]

theorem immI_enc (imm : BitVec 12) (rs1 rd : BitVec 5) (f3 : BitVec 3) (opc : BitVec 7) :
    (immI (encI imm rs1 f3 rd opc)).setWidth 32 = imm.signExtend 32 := by
  rw [immI_eq]; symm; apply eq_ofBits; intro i hi
  rw [sx_bit _ i hi (by decide), immIBit, encI_getLsbD, encI_getLsbD]
  repeat' split
  all_goals first | omega | rfl | (congr 1; omega)

theorem immS_enc (imm : BitVec 12) (rs1 rs2 : BitVec 5) (f3 : BitVec 3) (opc : BitVec 7) :
    (immS (encS imm rs2 rs1 f3 opc)).setWidth 32 = imm.signExtend 32 := by
  rw [immS_eq]; symm; apply eq_ofBits; intro i hi
  rw [sx_bit _ i hi (by decide), immSBit, encS_getLsbD, encS_getLsbD, encS_getLsbD]
  repeat' split
  all_goals first | omega | rfl | (congr 1; omega)

theorem immU_enc (imm : BitVec 20) (rd : BitVec 5) (opc : BitVec 7) :
    (immU (encU imm rd opc)).setWidth 32 = BitVec.ofNat 32 (imm.toNat * 4096) := by
  have e : BitVec.ofNat 32 (imm.toNat * 4096) = (imm.setWidth 32) <<< 12 := by
    apply BitVec.eq_of_toNat_eq
    have := imm.isLt
    rw [BitVec.toNat_shiftLeft, BitVec.toNat_setWidth, BitVec.toNat_ofNat, Nat.shiftLeft_eq,
      Nat.mod_eq_of_lt (by omega : imm.toNat < 2 ^ 32)]
  rw [immU_eq, e]; symm; apply eq_ofBits; intro i hi
  rw [BitVec.getLsbD_shiftLeft, BitVec.getLsbD_setWidth, decide_eq_true hi, Bool.true_and,
    decide_eq_true (by omega : i - 12 < 32), Bool.true_and, immUBit, encU_getLsbD]
  by_cases h : i ≤ 11
  · rw [if_pos h, decide_eq_true (by omega)]; rfl
  · rw [if_neg h, decide_eq_false (by omega), if_neg (by omega), if_neg (by omega)]; rfl

theorem immB_enc (imm : BitVec 12) (rs1 rs2 : BitVec 5) (f3 : BitVec 3) (opc : BitVec 7) :
    (immB (encB imm rs2 rs1 f3 opc)).setWidth 32 = (imm.signExtend 32) <<< 1 := by
  rw [immB_eq]; symm; apply eq_ofBits; intro i hi
  rw [BitVec.getLsbD_shiftLeft, decide_eq_true hi, Bool.true_and, sx_bit _ _ (by omega) (by decide),
    immBBit, encB_getLsbD, encB_getLsbD, encB_getLsbD, encB_getLsbD]
  have hc : i = 0 ∨ (1 ≤ i ∧ i ≤ 4) ∨ (5 ≤ i ∧ i ≤ 10) ∨ i = 11 ∨ 12 ≤ i := by omega
  rcases hc with h | h | h | h | h
  · subst h; rfl
  · rw [decide_eq_false (by omega : ¬ i < 1)]
    simp (disch := omega) only [if_pos, if_neg, Bool.not_false, Bool.true_and]
    congr 1; omega
  · rw [decide_eq_false (by omega : ¬ i < 1)]
    simp (disch := omega) only [if_pos, if_neg, Bool.not_false, Bool.true_and]
    congr 1; omega
  · subst h; rfl
  · rw [decide_eq_false (by omega : ¬ i < 1)]
    by_cases h12 : i = 12
    · subst h12; rfl
    · simp (disch := omega) only [if_pos, if_neg, Bool.not_false, Bool.true_and]

theorem immJ_enc (imm : BitVec 20) (rd : BitVec 5) (opc : BitVec 7) :
    (immJ (encJ imm rd opc)).setWidth 32 = (imm.signExtend 32) <<< 1 := by
  rw [immJ_eq]; symm; apply eq_ofBits; intro i hi
  rw [BitVec.getLsbD_shiftLeft, decide_eq_true hi, Bool.true_and, sx_bit _ _ (by omega) (by decide),
    immJBit, encJ_getLsbD, encJ_getLsbD, encJ_getLsbD, encJ_getLsbD]
  have hc : i = 0 ∨ (1 ≤ i ∧ i ≤ 10) ∨ i = 11 ∨ (12 ≤ i ∧ i ≤ 19) ∨ 20 ≤ i := by omega
  rcases hc with h | h | h | h | h
  · subst h; rfl
  · rw [decide_eq_false (by omega : ¬ i < 1)]
    simp (disch := omega) only [if_pos, if_neg, Bool.not_false, Bool.true_and]
    congr 1; omega
  · subst h; rfl
  · rw [decide_eq_false (by omega : ¬ i < 1)]
    simp (disch := omega) only [if_pos, if_neg, Bool.not_false, Bool.true_and]
  · rw [decide_eq_false (by omega : ¬ i < 1)]
    by_cases h20 : i = 20
    · subst h20; rfl
    · simp (disch := omega) only [if_pos, if_neg, Bool.not_false, Bool.true_and]

end Verif.ImmLemmas

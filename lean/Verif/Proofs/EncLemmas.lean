import Verif.Model.Decode
import Verif.Spec.Isa
/-
Field extraction from encoded instruction words.
-/
namespace Verif.EncLemmas
open Verif.Isa

variable (f7 : BitVec 7) (rs2 rs1 rd : BitVec 5) (f3 : BitVec 3) (opc : BitVec 7)
  (imm : BitVec 12) (imm20 : BitVec 20)

theorem encR_getLsbD (i : Nat) : (encR f7 rs2 rs1 f3 rd opc).getLsbD i =
    if i < 7 then opc.getLsbD i else if i < 12 then rd.getLsbD (i - 7)
    else if i < 15 then f3.getLsbD (i - 12) else if i < 20 then rs1.getLsbD (i - 15)
    else if i < 25 then rs2.getLsbD (i - 20) else f7.getLsbD (i - 25) := by
  unfold encR
  rw [BitVec.getLsbD_cast, BitVec.getLsbD_append, BitVec.getLsbD_append, BitVec.getLsbD_append,
    BitVec.getLsbD_append, BitVec.getLsbD_append]
  simp only [Nat.sub_sub]
  repeat' split
  all_goals first | rfl | omega

theorem encI_getLsbD (i : Nat) : (encI imm rs1 f3 rd opc).getLsbD i =
    if i < 7 then opc.getLsbD i else if i < 12 then rd.getLsbD (i - 7)
    else if i < 15 then f3.getLsbD (i - 12) else if i < 20 then rs1.getLsbD (i - 15)
    else imm.getLsbD (i - 20) := by
  unfold encI
  rw [BitVec.getLsbD_cast, BitVec.getLsbD_append, BitVec.getLsbD_append, BitVec.getLsbD_append,
    BitVec.getLsbD_append]
  simp only [Nat.sub_sub]
  repeat' split
  all_goals first | rfl | omega

theorem encS_getLsbD (i : Nat) : (encS imm rs2 rs1 f3 opc).getLsbD i =
    if i < 7 then opc.getLsbD i else if i < 12 then imm.getLsbD (i - 7)
    else if i < 15 then f3.getLsbD (i - 12) else if i < 20 then rs1.getLsbD (i - 15)
    else if i < 25 then rs2.getLsbD (i - 20) else imm.getLsbD (i - 20) := by
  unfold encS
  rw [BitVec.getLsbD_cast, BitVec.getLsbD_append, BitVec.getLsbD_append, BitVec.getLsbD_append,
    BitVec.getLsbD_append, BitVec.getLsbD_append]
  simp only [Nat.sub_sub, BitVec.getLsbD_extractLsb', Nat.zero_add]
  repeat' split
  all_goals first
    | rfl
    | omega
    | (by_cases h : i - 25 < 7
       · rw [decide_eq_true (by omega : i - (7 + 5 + 3 + 5 + 5) < 7), Bool.true_and]; congr 1; omega
       · rw [decide_eq_false (by omega : ¬ i - (7 + 5 + 3 + 5 + 5) < 7), Bool.false_and,
           BitVec.getLsbD_of_ge _ _ (by omega)])
    | (rw [decide_eq_true (by omega), Bool.true_and])

theorem encB_getLsbD (i : Nat) : (encB imm rs2 rs1 f3 opc).getLsbD i =
    if i < 7 then opc.getLsbD i else if i < 8 then imm.getLsbD 10
    else if i < 12 then imm.getLsbD (i - 8)
    else if i < 15 then f3.getLsbD (i - 12) else if i < 20 then rs1.getLsbD (i - 15)
    else if i < 25 then rs2.getLsbD (i - 20) else if i < 31 then imm.getLsbD (i - 21)
    else if i < 32 then imm.getLsbD 11 else false := by
  unfold encB
  rw [BitVec.getLsbD_cast, BitVec.getLsbD_append, BitVec.getLsbD_append, BitVec.getLsbD_append,
    BitVec.getLsbD_append, BitVec.getLsbD_append, BitVec.getLsbD_append, BitVec.getLsbD_append]
  simp only [Nat.sub_sub, BitVec.getLsbD_extractLsb', Nat.zero_add]
  repeat' split
  all_goals first
    | rfl
    | omega
    | (rw [decide_eq_true (by omega), Bool.true_and]; done)
    | (rw [decide_eq_true (by omega), Bool.true_and]; congr 1; omega)
    | (rw [decide_eq_false (by omega), Bool.false_and])

theorem encU_getLsbD (i : Nat) : (encU imm20 rd opc).getLsbD i =
    if i < 7 then opc.getLsbD i else if i < 12 then rd.getLsbD (i - 7)
    else imm20.getLsbD (i - 12) := by
  unfold encU
  rw [BitVec.getLsbD_cast, BitVec.getLsbD_append, BitVec.getLsbD_append]
  simp only [Nat.sub_sub]
  repeat' split
  all_goals first | rfl | omega

theorem encJ_getLsbD (i : Nat) : (encJ imm20 rd opc).getLsbD i =
    if i < 7 then opc.getLsbD i else if i < 12 then rd.getLsbD (i - 7)
    else if i < 20 then imm20.getLsbD (i - 1) else if i < 21 then imm20.getLsbD 10
    else if i < 31 then imm20.getLsbD (i - 21) else if i < 32 then imm20.getLsbD 19
    else false := by
  unfold encJ
  rw [BitVec.getLsbD_cast, BitVec.getLsbD_append, BitVec.getLsbD_append, BitVec.getLsbD_append,
    BitVec.getLsbD_append, BitVec.getLsbD_append]
  simp only [Nat.sub_sub, BitVec.getLsbD_extractLsb', Nat.zero_add]
  repeat' split
  all_goals first
    | rfl
    | omega
    | (rw [decide_eq_true (by omega), Bool.true_and]; done)
    | (rw [decide_eq_true (by omega), Bool.true_and]; congr 1; omega)
    | (rw [decide_eq_false (by omega), Bool.false_and])

/-- Reading back a field from a bit-level description. -/
theorem extract_of_bits {n : Nat} (w : Word) (lo : Nat) (x : BitVec n)
    (h : ∀ i, i < n → w.getLsbD (lo + i) = x.getLsbD i) : w.extractLsb' lo n = x := by
  apply BitVec.eq_of_getLsbD_eq
  intro i hi
  rw [BitVec.getLsbD_extractLsb', decide_eq_true hi, Bool.true_and, h i hi]

macro "field_tac" l:term : tactic =>
  `(tactic| (apply extract_of_bits; intro i hi; rw [$l:term]; repeat' split
             all_goals first | omega | (congr 1; omega)))

@[simp] theorem encR_opc : (encR f7 rs2 rs1 f3 rd opc).extractLsb' 0 7 = opc := by
  field_tac encR_getLsbD
@[simp] theorem encR_rd : (encR f7 rs2 rs1 f3 rd opc).extractLsb' 7 5 = rd := by
  field_tac encR_getLsbD
@[simp] theorem encR_f3 : (encR f7 rs2 rs1 f3 rd opc).extractLsb' 12 3 = f3 := by
  field_tac encR_getLsbD
@[simp] theorem encR_rs1 : (encR f7 rs2 rs1 f3 rd opc).extractLsb' 15 5 = rs1 := by
  field_tac encR_getLsbD
@[simp] theorem encR_rs2 : (encR f7 rs2 rs1 f3 rd opc).extractLsb' 20 5 = rs2 := by
  field_tac encR_getLsbD
@[simp] theorem encR_f7 : (encR f7 rs2 rs1 f3 rd opc).extractLsb' 25 7 = f7 := by
  field_tac encR_getLsbD
@[simp] theorem encI_opc : (encI imm rs1 f3 rd opc).extractLsb' 0 7 = opc := by
  field_tac encI_getLsbD
@[simp] theorem encI_rd : (encI imm rs1 f3 rd opc).extractLsb' 7 5 = rd := by
  field_tac encI_getLsbD
@[simp] theorem encI_f3 : (encI imm rs1 f3 rd opc).extractLsb' 12 3 = f3 := by
  field_tac encI_getLsbD
@[simp] theorem encI_rs1 : (encI imm rs1 f3 rd opc).extractLsb' 15 5 = rs1 := by
  field_tac encI_getLsbD
@[simp] theorem encI_imm : (encI imm rs1 f3 rd opc).extractLsb' 20 12 = imm := by
  field_tac encI_getLsbD
@[simp] theorem encS_opc : (encS imm rs2 rs1 f3 opc).extractLsb' 0 7 = opc := by
  field_tac encS_getLsbD
@[simp] theorem encS_f3 : (encS imm rs2 rs1 f3 opc).extractLsb' 12 3 = f3 := by
  field_tac encS_getLsbD
@[simp] theorem encS_rs1 : (encS imm rs2 rs1 f3 opc).extractLsb' 15 5 = rs1 := by
  field_tac encS_getLsbD
@[simp] theorem encS_rs2 : (encS imm rs2 rs1 f3 opc).extractLsb' 20 5 = rs2 := by
  field_tac encS_getLsbD
@[simp] theorem encB_opc : (encB imm rs2 rs1 f3 opc).extractLsb' 0 7 = opc := by
  field_tac encB_getLsbD
@[simp] theorem encB_f3 : (encB imm rs2 rs1 f3 opc).extractLsb' 12 3 = f3 := by
  field_tac encB_getLsbD
@[simp] theorem encB_rs1 : (encB imm rs2 rs1 f3 opc).extractLsb' 15 5 = rs1 := by
  field_tac encB_getLsbD
@[simp] theorem encB_rs2 : (encB imm rs2 rs1 f3 opc).extractLsb' 20 5 = rs2 := by
  field_tac encB_getLsbD
@[simp] theorem encU_opc : (encU imm20 rd opc).extractLsb' 0 7 = opc := by
  field_tac encU_getLsbD
@[simp] theorem encU_rd : (encU imm20 rd opc).extractLsb' 7 5 = rd := by
  field_tac encU_getLsbD
@[simp] theorem encJ_opc : (encJ imm20 rd opc).extractLsb' 0 7 = opc := by
  field_tac encJ_getLsbD
@[simp] theorem encJ_rd : (encJ imm20 rd opc).extractLsb' 7 5 = rd := by
  field_tac encJ_getLsbD

/-- The immediate of an I-type word whose immediate is `f7 ++ sh`. -/
theorem encI_f7 (sh : BitVec 5) :
    (encI ((f7 ++ sh : BitVec (7 + 5)).cast rfl) rs1 f3 rd opc).extractLsb' 25 7 = f7 := by
  apply extract_of_bits
  intro i hi
  rw [encI_getLsbD]
  repeat' split
  all_goals first
    | omega
    | (rw [BitVec.getLsbD_cast, BitVec.getLsbD_append, if_neg (by omega)]; congr 1; omega)

/-! ### immediates -/

theorem bits_getLsbD (x : Word) (hi lo i : Nat) (h : hi - lo + 1 < 64) :
    (Decode.bits x hi lo).getLsbD i = (decide (i < hi - lo + 1) && x.getLsbD (lo + i)) := by
  unfold Decode.bits
  have hm : ((1#64 <<< (hi - lo + 1)) - 1#64).getLsbD i = decide (i < hi - lo + 1) := by
    generalize hn : hi - lo + 1 = n at h ⊢
    have e : (1#64 <<< n - 1#64) = BitVec.ofNat 64 (2 ^ n - 1) := by
      apply BitVec.eq_of_toNat_eq
      have hp : 2 ^ n < 2 ^ 64 := Nat.pow_lt_pow_right (by omega) h
      have hp0 : 0 < 2 ^ n := Nat.pow_pos (by omega)
      rw [BitVec.toNat_sub, BitVec.toNat_shiftLeft, BitVec.toNat_ofNat, BitVec.toNat_ofNat]
      rw [Nat.shiftLeft_eq]
      have : 1 % 2 ^ 64 * 2 ^ n % 2 ^ 64 = 2 ^ n := by
        rw [Nat.mod_eq_of_lt (a := 1) (by decide), Nat.one_mul, Nat.mod_eq_of_lt hp]
      rw [this, Nat.mod_eq_of_lt (a := 1) (by decide)]
      have e2 : 2 ^ 64 - 1 + 2 ^ n = (2 ^ n - 1) + 2 ^ 64 := by omega
      rw [e2, Nat.add_mod_right]
    rw [e, BitVec.getLsbD_ofNat, Nat.testBit_two_pow_sub_one]
    by_cases hi' : i < n
    · simp [hi', Nat.lt_trans hi' h]
    · simp [hi']
  rw [BitVec.getLsbD_and, hm, BitVec.getLsbD_setWidth, BitVec.getLsbD_ushiftRight]
  by_cases hi' : i < hi - lo + 1
  · have : i < 64 := by omega
    simp [hi', this]
  · simp [hi']

theorem sext_getLsbD (x : BitVec 64) (len i : Nat) (h0 : 0 < len) (h : len < 64) :
    (Decode.sext x len).getLsbD i =
      (decide (i < 64) && if i < len then x.getLsbD i else x.getLsbD (len - 1)) := by
  unfold Decode.sext
  rw [BitVec.getLsbD_signExtend]
  by_cases hi : i < len
  · simp [hi]
  · simp only [hi, if_false]
    rw [BitVec.msb_eq_getLsbD_last, BitVec.getLsbD_setWidth,
      decide_eq_true (by omega : len - 1 < len), Bool.true_and]

end Verif.EncLemmas

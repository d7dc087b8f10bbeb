import Verif.Proofs.AluLemmas
/-
The ALU / multiplier / divider computes `rSem`.
-/
namespace Verif.Alu
open Verif.Isa Verif.CInt Verif.AluLemmas Verif.Fu

theorem ofNat_toNat (x : Word) : BitVec.ofNat 32 x.toNat = x := by simp
theorem ofInt_toInt (x : Word) : BitVec.ofInt 32 x.toInt = x := by simp

theorem sum_eq (a b : Word) : a + b = BitVec.ofNat 32 (a.toNat + b.toNat) := by
  apply BitVec.eq_of_toNat_eq; simp

theorem sub_eq (a b : Word) : a - b = BitVec.ofInt 32 (a.toInt - b.toInt) := by
  apply BitVec.eq_of_toInt_eq
  rw [BitVec.toInt_sub, BitVec.toInt_ofInt]

theorem shl_eq (a : Word) (s : Nat) : a <<< s = BitVec.ofNat 32 (a.toNat * 2 ^ s) := by
  apply BitVec.eq_of_toNat_eq
  simp [BitVec.toNat_shiftLeft, Nat.shiftLeft_eq]

theorem shr_eq (a : Word) (s : Nat) : a >>> s = BitVec.ofNat 32 (a.toNat / 2 ^ s) := by
  apply BitVec.eq_of_toNat_eq
  have : a.toNat / 2 ^ s < 2 ^ 32 := Nat.lt_of_le_of_lt (Nat.div_le_self _ _) a.isLt
  rw [BitVec.toNat_ushiftRight, BitVec.toNat_ofNat, Nat.shiftRight_eq_div_pow,
    Nat.mod_eq_of_lt this]

theorem sar_eq (a : Word) (s : Nat) :
    a.sshiftRight s = BitVec.ofInt 32 (a.toInt / 2 ^ s) := by
  rw [BitVec.sshiftRight, Int.shiftRight_eq_div_pow]
  norm_cast

theorem slt_iff (a b : Word) : a.slt b = true ↔ a.toInt < b.toInt := by simp [BitVec.slt]
theorem ult_iff (a b : Word) : a.ult b = true ↔ a.toNat < b.toNat := by simp [BitVec.ult]

theorem min_eq (a b : Word) :
    (if a.slt b then a else b) = BitVec.ofInt 32 (Min.min a.toInt b.toInt) := by
  by_cases h : a.slt b = true
  · have := (slt_iff a b).1 h
    rw [if_pos h, Int.min_def, if_pos (by omega), ofInt_toInt]
  · have : ¬ a.toInt < b.toInt := fun hh => h ((slt_iff a b).2 hh)
    rw [if_neg h, Int.min_def]
    split
    · have e : a.toInt = b.toInt := by omega
      rw [e, ofInt_toInt]
    · rw [ofInt_toInt]

theorem max_eq (a b : Word) :
    (if b.slt a then a else b) = BitVec.ofInt 32 (Max.max a.toInt b.toInt) := by
  by_cases h : b.slt a = true
  · have := (slt_iff b a).1 h
    rw [if_pos h, Int.max_def, if_neg (by omega), ofInt_toInt]
  · have : ¬ b.toInt < a.toInt := fun hh => h ((slt_iff b a).2 hh)
    rw [if_neg h, Int.max_def, if_pos (by omega), ofInt_toInt]

theorem minu_eq (a b : Word) :
    (if a.ult b then a else b) = BitVec.ofNat 32 (Min.min a.toNat b.toNat) := by
  by_cases h : a.ult b = true
  · have := (ult_iff a b).1 h
    rw [if_pos h, Nat.min_def, if_pos (by omega), ofNat_toNat]
  · have : ¬ a.toNat < b.toNat := fun hh => h ((ult_iff a b).2 hh)
    rw [if_neg h, Nat.min_def]
    split
    · have e : a.toNat = b.toNat := by omega
      rw [e, ofNat_toNat]
    · rw [ofNat_toNat]

theorem maxu_eq (a b : Word) :
    (if b.ult a then a else b) = BitVec.ofNat 32 (Max.max a.toNat b.toNat) := by
  by_cases h : b.ult a = true
  · have := (ult_iff b a).1 h
    rw [if_pos h, Nat.max_def, if_neg (by omega), ofNat_toNat]
  · have : ¬ b.toNat < a.toNat := fun hh => h ((ult_iff b a).2 hh)
    rw [if_neg h, Nat.max_def, if_pos (by omega), ofNat_toNat]

theorem shadd_eq (a b : Word) (k : Nat) :
    b + (a <<< k) = BitVec.ofNat 32 (2 ^ k * a.toNat + b.toNat) := by
  rw [shl_eq, Nat.mul_comm]
  apply BitVec.eq_of_toNat_eq
  simp [Nat.add_comm]

theorem pack_eq (a b : Word) : (a &&& 0xFFFF#32) ||| (b <<< 16) =
    ofBits fun i => if i < 16 then a.getLsbD i else b.getLsbD (i - 16) := by
  apply eq_ofBits
  intro i hi
  have hm : (0xFFFF#32).getLsbD i = decide (i < 16) := by
    revert i; decide
  rw [BitVec.getLsbD_or, BitVec.getLsbD_and, hm, BitVec.getLsbD_shiftLeft]
  by_cases h : i < 16 <;> simp [h, hi]

theorem packh_eq (a b : Word) : (a &&& 0xFF#32) ||| ((b &&& 0xFF#32) <<< 8) =
    ofBits fun i => if i < 8 then a.getLsbD i else if i < 16 then b.getLsbD (i - 8) else false := by
  apply eq_ofBits
  intro i hi
  have hm : ∀ i, i < 32 → (0xFF#32).getLsbD i = decide (i < 8) := by decide
  rw [BitVec.getLsbD_or, BitVec.getLsbD_and, hm i hi, BitVec.getLsbD_shiftLeft, BitVec.getLsbD_and,
    hm (i - 8) (by omega)]
  by_cases h : i < 8
  · simp [h]
  · by_cases h2 : i < 16
    · have : i - 8 < 8 := by omega
      simp [h, hi, h2, this]
    · have : ¬ i - 8 < 8 := by omega
      simp [h, h2, this]

theorem bclr_eq (a : Word) (s : Nat) : a &&& ~~~(1#32 <<< s) =
    ofBits fun i => if i = s then false else a.getLsbD i := by
  apply eq_ofBits
  intro i hi
  rw [BitVec.getLsbD_and, BitVec.getLsbD_not, getLsbD_one_shl s i hi]
  by_cases h : i = s <;> simp [h, hi]

theorem bset_eq (a : Word) (s : Nat) : a ||| (1#32 <<< s) =
    ofBits fun i => if i = s then true else a.getLsbD i := by
  apply eq_ofBits
  intro i hi
  rw [BitVec.getLsbD_or, getLsbD_one_shl s i hi]
  by_cases h : i = s <;> simp [h]

theorem binv_eq (a : Word) (s : Nat) : a ^^^ (1#32 <<< s) =
    ofBits fun i => if i = s then !a.getLsbD i else a.getLsbD i := by
  apply eq_ofBits
  intro i hi
  rw [BitVec.getLsbD_xor, getLsbD_one_shl s i hi]
  by_cases h : i = s <;> simp [h]

theorem bext_eq (a : Word) (s : Nat) : (a >>> s) &&& 1#32 = flag (a.getLsbD s = true) := by
  unfold flag
  by_cases h : a.getLsbD s = true
  · rw [if_pos h]; exact (bit_test a s).2 h
  · rw [if_neg h]
    apply BitVec.eq_of_getLsbD_eq
    intro j hj
    by_cases h0 : j = 0
    · subst h0; simp at h; simp [h]
    · simp [BitVec.getLsbD_one, h0]

theorem xor_eq (a b : Word) : a ^^^ b = ofBits fun i => a.getLsbD i != b.getLsbD i :=
  eq_ofBits fun i _ => by simp
theorem or_eq (a b : Word) : a ||| b = ofBits fun i => a.getLsbD i || b.getLsbD i :=
  eq_ofBits fun i _ => by simp
theorem and_eq (a b : Word) : a &&& b = ofBits fun i => a.getLsbD i && b.getLsbD i :=
  eq_ofBits fun i _ => by simp
theorem andn_eq (a b : Word) : a &&& ~~~b = ofBits fun i => a.getLsbD i && !b.getLsbD i :=
  eq_ofBits fun i hi => by rw [BitVec.getLsbD_and, BitVec.getLsbD_not]; simp [hi]
theorem orn_eq (a b : Word) : a ||| ~~~b = ofBits fun i => a.getLsbD i || !b.getLsbD i :=
  eq_ofBits fun i hi => by rw [BitVec.getLsbD_or, BitVec.getLsbD_not]; simp [hi]
theorem xnor_eq (a b : Word) : ~~~(a ^^^ b) = ofBits fun i => a.getLsbD i == b.getLsbD i :=
  eq_ofBits fun i hi => by
    rw [BitVec.getLsbD_not, BitVec.getLsbD_xor]
    cases a.getLsbD i <;> cases b.getLsbD i <;> simp [hi]

/-! ### multiplier -/

theorem mulu_toNat (a b : Word) :
    ((a.setWidth 64 : BitVec 64) * b.setWidth 64).toNat = a.toNat * b.toNat := by
  rw [BitVec.toNat_mul, BitVec.toNat_setWidth, BitVec.toNat_setWidth]
  have ha := a.isLt
  have hb := b.isLt
  have hp : a.toNat * b.toNat < 2 ^ 64 :=
    calc a.toNat * b.toNat < 2 ^ 32 * 2 ^ 32 :=
          Nat.mul_lt_mul'' ha hb
      _ = 2 ^ 64 := by decide
  rw [Nat.mod_eq_of_lt (by omega : a.toNat < 2 ^ 64), Nat.mod_eq_of_lt (by omega : b.toNat < 2 ^ 64),
    Nat.mod_eq_of_lt hp]

theorem mul_lo (a b : Word) : ((a.setWidth 64 : BitVec 64) * b.setWidth 64).setWidth 32 =
    BitVec.ofNat 32 (a.toNat * b.toNat) := by
  apply BitVec.eq_of_toNat_eq
  rw [BitVec.toNat_setWidth, mulu_toNat, BitVec.toNat_ofNat]

theorem mulhu_eq (a b : Word) :
    (((a.setWidth 64 : BitVec 64) * b.setWidth 64) >>> 32).setWidth 32 =
    BitVec.ofNat 32 (a.toNat * b.toNat / 2 ^ 32) := by
  apply BitVec.eq_of_toNat_eq
  rw [BitVec.toNat_setWidth, BitVec.toNat_ushiftRight, mulu_toNat, BitVec.toNat_ofNat,
    Nat.shiftRight_eq_div_pow]

theorem bmod_id (x : Int) (h1 : -(2 ^ 63) ≤ x) (h2 : x < 2 ^ 63) : x.bmod (2 ^ 64) = x := by
  apply Int.bmod_eq_of_le <;> omega

theorem toInt_bounds (a : Word) : -(2 ^ 31) ≤ a.toInt ∧ a.toInt < 2 ^ 31 := by
  have := BitVec.le_toInt a
  have := BitVec.toInt_lt (x := a)
  constructor <;> omega

theorem sx_toInt (a : Word) : (a.signExtend 64).toInt = a.toInt :=
  BitVec.toInt_signExtend_of_le (by decide)

theorem ux_toInt (a : Word) : (a.setWidth 64 : BitVec 64).toInt = (a.toNat : Int) := by
  have := a.isLt
  rw [BitVec.toInt_eq_toNat_of_lt]
  · rw [BitVec.toNat_setWidth, Nat.mod_eq_of_lt (by omega)]
  · rw [BitVec.toNat_setWidth, Nat.mod_eq_of_lt (by omega)]; omega

/-- Bounds of a 33-bit by 32-bit product. -/
theorem prod_bounds (x y : Int) (hx1 : -(2 ^ 31) ≤ x) (hx2 : x < 2 ^ 31) (hy1 : -(2 ^ 31) ≤ y)
    (hy2 : y < 2 ^ 32) : -(2 ^ 63) ≤ x * y ∧ x * y < 2 ^ 63 := by
  have h1 : (x + 2 ^ 31) * (2 ^ 32 - y) ≥ 0 := Int.mul_nonneg (by omega) (by omega)
  have h2 : (2 ^ 31 - x) * (2 ^ 32 - y) ≥ 0 := Int.mul_nonneg (by omega) (by omega)
  have h3 : (x + 2 ^ 31) * (y + 2 ^ 31) ≥ 0 := Int.mul_nonneg (by omega) (by omega)
  have h4 : (2 ^ 31 - x) * (y + 2 ^ 31) ≥ 0 := Int.mul_nonneg (by omega) (by omega)
  have e1 : (x + 2 ^ 31) * (2 ^ 32 - y) = 2 ^ 32 * x - x * y + 2 ^ 63 - 2 ^ 31 * y := by
    simp only [Int.add_mul, Int.mul_sub]; rw [Int.mul_comm x (2 ^ 32)]; omega
  have e2 : (2 ^ 31 - x) * (2 ^ 32 - y) = 2 ^ 63 - 2 ^ 31 * y - 2 ^ 32 * x + x * y := by
    simp only [Int.sub_mul, Int.mul_sub]; rw [Int.mul_comm x (2 ^ 32)]; omega
  have e3 : (x + 2 ^ 31) * (y + 2 ^ 31) = x * y + 2 ^ 31 * x + 2 ^ 31 * y + 2 ^ 62 := by
    simp only [Int.add_mul, Int.mul_add]; rw [Int.mul_comm x (2 ^ 31)]; omega
  have e4 : (2 ^ 31 - x) * (y + 2 ^ 31) = 2 ^ 31 * y + 2 ^ 62 - x * y - 2 ^ 31 * x := by
    simp only [Int.sub_mul, Int.mul_add]; rw [Int.mul_comm x (2 ^ 31)]; omega
  generalize x * y = p at *
  constructor <;> omega

theorem high_half (p : BitVec 64) :
    (p.sshiftRight 32).setWidth 32 = BitVec.ofInt 32 (p.toInt / 2 ^ 32) := by
  rw [BitVec.sshiftRight, Int.shiftRight_eq_div_pow]
  apply BitVec.eq_of_toNat_eq
  rw [BitVec.toNat_setWidth, BitVec.toNat_ofInt, BitVec.toNat_ofInt]
  have e : ((2 ^ 32 : Nat) : Int) = 2 ^ 32 := by norm_cast
  rw [e]
  generalize p.toInt / 2 ^ 32 = x
  omega

theorem mulh_eq (a b : Word) : ((a.signExtend 64 * b.signExtend 64).sshiftRight 32).setWidth 32 =
    BitVec.ofInt 32 (a.toInt * b.toInt / 2 ^ 32) := by
  rw [high_half, BitVec.toInt_mul, sx_toInt, sx_toInt]
  have ha := toInt_bounds a
  have hb := toInt_bounds b
  have := prod_bounds a.toInt b.toInt ha.1 ha.2 hb.1 (by omega)
  rw [bmod_id _ this.1 this.2]

theorem mulhsu_eq (a b : Word) : ((a.signExtend 64 * b.setWidth 64).sshiftRight 32).setWidth 32 =
    BitVec.ofInt 32 (a.toInt * (b.toNat : Int) / 2 ^ 32) := by
  rw [high_half, BitVec.toInt_mul, sx_toInt, ux_toInt]
  have ha := toInt_bounds a
  have hb := b.isLt
  have := prod_bounds a.toInt b.toNat ha.1 ha.2 (by omega) (by omega)
  rw [bmod_id _ this.1 this.2]

/-! ### divider -/

theorem toInt_eq_zero (b : Word) : b.toInt = 0 ↔ b = 0#32 := by
  constructor
  · intro h; apply BitVec.eq_of_toInt_eq; simpa using h
  · rintro rfl; rfl

theorem toNat_eq_zero (b : Word) : b.toNat = 0 ↔ b = 0#32 := by
  constructor
  · intro h; apply BitVec.eq_of_toNat_eq; simpa using h
  · rintro rfl; rfl

theorem sdiv_eq (a b : Word) : a.sdiv b = BitVec.ofInt 32 (a.toInt.tdiv b.toInt) := by
  apply BitVec.eq_of_toInt_eq
  rw [BitVec.toInt_sdiv, BitVec.toInt_ofInt]

theorem srem_eq (a b : Word) : a.srem b = BitVec.ofInt 32 (a.toInt.tmod b.toInt) := by
  rw [← BitVec.toInt_srem, ofInt_toInt]

/-! ### the units compute `rSem` -/

/-- Rotation by zero is the one case the C++ code leaves undefined. -/
def rotOk (op : ROp) (b : Word) : Prop := (op = .rol ∨ op = .ror) → b.toNat % 32 ≠ 0

theorem alu_r (op : ROp) (hm : op.isMul = false) (hd : op.isDiv = false) (imm a b st : Word)
    (hr : rotOk op b) :
    aluAdd op.funct.2 op.funct.1 false imm a b st = some (rSem op a b) := by
  have hs := shamt_eq b
  have hlt := shamt_lt b
  cases op <;> simp only [ROp.isMul, ROp.isDiv, Bool.true_eq_false] at hm hd <;>
    simp only [aluAdd, ROp.funct, rSem, hs]
  case add => simp [sum_eq]
  case sub => simp [sub_eq]
  case sll => simp [shl_some hlt, shl_eq]
  case slt => simp [ofBool_flag _ _ (slt_iff a b)]
  case sltu => simp [ofBool_flag _ _ (ult_iff a b)]
  case xor => simp [xor_eq]
  case srl => simp [shr_some hlt, shr_eq]
  case sra => simp [sar_some hlt, sar_eq]
  case or => simp [or_eq]
  case and => simp [and_eq]
  case sh1add => simp [shadd_eq]
  case sh2add => simp [shadd_eq]
  case sh3add => simp [shadd_eq]
  case andn => simp [andn_eq]
  case orn => simp [orn_eq]
  case xnor => simp [xnor_eq]
  case min => simp [min_eq]
  case max => simp [max_eq]
  case minu => simp [minu_eq]
  case maxu => simp [maxu_eq]
  case rol =>
    have h0 : b.toNat % 32 ≠ 0 := hr (Or.inl rfl)
    simp [shl_some hlt, shr_some (show 32 - b.toNat % 32 < 32 by omega),
      rol_eq a _ (Nat.pos_of_ne_zero h0) hlt]
  case ror =>
    have h0 : b.toNat % 32 ≠ 0 := hr (Or.inr rfl)
    simp [shr_some hlt, shl_some (show 32 - b.toNat % 32 < 32 by omega),
      ror_eq a _ (Nat.pos_of_ne_zero h0) hlt]
  case pack => simp [pack_eq]
  case packh => simp [packh_eq]
  case bclr => simp [shl_some hlt, bclr_eq]
  case bset => simp [shl_some hlt, bset_eq]
  case binv => simp [shl_some hlt, binv_eq]
  case bext => simp [shr_some hlt, bext_eq]
  case clmul => simp [clmulLoop_eq]
  case clmulr => simp [clmulrLoop_eq]
  case clmulh => simp [clmulhLoop_eq]

theorem alu_i (op : IOp) (f7 : BitVec 7) (imm a b st : Word) :
    aluAdd op.funct3 f7 true imm a b st = some (rSem op.base a b) := by
  cases op <;> simp only [aluAdd, IOp.funct3, IOp.base, rSem]
  case addi => simp [sum_eq]
  case slti => simp [ofBool_flag _ _ (slt_iff a b)]
  case sltiu => simp [ofBool_flag _ _ (ult_iff a b)]
  case xori => simp [xor_eq]
  case ori => simp [or_eq]
  case andi => simp [and_eq]

theorem alu_sh (op : ShOp) (imm a b st : Word) (hr : op = .rori → b.toNat % 32 ≠ 0) :
    aluAdd op.funct.2 op.funct.1 true imm a b st = some (rSem op.base a b) := by
  have hs := shamt_eq b
  have hlt := shamt_lt b
  cases op <;> simp only [aluAdd, ShOp.funct, ShOp.base, rSem, hs]
  case slli => simp [shl_some hlt, shl_eq]
  case srli => simp [shr_some hlt, shr_eq]
  case srai => simp [sar_some hlt, sar_eq]
  case rori =>
    have h0 : b.toNat % 32 ≠ 0 := hr rfl
    simp [shr_some hlt, shl_some (show 32 - b.toNat % 32 < 32 by omega),
      ror_eq a _ (Nat.pos_of_ne_zero h0) hlt]
  case bclri => simp [shl_some hlt, bclr_eq]
  case bseti => simp [shl_some hlt, bset_eq]
  case binvi => simp [shl_some hlt, binv_eq]
  case bexti => simp [shr_some hlt, bext_eq]

theorem mul_r (op : ROp) (hm : op.isMul = true) (a b : Word) :
    Fu.mul op.funct.2 a b = some (rSem op a b) := by
  cases op <;> simp only [ROp.isMul, Bool.false_eq_true] at hm <;>
    simp only [Fu.mul, ROp.funct, rSem]
  case mul => exact congrArg some (mul_lo a b)
  case mulh => exact congrArg some (mulh_eq a b)
  case mulhsu => exact congrArg some (mulhsu_eq a b)
  case mulhu => exact congrArg some (mulhu_eq a b)

theorem div_r (op : ROp) (hm : op.isDiv = true) (a b : Word) :
    Fu.div op.funct.2 a b = some (rSem op a b) := by
  cases op <;> simp only [ROp.isDiv, Bool.false_eq_true] at hm <;>
    simp only [Fu.div, ROp.funct, rSem, toInt_eq_zero, toNat_eq_zero]
  case div =>
    refine congrArg some ?_
    split
    · rfl
    · split
      · rename_i h; rw [h.1, h.2]; decide
      · exact sdiv_eq a b
  case divu =>
    refine congrArg some ?_
    split
    · rfl
    · apply BitVec.eq_of_toNat_eq
      have : a.toNat / b.toNat < 2 ^ 32 := Nat.lt_of_le_of_lt (Nat.div_le_self _ _) a.isLt
      rw [BitVec.toNat_udiv, BitVec.toNat_ofNat, Nat.mod_eq_of_lt this]
  case rem =>
    refine congrArg some ?_
    split
    · rfl
    · split
      · rename_i h; rw [h.1, h.2]; decide
      · exact srem_eq a b
  case remu =>
    refine congrArg some ?_
    split
    · rfl
    · apply BitVec.eq_of_toNat_eq
      have : a.toNat % b.toNat < 2 ^ 32 := Nat.lt_of_le_of_lt (Nat.mod_le _ _) a.isLt
      rw [BitVec.toNat_umod, BitVec.toNat_ofNat, Nat.mod_eq_of_lt this]

/-! ### one-operand instructions -/

theorem sext8_eq (a : Word) : sext8 (a &&& 0xFF#32) =
    ofBits fun i => if i < 8 then a.getLsbD i else a.getLsbD 7 := by
  apply eq_ofBits
  intro i hi
  have hm : ∀ i, i < 32 → (0xFF#32).getLsbD i = decide (i < 8) := by decide
  unfold sext8
  rw [BitVec.getLsbD_signExtend, decide_eq_true hi, Bool.true_and]
  by_cases h : i < 8
  · simp only [h, if_true]
    rw [BitVec.getLsbD_setWidth, BitVec.getLsbD_and, hm i hi]; simp [h]
  · simp only [h, if_false]
    rw [BitVec.msb_eq_getLsbD_last, BitVec.getLsbD_setWidth, BitVec.getLsbD_and, hm _ (by decide)]
    simp

theorem sext16_eq (a : Word) : sext16 (a &&& 0xFFFF#32) =
    ofBits fun i => if i < 16 then a.getLsbD i else a.getLsbD 15 := by
  apply eq_ofBits
  intro i hi
  have hm : ∀ i, i < 32 → (0xFFFF#32).getLsbD i = decide (i < 16) := by decide
  unfold sext16
  rw [BitVec.getLsbD_signExtend, decide_eq_true hi, Bool.true_and]
  by_cases h : i < 16
  · simp only [h, if_true]
    rw [BitVec.getLsbD_setWidth, BitVec.getLsbD_and, hm i hi]; simp [h]
  · simp only [h, if_false]
    rw [BitVec.msb_eq_getLsbD_last, BitVec.getLsbD_setWidth, BitVec.getLsbD_and, hm _ (by decide)]
    simp

theorem rev8_eq (a : Word) : rev8Expr a =
    ofBits fun i => a.getLsbD (8 * (3 - i / 8) + i % 8) := by
  apply eq_ofBits
  intro i hi
  have m0 : ∀ i, i < 32 → (0xFF#32).getLsbD i = decide (i < 8) := by decide
  have m1 : ∀ i, i < 32 → (0xFF00#32).getLsbD i = decide (8 ≤ i ∧ i < 16) := by decide
  have m2 : ∀ i, i < 64 → (0xFF0000#32).getLsbD i = decide (16 ≤ i ∧ i < 24) := by decide
  have m3 : ∀ i, i < 64 → (0xFF000000#32).getLsbD i = decide (24 ≤ i ∧ i < 32) := by decide
  unfold rev8Expr
  simp only [BitVec.getLsbD_or, BitVec.getLsbD_shiftLeft, BitVec.getLsbD_ushiftRight,
    BitVec.getLsbD_and]
  rw [m0 (i - 24) (by omega), m1 (i - 8) (by omega), m2 (8 + i) (by omega), m3 (24 + i) (by omega)]
  have h : i < 8 ∨ (8 ≤ i ∧ i < 16) ∨ (16 ≤ i ∧ i < 24) ∨ 24 ≤ i := by omega
  rcases h with h | h | h | h
  · have e : 8 * (3 - i / 8) + i % 8 = 24 + i := by omega
    have h1 : ¬ (16 ≤ 8 + i ∧ 8 + i < 24) := by omega
    have h2 : 24 ≤ 24 + i ∧ 24 + i < 32 := by omega
    have h3 : i < 24 := by omega
    rw [e]; simp [h, h1, h2, h3]
  · have e : 8 * (3 - i / 8) + i % 8 = 8 + i := by omega
    have h0 : ¬ (i < 8) := by omega
    have h1 : (16 ≤ 8 + i ∧ 8 + i < 24) := by omega
    have h2 : ¬ (24 ≤ 24 + i ∧ 24 + i < 32) := by omega
    have h3 : i < 24 := by omega
    have h4 : ¬ (8 ≤ i - 8 ∧ i - 8 < 16) := by omega
    rw [e]; simp only [h0, h1, h2, h3, h4, decide_true, decide_false, Bool.and_true, Bool.and_false,
      Bool.not_true, Bool.false_and, Bool.false_or, Bool.or_false, and_self]
  · have e : 8 * (3 - i / 8) + i % 8 = i - 8 := by omega
    have h0 : ¬ (i < 8) := by omega
    have h1 : ¬ (16 ≤ 8 + i ∧ 8 + i < 24) := by omega
    have h2 : ¬ (24 ≤ 24 + i ∧ 24 + i < 32) := by omega
    have h3 : i < 24 := by omega
    have h4 : (8 ≤ i - 8 ∧ i - 8 < 16) := by omega
    rw [e]; simp only [hi, h0, h1, h2, h3, h4, decide_true, decide_false, Bool.and_true, Bool.and_false,
      Bool.not_true, Bool.not_false, Bool.true_and, Bool.false_and, Bool.false_or, Bool.or_false, and_self]
  · have e : 8 * (3 - i / 8) + i % 8 = i - 24 := by omega
    have h0 : ¬ (i < 8) := by omega
    have h1 : ¬ (16 ≤ 8 + i ∧ 8 + i < 24) := by omega
    have h2 : ¬ (24 ≤ 24 + i ∧ 24 + i < 32) := by omega
    have h3 : ¬ i < 24 := by omega
    have h4 : ¬ (8 ≤ i - 8 ∧ i - 8 < 16) := by omega
    have h5 : i - 24 < 8 := by omega
    rw [e]; simp only [hi, h0, h1, h2, h3, h4, h5, decide_true, decide_false, Bool.and_true, Bool.and_false,
      Bool.not_true, Bool.not_false, Bool.true_and, Bool.false_and, Bool.false_or, Bool.or_false, and_self]

/-- A masked byte is non-zero iff one of its bits is set. -/
theorem byte_ne_zero (x : Word) (m : Word) (k : Nat) (hk : k + 8 ≤ 32)
    (hm : ∀ i, i < 32 → m.getLsbD i = decide (k ≤ i ∧ i < k + 8)) :
    (x &&& m ≠ 0#32) ↔ (x.getLsbD k || x.getLsbD (k + 1) || x.getLsbD (k + 2) || x.getLsbD (k + 3) ||
      x.getLsbD (k + 4) || x.getLsbD (k + 5) || x.getLsbD (k + 6) || x.getLsbD (k + 7)) = true := by
  constructor
  · intro h
    apply Decidable.byContradiction
    intro hn
    apply h
    simp only [Bool.or_eq_true, not_or, Bool.not_eq_true] at hn
    apply BitVec.eq_of_getLsbD_eq
    intro i hi
    rw [BitVec.getLsbD_and, hm i hi, BitVec.getLsbD_zero]
    by_cases hc : k ≤ i ∧ i < k + 8
    · have : i = k ∨ i = k + 1 ∨ i = k + 2 ∨ i = k + 3 ∨ i = k + 4 ∨ i = k + 5 ∨ i = k + 6 ∨
          i = k + 7 := by omega
      obtain ⟨⟨⟨⟨⟨⟨⟨h0, h1⟩, h2⟩, h3⟩, h4⟩, h5⟩, h6⟩, h7⟩ := hn
      rcases this with e | e | e | e | e | e | e | e <;> subst e <;> simp only [*, Bool.false_and]
    · simp [hc]
  · intro h hz
    have key : ∀ i, k ≤ i → i < k + 8 → x.getLsbD i = false := by
      intro i h1 h2
      have := congrArg (fun w => w.getLsbD i) hz
      simp only [BitVec.getLsbD_and, hm i (by omega), h1, h2, and_self, decide_true, Bool.and_true,
        BitVec.getLsbD_zero] at this
      exact this
    simp [key k (by omega) (by omega), key (k + 1) (by omega) (by omega),
      key (k + 2) (by omega) (by omega), key (k + 3) (by omega) (by omega),
      key (k + 4) (by omega) (by omega), key (k + 5) (by omega) (by omega),
      key (k + 6) (by omega) (by omega), key (k + 7) (by omega) (by omega)] at h

/-- Setting one byte of the accumulator under a condition. -/
theorem orc_step (res m : Word) (c : Prop) [Decidable c] (i k : Nat)
    (hm : m.getLsbD i = decide (k ≤ i ∧ i < k + 8)) :
    (if c then res ||| m else res).getLsbD i =
      (res.getLsbD i || (decide c && decide (k ≤ i ∧ i < k + 8))) := by
  by_cases h : c <;> simp [h, hm]

theorem orcb_eq (a : Word) : orcbExpr a = ofBits fun i =>
      a.getLsbD (8 * (i / 8)) || a.getLsbD (8 * (i / 8) + 1) || a.getLsbD (8 * (i / 8) + 2) ||
      a.getLsbD (8 * (i / 8) + 3) || a.getLsbD (8 * (i / 8) + 4) || a.getLsbD (8 * (i / 8) + 5) ||
      a.getLsbD (8 * (i / 8) + 6) || a.getLsbD (8 * (i / 8) + 7) := by
  apply eq_ofBits
  intro i hi
  have m0 : ∀ i, i < 32 → (0xFF#32).getLsbD i = decide (0 ≤ i ∧ i < 0 + 8) := by decide
  have m1 : ∀ i, i < 32 → (0xFF00#32).getLsbD i = decide (8 ≤ i ∧ i < 8 + 8) := by decide
  have m2 : ∀ i, i < 32 → (0xFF0000#32).getLsbD i = decide (16 ≤ i ∧ i < 16 + 8) := by decide
  have m3 : ∀ i, i < 32 → (0xFF000000#32).getLsbD i = decide (24 ≤ i ∧ i < 24 + 8) := by decide
  unfold orcbExpr
  simp only
  rw [orc_step _ _ _ i 24 (m3 i hi), orc_step _ _ _ i 16 (m2 i hi), orc_step _ _ _ i 8 (m1 i hi),
    orc_step _ _ _ i 0 (m0 i hi), BitVec.getLsbD_zero, Bool.false_or]
  have b0 := (Bool.eq_iff_iff.2 (decide_eq_true_iff.trans (byte_ne_zero a _ 0 (by omega) m0)))
  have b1 := (Bool.eq_iff_iff.2 (decide_eq_true_iff.trans (byte_ne_zero a _ 8 (by omega) m1)))
  have b2 := (Bool.eq_iff_iff.2 (decide_eq_true_iff.trans (byte_ne_zero a _ 16 (by omega) m2)))
  have b3 := (Bool.eq_iff_iff.2 (decide_eq_true_iff.trans (byte_ne_zero a _ 24 (by omega) m3)))
  have h : i < 8 ∨ (8 ≤ i ∧ i < 16) ∨ (16 ≤ i ∧ i < 24) ∨ 24 ≤ i := by omega
  rw [b0, b1, b2, b3]
  rcases h with h | h | h | h
  · have e : i / 8 = 0 := by omega
    have h0 : 0 ≤ i ∧ i < 0 + 8 := by omega
    have h1 : ¬ (8 ≤ i ∧ i < 8 + 8) := by omega
    have h2 : ¬ (16 ≤ i ∧ i < 16 + 8) := by omega
    have h3 : ¬ (24 ≤ i ∧ i < 24 + 8) := by omega
    simp only [e, decide_eq_true h0, decide_eq_false h1, decide_eq_false h2, decide_eq_false h3,
      Bool.and_true, Bool.and_false, Bool.or_false]
  · have e : i / 8 = 1 := by omega
    have h0 : ¬ (0 ≤ i ∧ i < 0 + 8) := by omega
    have h1 : (8 ≤ i ∧ i < 8 + 8) := by omega
    have h2 : ¬ (16 ≤ i ∧ i < 16 + 8) := by omega
    have h3 : ¬ (24 ≤ i ∧ i < 24 + 8) := by omega
    simp only [e, decide_eq_false h0, decide_eq_true h1, decide_eq_false h2, decide_eq_false h3,
      Bool.and_true, Bool.and_false, Bool.or_false, Bool.false_or]
  · have e : i / 8 = 2 := by omega
    have h0 : ¬ (0 ≤ i ∧ i < 0 + 8) := by omega
    have h1 : ¬ (8 ≤ i ∧ i < 8 + 8) := by omega
    have h2 : (16 ≤ i ∧ i < 16 + 8) := by omega
    have h3 : ¬ (24 ≤ i ∧ i < 24 + 8) := by omega
    simp only [e, decide_eq_false h0, decide_eq_false h1, decide_eq_true h2, decide_eq_false h3,
      Bool.and_true, Bool.and_false, Bool.or_false, Bool.false_or]
  · have e : i / 8 = 3 := by omega
    have h0 : ¬ (0 ≤ i ∧ i < 0 + 8) := by omega
    have h1 : ¬ (8 ≤ i ∧ i < 8 + 8) := by omega
    have h2 : ¬ (16 ≤ i ∧ i < 16 + 8) := by omega
    have h3 : (24 ≤ i ∧ i < 24 + 8) := by omega
    simp only [e, decide_eq_false h0, decide_eq_false h1, decide_eq_false h2, decide_eq_true h3,
      Bool.and_true, Bool.and_false, Bool.or_false, Bool.false_or]

theorem alu_un (op : UnOp) (imm a b st : Word)
    (himm : imm &&& 0x1F#32 = BitVec.ofNat 32 op.funct.2.1.toNat) :
    ∃ v, aluAdd op.funct.2.2 op.funct.1 true imm a b st = some v ∧ UnSem op a v := by
  cases op <;> simp only [UnOp.funct] at himm <;>
    simp only [aluAdd, UnOp.funct, UnSem, zbbUnary, himm]
  case clz =>
    by_cases h : a = 0#32
    · refine ⟨32#32, by simp [h], 32, ⟨by omega, ?_, by omega⟩, rfl⟩
      subst h; intro i _ _; simp
    · exact ⟨_, by simp [h, builtinClz], _, isClz_log2 a h, rfl⟩
  case ctz =>
    by_cases h : a = 0#32
    · refine ⟨32#32, by simp [h], 32, ⟨by omega, ?_, by omega⟩, rfl⟩
      subst h; intro i _; simp
    · exact ⟨_, by simp [h, builtinCtz], _, ctzFrom_spec a 32 0 rfl (by omega), rfl⟩
  case cpop => exact ⟨BitVec.ofNat 32 (builtinPopcount a), by simp, by rw [popcount_eq]⟩
  case sextb => exact ⟨sext8 (a &&& 0xFF#32), by simp, sext8_eq a⟩
  case sexth => exact ⟨sext16 (a &&& 0xFFFF#32), by simp, sext16_eq a⟩
  case rev8 => exact ⟨rev8Expr a, by simp, rev8_eq a⟩
  case orcb => exact ⟨orcbExpr a, by simp, orcb_eq a⟩

end Verif.Alu

import Verif.Spec.FpSpec
namespace Verif.Fp.Proofs
open Verif.CInt
open Verif.Fp.Spec

theorem mask_bits : ∀ i < 32, (0xFF#32).getLsbD i = decide (i < 8) := by decide
theorem mask_frac : ∀ i < 32, (0x7FFFFF#32).getLsbD i = decide (i < 23) := by decide
theorem mask_expo : ∀ i < 32, (0x7F800000#32).getLsbD i = decide (23 ≤ i ∧ i < 31) := by decide
theorem mask_sign : ∀ i < 32, (0x80000000#32).getLsbD i = decide (i = 31) := by decide

theorem expo_eq (v : W32) : (v >>> 23) &&& 0xFF#32 = (expo v).setWidth 32 := by
  apply BitVec.eq_of_getLsbD_eq
  intro i hi
  rw [BitVec.getLsbD_and, BitVec.getLsbD_ushiftRight, mask_bits i hi, BitVec.getLsbD_setWidth, expo, BitVec.getLsbD_extractLsb']
  by_cases h : i < 8 <;> simp [h, hi]

theorem frac_eq (v : W32) : v &&& 0x7FFFFF#32 = (frac v).setWidth 32 := by
  apply BitVec.eq_of_getLsbD_eq
  intro i hi
  rw [BitVec.getLsbD_and, mask_frac i hi, BitVec.getLsbD_setWidth, frac, BitVec.getLsbD_extractLsb']
  by_cases h : i < 23 <;> simp [h, hi]

theorem expo_shift (v : W32) : v &&& 0x7F800000#32 = (expo v).setWidth 32 <<< 23 := by
  apply BitVec.eq_of_getLsbD_eq
  intro i hi
  rw [BitVec.getLsbD_and, mask_expo i hi, BitVec.getLsbD_shiftLeft, BitVec.getLsbD_setWidth, expo, BitVec.getLsbD_extractLsb']
  by_cases h : i < 23
  · simp [h, show ¬ 23 ≤ i by omega]
  · by_cases h2 : i < 31
    · simp [h, h2, hi, show 23 ≤ i by omega, show i - 23 < 32 by omega, show i - 23 < 8 by omega,
        show 23 + (i - 23) = i by omega]
    · simp [h, h2, show ¬ i - 23 < 8 by omega]

theorem sign_eq (v : W32) : decide ((v >>> 31) &&& 1#32 ≠ 0#32) = sign v := by
  unfold sign
  have h : (v >>> 31) &&& 1#32 = (BitVec.ofBool (v.getLsbD 31)).setWidth 32 := by
    apply BitVec.eq_of_getLsbD_eq
    intro i hi
    rw [BitVec.getLsbD_and, BitVec.getLsbD_ushiftRight, BitVec.getLsbD_setWidth]
    by_cases h : i = 0
    · subst h; simp
    · have : (1#32).getLsbD i = false := by
        revert i; decide
      rw [this]
      simp [BitVec.getLsbD_ofBool, h]
  rw [h]
  cases v.getLsbD 31 <;> decide

theorem wide8 (e : BitVec 8) : (e.setWidth 32 = 0#32 ↔ e = 0#8) ∧ (e.setWidth 32 = 0xFF#32 ↔ e = 255#8) ∧
    (e.setWidth 32 <<< 23 = 0x7F800000#32 ↔ e = 255#8) := by
  revert e; decide +kernel

theorem wide23 (f : BitVec 23) : f.setWidth 32 = 0#32 ↔ f = 0#23 := by
  constructor
  · intro h
    apply BitVec.eq_of_toNat_eq
    have := congrArg BitVec.toNat h
    rw [BitVec.toNat_setWidth, Nat.mod_eq_of_lt (by have := f.isLt; omega)] at this
    exact this
  · rintro rfl; rfl

theorem quiet_eq (f : BitVec 23) : decide ((f.setWidth 32 >>> 22) &&& 1#32 ≠ 0#32) = f.getLsbD 22 := by
  have h : (f.setWidth 32 >>> 22) &&& 1#32 = (BitVec.ofBool (f.getLsbD 22)).setWidth 32 := by
    apply BitVec.eq_of_getLsbD_eq
    intro i hi
    rw [BitVec.getLsbD_and, BitVec.getLsbD_ushiftRight, BitVec.getLsbD_setWidth, BitVec.getLsbD_setWidth]
    by_cases h : i = 0
    · subst h; simp
    · have : (1#32).getLsbD i = false := by
        revert i; decide
      rw [this]
      simp [BitVec.getLsbD_ofBool, h]
  rw [h]
  cases f.getLsbD 22 <;> decide

theorem isNan_iff (v : W32) : isNan v = true ↔ NaN v := by
  unfold isNan NaN
  rw [expo_shift, show v &&& 0x007FFFFF#32 = _ from frac_eq v]
  simp only [Bool.and_eq_true, decide_eq_true_iff, (wide8 _).2.2, Ne, wide23]

/-- `classify` on the tests it makes: sign, exponent 0, exponent 255, fraction 0, top bit of the fraction. -/
def cls (sign z f m q : Bool) : W32 :=
  let isSub := z && !m
  let isZero := z && m
  let isInf := f && m
  let nan := f && !m
  let res := if isInf && sign then 1#32
    else if !isInf && !isZero && !nan && !isSub && sign then 2#32
    else if isSub && sign then 4#32
    else if isZero && sign then 8#32
    else if isZero && !sign then 16#32
    else if isSub && !sign then 32#32
    else if !isInf && !isZero && !nan && !isSub && !sign then 64#32
    else if isInf && !sign then 128#32
    else 0#32
  let res := if nan && !q then res ||| 256#32 else res
  if nan && q then res ||| 512#32 else res

/-- The table on the same tests. -/
def table (i : Nat) (sign z f m q : Bool) : Bool :=
  match i with
  | 0 => sign && (f && m)
  | 1 => sign && (!z && !f)
  | 2 => sign && (z && !m)
  | 3 => sign && (z && m)
  | 4 => !sign && (z && m)
  | 5 => !sign && (z && !m)
  | 6 => !sign && (!z && !f)
  | 7 => !sign && (f && m)
  | 8 => (f && !m) && !q
  | 9 => (f && !m) && q
  | _ => false

theorem cls_table : ∀ s z f m q : Bool, (z && f) = false → ∀ i < 32, (cls s z f m q).getLsbD i = table i s z f m q := by
  decide +kernel

theorem classify_cls (v : W32) :
    classify v = cls (sign v) (decide (expo v = 0#8)) (decide (expo v = 255#8)) (decide (frac v = 0#23)) ((frac v).getLsbD 22) := by
  have hq : decide (((frac v).setWidth 32 >>> 22) &&& 1#32 = 0#32) = !(frac v).getLsbD 22 := by
    rw [← quiet_eq]; simp
  have hs : decide ((v >>> 31) &&& 1#32 = 0#32) = !sign v := by
    rw [← sign_eq]; simp
  unfold classify cls
  simp only [expo_eq, frac_eq, hs, Bool.not_not, quiet_eq, hq, (wide8 _).1, (wide8 _).2.1, wide23, Ne, decide_not]

theorem class_table (v : W32) (i : Nat) : Class i v ↔
    table i (sign v) (decide (expo v = 0#8)) (decide (expo v = 255#8)) (decide (frac v = 0#23)) ((frac v).getLsbD 22) = true := by
  unfold Class table NaN Inf Spec.Zero Subnormal Normal
  split <;> simp only [Bool.and_eq_true, Bool.not_eq_true', decide_eq_true_iff, decide_eq_false_iff_not, Ne, Bool.false_eq_true]

theorem classify_bit (v : W32) (i : Nat) (hi : i < 32) : (classify v).getLsbD i = true ↔ Class i v := by
  rw [class_table, classify_cls, cls_table _ _ _ _ _ ?_ i hi]
  by_cases h : expo v = 0#8
  · rw [h]; rfl
  · simp [h]

/-! ### Order -/

def low (v : W32) : BitVec 31 := v.extractLsb' 0 31

theorem key_def (v : W32) : key v = if sign v then -((low v).toNat : Int) else ((low v).toNat : Int) := rfl

theorem low_bit (v : W32) {i : Nat} (h : i < 31) : (low v).getLsbD i = v.getLsbD i := by
  unfold low; rw [BitVec.getLsbD_extractLsb']; simp [h]

theorem ext_sl {a b : W32} (h1 : sign a = sign b) (h2 : low a = low b) : a = b := by
  apply BitVec.eq_of_getLsbD_eq
  intro i hi
  by_cases h : i < 31
  · rw [← low_bit a h, ← low_bit b h, h2]
  · have : i = 31 := by omega
    subst this; exact h1

theorem low_zero {v : W32} (h : (low v).toNat = 0) {i : Nat} (hi : i < 31) : v.getLsbD i = false := by
  have : low v = 0#31 := BitVec.eq_of_toNat_eq h
  rw [← low_bit v hi, this]; simp

/-- Numbers of the same key are the same number, or the two zeros. -/
theorem key_eq {a b : W32} (h : key a = key b) : a = b ∨ (sign a ≠ sign b ∧ (low a).toNat = 0 ∧ (low b).toNat = 0) := by
  rw [key_def, key_def] at h
  cases ha : sign a <;> cases hb : sign b <;> simp only [ha, hb, if_true, if_false, Bool.false_eq_true] at h
  · exact Or.inl (ext_sl (ha.trans hb.symm) (BitVec.eq_of_toNat_eq (by omega)))
  · exact Or.inr ⟨by decide, by omega, by omega⟩
  · exact Or.inr ⟨by decide, by omega, by omega⟩
  · exact Or.inl (ext_sl (ha.trans hb.symm) (BitVec.eq_of_toNat_eq (by omega)))

theorem key_sign {a b : W32} (h : key a = key b) (hs : sign a = sign b) : a = b :=
  (key_eq h).resolve_right fun h => h.1 hs

theorem or_zero {a b : W32} (h : key a = key b) : (a ||| b = a ∨ a ||| b = b) ∧
    (sign (a ||| b) = true ↔ sign a = true ∨ sign b = true) := by
  have hs : sign (a ||| b) = (sign a || sign b) := by unfold sign; rw [BitVec.getLsbD_or]
  refine ⟨?_, by rw [hs]; simp⟩
  rcases key_eq h with rfl | ⟨h1, h2, h3⟩
  · exact Or.inl (BitVec.or_self)
  · have hl : ∀ i < 31, (a ||| b).getLsbD i = false := by
      intro i hi
      rw [BitVec.getLsbD_or, low_zero h2 hi, low_zero h3 hi]; rfl
    have key : ∀ v : W32, (low v).toNat = 0 → sign v = true → a ||| b = v := by
      intro v hv hsv
      apply ext_sl
      · rw [hs, hsv]
        revert h1; cases sign a <;> cases sign b <;> simp
      · apply BitVec.eq_of_getLsbD_eq
        intro i hi
        rw [low_bit _ hi, low_bit _ hi, hl i hi, low_zero hv hi]
    cases ha : sign a
    · cases hb : sign b
      · exact absurd (ha.trans hb.symm) h1
      · exact Or.inr (key b h3 hb)
    · exact Or.inl (key a h2 ha)

theorem and_zero {a b : W32} (h : key a = key b) : (a &&& b = a ∨ a &&& b = b) ∧
    (sign (a &&& b) = true ↔ sign a = true ∧ sign b = true) := by
  have hs : sign (a &&& b) = (sign a && sign b) := by unfold sign; rw [BitVec.getLsbD_and]
  refine ⟨?_, by rw [hs]; simp⟩
  rcases key_eq h with rfl | ⟨h1, h2, h3⟩
  · exact Or.inl (BitVec.and_self)
  · have hl : ∀ i < 31, (a &&& b).getLsbD i = false := by
      intro i hi
      rw [BitVec.getLsbD_and, low_zero h2 hi, low_zero h3 hi]; rfl
    have key : ∀ v : W32, (low v).toNat = 0 → sign v = false → a &&& b = v := by
      intro v hv hsv
      apply ext_sl
      · rw [hs, hsv]
        revert h1; cases sign a <;> cases sign b <;> simp
      · apply BitVec.eq_of_getLsbD_eq
        intro i hi
        rw [low_bit _ hi, low_bit _ hi, hl i hi, low_zero hv hi]
    cases ha : sign a
    · exact Or.inl (key a h2 ha)
    · cases hb : sign b
      · exact Or.inr (key b h3 hb)
      · exact absurd (ha.trans hb.symm) h1

theorem nan_false {v : W32} (h : ¬ NaN v) : isNan v = false := by
  cases hv : isNan v
  · rfl
  · exact absurd ((isNan_iff v).1 hv) h

theorem fmin_smaller {F : SoftFloat} (hF : Compares F) (a b : W32) : Smaller a b (fmin F a b) := by
  unfold Smaller
  by_cases ha : NaN a <;> by_cases hb : NaN b
  · have h : fmin F a b = 0x7fc00000#32 := by simp [fmin, (isNan_iff a).2 ha, (isNan_iff b).2 hb]
    simp [ha, hb, h]
  · have h : fmin F a b = b := by simp [fmin, (isNan_iff a).2 ha, nan_false hb]
    simp [ha, hb, h]
  · have h : fmin F a b = a := by simp [fmin, (isNan_iff b).2 hb, nan_false ha]
    simp [ha, hb, h]
  · refine ⟨fun h => absurd h.1 ha, fun h => absurd h.1 ha, fun h => absurd h.2 hb, fun _ => ?_⟩
    have h : fmin F a b = if F.lt a b then a else if F.lt b a then b else a ||| b := by
      simp [fmin, nan_false ha, nan_false hb]
    rw [h]
    by_cases h1 : key a < key b
    · rw [if_pos ((hF.lt a b).2 ⟨ha, hb, h1⟩)]
      exact ⟨Or.inl rfl, by omega, by omega, fun h => by omega⟩
    · rw [if_neg (fun h => h1 ((hF.lt a b).1 h).2.2)]
      by_cases h2 : key b < key a
      · rw [if_pos ((hF.lt b a).2 ⟨hb, ha, h2⟩)]
        exact ⟨Or.inr rfl, by omega, by omega, fun h => by omega⟩
      · rw [if_neg (fun h => h2 ((hF.lt b a).1 h).2.2)]
        have h3 : key a = key b := by omega
        obtain ⟨h4, h5⟩ := or_zero h3
        refine ⟨h4, ?_, ?_, fun _ => h5⟩ <;> rcases h4 with h4 | h4 <;> rw [h4] <;> omega

theorem fmax_larger {F : SoftFloat} (hF : Compares F) (a b : W32) : Larger a b (fmax F a b) := by
  unfold Larger
  by_cases ha : NaN a <;> by_cases hb : NaN b
  · have h : fmax F a b = 0x7fc00000#32 := by simp [fmax, (isNan_iff a).2 ha, (isNan_iff b).2 hb]
    simp [ha, hb, h]
  · have h : fmax F a b = b := by simp [fmax, (isNan_iff a).2 ha, nan_false hb]
    simp [ha, hb, h]
  · have h : fmax F a b = a := by simp [fmax, (isNan_iff b).2 hb, nan_false ha]
    simp [ha, hb, h]
  · refine ⟨fun h => absurd h.1 ha, fun h => absurd h.1 ha, fun h => absurd h.2 hb, fun _ => ?_⟩
    have h : fmax F a b = if F.lt a b then b else if F.lt b a then a else a &&& b := by
      simp [fmax, nan_false ha, nan_false hb]
    rw [h]
    by_cases h1 : key a < key b
    · rw [if_pos ((hF.lt a b).2 ⟨ha, hb, h1⟩)]
      exact ⟨Or.inr rfl, by omega, by omega, fun h => by omega⟩
    · rw [if_neg (fun h => h1 ((hF.lt a b).1 h).2.2)]
      by_cases h2 : key b < key a
      · rw [if_pos ((hF.lt b a).2 ⟨hb, ha, h2⟩)]
        exact ⟨Or.inl rfl, by omega, by omega, fun h => by omega⟩
      · rw [if_neg (fun h => h2 ((hF.lt b a).1 h).2.2)]
        have h3 : key a = key b := by omega
        obtain ⟨h4, h5⟩ := and_zero h3
        refine ⟨h4, ?_, ?_, fun _ => h5⟩ <;> rcases h4 with h4 | h4 <;> rw [h4] <;> omega

theorem smaller_unique {a b v w : W32} (h1 : Smaller a b v) (h2 : Smaller a b w) : v = w := by
  obtain ⟨p1, p2, p3, p4⟩ := h1
  obtain ⟨q1, q2, q3, q4⟩ := h2
  by_cases ha : NaN a <;> by_cases hb : NaN b
  · rw [p1 ⟨ha, hb⟩, q1 ⟨ha, hb⟩]
  · rw [p2 ⟨ha, hb⟩, q2 ⟨ha, hb⟩]
  · rw [p3 ⟨ha, hb⟩, q3 ⟨ha, hb⟩]
  · obtain ⟨x1, x2, x3, x4⟩ := p4 ⟨ha, hb⟩
    obtain ⟨y1, y2, y3, y4⟩ := q4 ⟨ha, hb⟩
    have hk : key v = key w := by
      rcases x1 with rfl | rfl <;> rcases y1 with rfl | rfl <;> omega
    by_cases he : key a = key b
    · apply key_sign hk
      rw [Bool.eq_iff_iff, x4 he, y4 he]
    · rcases x1 with rfl | rfl <;> rcases y1 with rfl | rfl
      · rfl
      · exact absurd hk he
      · exact absurd hk.symm he
      · rfl

theorem larger_unique {a b v w : W32} (h1 : Larger a b v) (h2 : Larger a b w) : v = w := by
  obtain ⟨p1, p2, p3, p4⟩ := h1
  obtain ⟨q1, q2, q3, q4⟩ := h2
  by_cases ha : NaN a <;> by_cases hb : NaN b
  · rw [p1 ⟨ha, hb⟩, q1 ⟨ha, hb⟩]
  · rw [p2 ⟨ha, hb⟩, q2 ⟨ha, hb⟩]
  · rw [p3 ⟨ha, hb⟩, q3 ⟨ha, hb⟩]
  · obtain ⟨x1, x2, x3, x4⟩ := p4 ⟨ha, hb⟩
    obtain ⟨y1, y2, y3, y4⟩ := q4 ⟨ha, hb⟩
    have hk : key v = key w := by
      rcases x1 with rfl | rfl <;> rcases y1 with rfl | rfl <;> omega
    by_cases he : key a = key b
    · apply key_sign hk
      rw [Bool.eq_iff_iff, x4 he, y4 he]
    · rcases x1 with rfl | rfl <;> rcases y1 with rfl | rfl
      · rfl
      · exact absurd hk he
      · exact absurd hk.symm he
      · rfl

/-! ### Sign injection -/

theorem sgn_bit (f3 : BitVec 3) (a b v : W32) (h : fsgnj f3 a b = some v) :
    (∀ i < 31, v.getLsbD i = a.getLsbD i) ∧
    sign v = if f3 = 0#3 then sign b else if f3 = 1#3 then !sign b else (sign a ^^ sign b) := by
  have hm : ∀ i < 31, (0x80000000#32).getLsbD i = false := by decide
  unfold fsgnj at h
  unfold sign
  split at h
  · rename_i h3
    injection h with h; subst h
    refine ⟨fun i hi => ?_, ?_⟩
    · simp only [signBit, BitVec.getLsbD_or, BitVec.getLsbD_and, BitVec.getLsbD_not, hm i hi]
      simp [show i < 32 by omega]
    · rw [if_pos h3]; simp [signBit, BitVec.getLsbD_or, BitVec.getLsbD_and, BitVec.getLsbD_not]
  · rename_i h0
    split at h
    · rename_i h3
      injection h with h; subst h
      refine ⟨fun i hi => ?_, ?_⟩
      · simp only [signBit, BitVec.getLsbD_or, BitVec.getLsbD_and, BitVec.getLsbD_not, hm i hi]
        simp [show i < 32 by omega]
      · rw [if_neg h0, if_pos h3]; simp [signBit, BitVec.getLsbD_or, BitVec.getLsbD_and, BitVec.getLsbD_not]
    · rename_i h1
      split at h
      · injection h with h; subst h
        refine ⟨fun i hi => ?_, ?_⟩
        · simp only [signBit, BitVec.getLsbD_xor, BitVec.getLsbD_and, hm i hi]
          simp
        · rw [if_neg h0, if_neg h1]; simp [signBit, BitVec.getLsbD_xor, BitVec.getLsbD_and]
      · cases h

theorem bits_unique {a v w : W32} (h1 : ∀ i < 31, v.getLsbD i = a.getLsbD i) (h2 : ∀ i < 31, w.getLsbD i = a.getLsbD i)
    (h : sign v = sign w) : v = w := by
  apply BitVec.eq_of_getLsbD_eq
  intro i hi
  by_cases h3 : i < 31
  · rw [h1 i h3, h2 i h3]
  · have : i = 31 := by omega
    subst this; exact h

theorem rounding_eq {f3 : BitVec 3} {rm : Nat} (h : Rounding f3 rm) : (if f3 = 7#3 then 0 else f3.toNat) = rm ∧ ¬ 4 < rm := by
  rcases h with ⟨h1, h2⟩ | ⟨h1, h2⟩
  · subst h1; subst h2; exact ⟨rfl, by decide⟩
  · have : f3 ≠ 7#3 := by rintro rfl; exact absurd h1 (by decide)
    rw [if_neg this, h2]
    exact ⟨rfl, by omega⟩

theorem cmp_bool {P : Prop} {v : W32} {b : Bool} (hb : b = true ↔ P) (h : (v = 1#32 ∧ P) ∨ (v = 0#32 ∧ ¬ P)) : ofBool b = v := by
  rcases h with ⟨rfl, h⟩ | ⟨rfl, h⟩
  · rw [hb.2 h]; rfl
  · cases b
    · rfl
    · exact absurd (hb.1 rfl) h

end Verif.Fp.Proofs

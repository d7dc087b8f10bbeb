import Verif.Model.Base
import Mathlib.Data.Nat.Log
/-
C35, C36: wide bit vectors and derived widths.
-/
namespace Verif.Props
open Verif.Base

/-- `omega` after unfolding the number of bytes. -/
local macro "bomega" : tactic => `(tactic| ((try simp only [byteCount] at *); omega))

/-! ### C35 -/

/-- Bit `i` of the object's storage. -/
def storageBit {n : Nat} (a : WideBits n) (i : Nat) : Bool := (a.bytes[i / 8]?.getD 0#8).getLsbD (i % 8)

/-- The object holds the `n`-bit vector `x`: each storage bit below `n` is the bit of `x`, each one above is zero. -/
def Holds {n : Nat} (a : WideBits n) (x : BitVec n) : Prop := ∀ i, storageBit a i = x.getLsbD i

theorem sb_ofFn {n : Nat} (f : Fin (byteCount n) → BitVec 8) (i : Nat) :
    storageBit (⟨Vector.ofFn f⟩ : WideBits n) i =
      if h : i / 8 < byteCount n then (f ⟨i / 8, h⟩).getLsbD (i % 8) else false := by
  unfold storageBit
  by_cases h : i / 8 < byteCount n
  · rw [Vector.getElem?_eq_getElem h]; simp [h]
  · rw [Vector.getElem?_eq_none (by bomega)]; simp [h]

theorem sb_in {n : Nat} (a : WideBits n) (i : Nat) (h : i / 8 < byteCount n) :
    storageBit a i = (a.bytes[i / 8]).getLsbD (i % 8) := by
  unfold storageBit; rw [Vector.getElem?_eq_getElem h]; rfl

theorem sb_out {n : Nat} (a : WideBits n) (i : Nat) (h : ¬ i / 8 < byteCount n) : storageBit a i = false := by
  unfold storageBit; rw [Vector.getElem?_eq_none (by bomega)]; simp

theorem sb_byte {n : Nat} (a : WideBits n) (j k : Nat) (hj : j < byteCount n) (hk : k < 8) :
    (a.bytes[j]).getLsbD k = storageBit a (8 * j + k) := by
  have e1 : (8 * j + k) / 8 = j := by bomega
  have e2 : (8 * j + k) % 8 = k := by bomega
  unfold storageBit
  rw [e1, e2, Vector.getElem?_eq_getElem hj]; rfl

theorem mask_bit (m k : Nat) : (BitVec.ofNat 8 (2 ^ m - 1)).getLsbD k = (decide (k < 8) && decide (k < m)) := by
  rw [BitVec.getLsbD_ofNat, Nat.testBit_two_pow_sub_one]

theorem sb_trim {n : Nat} (a : WideBits n) (i : Nat) : storageBit a.trim i = (storageBit a i && decide (i < n)) := by
  unfold WideBits.trim
  by_cases hz : n % 8 ≠ 0
  · rw [if_pos hz, sb_ofFn]
    by_cases h : i / 8 < byteCount n
    · rw [dif_pos h, sb_in a i h]
      simp only
      by_cases hl : i / 8 = byteCount n - 1
      · rw [if_pos hl]
        show (a.bytes[i / 8] &&& _).getLsbD _ = _
        rw [BitVec.getLsbD_and, mask_bit]
        have : (decide (i % 8 < 8) && decide (i % 8 < n % 8)) = decide (i < n) := by
          rw [Bool.eq_iff_iff]; simp only [Bool.and_eq_true, decide_eq_true_eq]; bomega
        rw [this]
      · rw [if_neg hl]
        have : decide (i < n) = true := by rw [decide_eq_true_eq]; bomega
        rw [this, Bool.and_true]; rfl
    · rw [dif_neg h, sb_out a i h, Bool.false_and]
  · rw [if_neg hz]
    by_cases h : i / 8 < byteCount n
    · have : decide (i < n) = true := by rw [decide_eq_true_eq]; bomega
      rw [this, Bool.and_true]
    · rw [sb_out a i h, Bool.false_and]

theorem holds_out {n : Nat} {a : WideBits n} {x : BitVec n} (h : Holds a x) (i : Nat) (hi : n ≤ i) :
    storageBit a i = false := by
  rw [h i]; exact BitVec.getLsbD_of_ge _ _ hi

theorem getLsbD_and_lt {n : Nat} (x : BitVec n) (i : Nat) : (x.getLsbD i && decide (i < n)) = x.getLsbD i := by
  by_cases h : i < n
  · simp [h]
  · rw [BitVec.getLsbD_of_ge _ _ (by bomega)]; rfl

/-- C35: a new object holds zero. -/
theorem C35_zero (n : Nat) : Holds (WideBits.zero n) 0#n := by
  intro i
  unfold storageBit WideBits.zero
  by_cases h : i / 8 < byteCount n
  · rw [Vector.getElem?_eq_getElem h]; simp
  · rw [Vector.getElem?_eq_none (by bomega)]; simp

/-- C35: or. -/
theorem C35_or {n : Nat} {a b : WideBits n} {x y : BitVec n} (ha : Holds a x) (hb : Holds b y) :
    Holds (a.or b) (x ||| y) := by
  intro i
  unfold WideBits.or
  rw [sb_trim, sb_ofFn, BitVec.getLsbD_or, ← ha i, ← hb i]
  by_cases h : i / 8 < byteCount n
  · rw [dif_pos h, sb_in a i h, sb_in b i h, ← BitVec.getLsbD_or]
    by_cases hn : i < n
    · simp [hn]
    · have h1 := holds_out ha i (by bomega)
      have h2 := holds_out hb i (by bomega)
      rw [sb_in _ i h] at h1 h2
      have e : (a.bytes[i / 8] ||| b.bytes[i / 8]).getLsbD (i % 8) = false := by rw [BitVec.getLsbD_or, h1, h2]; rfl
      rw [e]; simp [hn]
  · rw [dif_neg h, sb_out a i h, sb_out b i h]; rfl

/-- C35: and. -/
theorem C35_and {n : Nat} {a b : WideBits n} {x y : BitVec n} (ha : Holds a x) (hb : Holds b y) :
    Holds (a.and b) (x &&& y) := by
  intro i
  unfold WideBits.and
  rw [sb_ofFn, BitVec.getLsbD_and, ← ha i, ← hb i]
  by_cases h : i / 8 < byteCount n
  · rw [dif_pos h, sb_in a i h, sb_in b i h, ← BitVec.getLsbD_and]; rfl
  · rw [dif_neg h, sb_out a i h, sb_out b i h]; rfl

/-- C35: exclusive or. -/
theorem C35_xor {n : Nat} {a b : WideBits n} {x y : BitVec n} (ha : Holds a x) (hb : Holds b y) :
    Holds (a.xor b) (x ^^^ y) := by
  intro i
  unfold WideBits.xor
  rw [sb_trim, sb_ofFn, BitVec.getLsbD_xor, ← ha i, ← hb i]
  by_cases h : i / 8 < byteCount n
  · rw [dif_pos h, sb_in a i h, sb_in b i h, ← BitVec.getLsbD_xor]
    by_cases hn : i < n
    · simp [hn]
    · have h1 := holds_out ha i (by bomega)
      have h2 := holds_out hb i (by bomega)
      rw [sb_in _ i h] at h1 h2
      have e : (a.bytes[i / 8] ^^^ b.bytes[i / 8]).getLsbD (i % 8) = false := by rw [BitVec.getLsbD_xor, h1, h2]; rfl
      rw [e]; simp [hn]
  · rw [dif_neg h, sb_out a i h, sb_out b i h]; rfl

/-- C35: complement, within the width. -/
theorem C35_not {n : Nat} {a : WideBits n} {x : BitVec n} (ha : Holds a x) : Holds a.not (~~~x) := by
  intro i
  unfold WideBits.not
  rw [sb_trim, sb_ofFn, BitVec.getLsbD_not, ← ha i]
  by_cases h : i / 8 < byteCount n
  · rw [dif_pos h, sb_in a i h]
    show ((~~~(a.bytes[i / 8])).getLsbD (i % 8) && decide (i < n)) = _
    rw [BitVec.getLsbD_not, Bool.and_comm]
    have : decide (i % 8 < 8) = true := by rw [decide_eq_true_eq]; bomega
    rw [this, Bool.true_and]
  · rw [dif_neg h]
    have : decide (i < n) = false := by rw [decide_eq_false_iff_not]; bomega
    rw [this]; rfl

/-- C35: left shift by any non-negative amount, also beyond the width. -/
theorem C35_shl {n : Nat} {a : WideBits n} {x : BitVec n} (ha : Holds a x) (s : Nat) :
    Holds (a.shl s) (x <<< s) := by
  unfold WideBits.shl
  by_cases hs : (s : Int) < 0 ∨ (s : Int) ≥ n
  · rw [if_pos hs]
    have : x <<< s = 0#n := by
      apply BitVec.eq_of_getLsbD_eq
      intro i hi
      rw [BitVec.getLsbD_shiftLeft]
      have : i < s := by bomega
      simp [this]
    rw [this]; exact C35_zero n
  · rw [if_neg hs]
    intro i
    simp only [Int.toNat_natCast]
    rw [sb_trim, sb_ofFn, BitVec.getLsbD_shiftLeft]
    by_cases h : i / 8 < byteCount n
    · rw [dif_pos h, Bool.and_comm]
      by_cases hn : i < n
      swap
      · simp [hn]
      simp only [hn, decide_true, Bool.true_and]
      by_cases hb : i / 8 ≥ s / 8
      · rw [if_pos hb]
        by_cases hk : s % 8 > 0 ∧ i / 8 - s / 8 ≥ 1
        · rw [if_pos hk, BitVec.getLsbD_or, BitVec.getLsbD_shiftLeft, BitVec.getLsbD_ushiftRight]
          have hlt : ¬ i < s := by bomega
          by_cases hm : i % 8 < s % 8
          · have e : 8 * (i / 8 - s / 8 - 1) + (8 - s % 8 + i % 8) = i - s := by bomega
            rw [sb_byte a (i / 8 - s / 8 - 1) (8 - s % 8 + i % 8) (by bomega) (by bomega), e, ha (i - s)]
            simp [hm, hlt]
          · have e : 8 * (i / 8 - s / 8) + (i % 8 - s % 8) = i - s := by bomega
            rw [sb_byte a _ (i % 8 - s % 8) _ (by bomega), e, ha (i - s)]
            rw [BitVec.getLsbD_of_ge _ (8 - s % 8 + i % 8) (by bomega)]
            have : decide (i % 8 < 8) = true := by rw [decide_eq_true_eq]; bomega
            simp [hm, hlt, this]
        · rw [if_neg hk, BitVec.getLsbD_shiftLeft]
          by_cases hm : i % 8 < s % 8
          · have : i < s := by bomega
            simp [hm, this]
          · have hlt : ¬ i < s := by bomega
            have e : 8 * (i / 8 - s / 8) + (i % 8 - s % 8) = i - s := by bomega
            rw [sb_byte a _ (i % 8 - s % 8) _ (by bomega), e, ha (i - s)]
            have : decide (i % 8 < 8) = true := by rw [decide_eq_true_eq]; bomega
            simp [hm, hlt, this]
      · rw [if_neg hb]
        have : i < s := by bomega
        simp [this]
    · rw [dif_neg h]
      have : ¬ i < n := by bomega
      simp [this]

/-- C35: right shift by any non-negative amount, also beyond the width. -/
theorem C35_shr {n : Nat} {a : WideBits n} {x : BitVec n} (ha : Holds a x) (s : Nat) :
    Holds (a.shr s) (x >>> s) := by
  unfold WideBits.shr
  by_cases hs : (s : Int) < 0 ∨ (s : Int) ≥ n
  · rw [if_pos hs]
    have : x >>> s = 0#n := by
      apply BitVec.eq_of_getLsbD_eq
      intro i hi
      rw [BitVec.getLsbD_ushiftRight, BitVec.getLsbD_of_ge _ _ (by bomega)]; simp
    rw [this]; exact C35_zero n
  · rw [if_neg hs]
    intro i
    simp only [Int.toNat_natCast]
    rw [sb_ofFn, BitVec.getLsbD_ushiftRight, ← ha (s + i)]
    by_cases h : i / 8 < byteCount n
    · rw [dif_pos h]
      by_cases hb : i / 8 < byteCount n - s / 8
      · rw [dif_pos hb]
        by_cases hk : s % 8 > 0 ∧ i / 8 + s / 8 + 1 < byteCount n
        · rw [dif_pos hk, BitVec.getLsbD_or, BitVec.getLsbD_shiftLeft, BitVec.getLsbD_ushiftRight]
          by_cases hm : s % 8 + i % 8 < 8
          · have e : 8 * (i / 8 + s / 8) + (s % 8 + i % 8) = s + i := by bomega
            rw [sb_byte a _ _ _ hm, e]
            have : i % 8 < 8 - s % 8 := by bomega
            simp [this]
          · have e : 8 * (i / 8 + s / 8 + 1) + (i % 8 - (8 - s % 8)) = s + i := by bomega
            rw [BitVec.getLsbD_of_ge _ (s % 8 + i % 8) (by bomega), sb_byte a _ (i % 8 - (8 - s % 8)) _ (by bomega), e]
            have h1 : decide (i % 8 < 8) = true := by rw [decide_eq_true_eq]; bomega
            have h2 : decide (i % 8 < 8 - s % 8) = false := by rw [decide_eq_false_iff_not]; bomega
            simp [h1, h2]
        · rw [dif_neg hk, BitVec.getLsbD_ushiftRight]
          by_cases hm : s % 8 + i % 8 < 8
          · have e : 8 * (i / 8 + s / 8) + (s % 8 + i % 8) = s + i := by bomega
            rw [sb_byte a _ _ _ hm, e]
          · rw [BitVec.getLsbD_of_ge _ (s % 8 + i % 8) (by bomega), sb_out a (s + i) (by bomega)]
      · rw [dif_neg hb, sb_out a (s + i) (by bomega)]; simp
    · rw [dif_neg h, sb_out a (s + i) (by bomega)]

/-- C35: shifts by a negative amount give zero. -/
theorem C35_shift_negative {n : Nat} (a : WideBits n) (s : Int) (h : s < 0) :
    Holds (a.shl s) 0#n ∧ Holds (a.shr s) 0#n := by
  unfold WideBits.shl WideBits.shr
  rw [if_pos (Or.inl h), if_pos (Or.inl h)]
  exact ⟨C35_zero n, C35_zero n⟩

/-- C35: an object holds exactly one value. -/
theorem C35_unique {n : Nat} {a : WideBits n} {x y : BitVec n} (hx : Holds a x) (hy : Holds a y) : x = y := by
  apply BitVec.eq_of_getLsbD_eq
  intro i _
  rw [← hx i, ← hy i]

/-- C35: equality of objects is equality of the values held. -/
theorem C35_eq {n : Nat} {a b : WideBits n} {x y : BitVec n} (ha : Holds a x) (hb : Holds b y) :
    a.eq b = true ↔ x = y := by
  unfold WideBits.eq
  rw [beq_iff_eq]
  constructor
  · intro h
    have : a = b := by
      cases a; cases b
      congr 1
      exact Vector.toList_inj.1 h
    subst this
    exact C35_unique ha hb
  · rintro rfl
    congr 1
    apply Vector.ext
    intro j hj
    apply BitVec.eq_of_getLsbD_eq
    intro k hk
    rw [sb_byte a j k hj hk, sb_byte b j k hj hk, ha, hb]

/-- C35: conversion to `bool` is "not zero". -/
theorem C35_bool {n : Nat} {a : WideBits n} {x : BitVec n} (ha : Holds a x) : a.toBool = true ↔ x ≠ 0#n := by
  unfold WideBits.toBool
  rw [List.any_eq_true]
  constructor
  · rintro ⟨v, hv, h0⟩ rfl
    obtain ⟨j, hj, rfl⟩ := Vector.mem_iff_getElem.1 (Vector.mem_toList_iff.1 hv)
    apply (bne_iff_ne.1 h0)
    apply BitVec.eq_of_getLsbD_eq
    intro k hk
    rw [sb_byte a j k hj hk, ha]; simp
  · intro h
    by_contra hn
    apply h
    apply BitVec.eq_of_getLsbD_eq
    intro i hi
    rw [← ha i]
    have hj : i / 8 < byteCount n := by bomega
    rw [sb_in a i hj]
    have : a.bytes[i / 8] = 0#8 := by
      by_contra h0
      exact hn ⟨_, Vector.mem_toList_iff.2 (Vector.getElem_mem hj), bne_iff_ne.2 h0⟩
    rw [this]; simp

/-- C35: assignment from a scalar stores the scalar's bit pattern, cut to the width or extended with zeros.
For unsigned types this is conversion of the value.  For a negative value of a signed type narrower than the
vector it is not, see `C35_negative_not_extended`. -/
theorem C35_assign_partial {n : Nat} (size : Nat) (v : BitVec (8 * size)) :
    Holds (WideBits.assign size v : WideBits n) (v.setWidth n) := by
  intro i
  unfold WideBits.assign
  rw [sb_trim, sb_ofFn, BitVec.getLsbD_setWidth]
  by_cases h : i / 8 < byteCount n
  · rw [dif_pos h, Bool.and_comm]
    congr 1
    simp only
    by_cases hm : i / 8 < min (byteCount n) size
    · rw [if_pos hm, BitVec.getLsbD_setWidth, BitVec.getLsbD_ushiftRight]
      have e : i / 8 * 8 + i % 8 = i := by bomega
      have : decide (i % 8 < 8) = true := by rw [decide_eq_true_eq]; bomega
      rw [e, this, Bool.true_and]
    · rw [if_neg hm, BitVec.getLsbD_of_ge v i (by bomega)]; simp
  · rw [dif_neg h]
    have : ¬ i < n := by bomega
    simp [this]

/-- C35 fails for negative scalars: `wire<256> w = -1` (a 4-byte `int`) sets only the 32 low bits, although the
same assignment to `wire<64>` or `wire<128>`, which are plain integers, sets all of them. -/
theorem C35_negative_not_extended :
    ¬ Holds (WideBits.assign 4 (BitVec.ofInt 32 (-1)) : WideBits 256) (BitVec.ofInt 256 (-1)) := by
  intro h
  have := C35_unique (C35_assign_partial 4 (BitVec.ofInt 32 (-1))) h
  exact absurd this (by decide +kernel)

/-- Objects built by the operations of the type. -/
inductive Built {n : Nat} : WideBits n → Prop
  | zero : Built (.zero n)
  | assign (size : Nat) (v : BitVec (8 * size)) : Built (.assign size v)
  | or {a b} : Built a → Built b → Built (a.or b)
  | and {a b} : Built a → Built b → Built (a.and b)
  | xor {a b} : Built a → Built b → Built (a.xor b)
  | not {a} : Built a → Built a.not
  | shl {a} (s : Int) : Built a → Built (a.shl s)
  | shr {a} (s : Int) : Built a → Built (a.shr s)

/-- C35: whatever operations built an object, it holds an `n`-bit value: the storage bits above the width are zero. -/
theorem C35_padding_zero {n : Nat} {a : WideBits n} (h : Built a) : ∃ x : BitVec n, Holds a x := by
  induction h with
  | zero => exact ⟨_, C35_zero n⟩
  | assign size v => exact ⟨_, C35_assign_partial size v⟩
  | or _ _ iha ihb => obtain ⟨x, hx⟩ := iha; obtain ⟨y, hy⟩ := ihb; exact ⟨_, C35_or hx hy⟩
  | and _ _ iha ihb => obtain ⟨x, hx⟩ := iha; obtain ⟨y, hy⟩ := ihb; exact ⟨_, C35_and hx hy⟩
  | xor _ _ iha ihb => obtain ⟨x, hx⟩ := iha; obtain ⟨y, hy⟩ := ihb; exact ⟨_, C35_xor hx hy⟩
  | not _ ih => obtain ⟨x, hx⟩ := ih; exact ⟨_, C35_not hx⟩
  | shl s _ ih =>
    obtain ⟨x, hx⟩ := ih
    rcases Int.lt_or_le s 0 with h | h
    · exact ⟨_, (C35_shift_negative _ s h).1⟩
    · obtain ⟨k, rfl⟩ := Int.eq_ofNat_of_zero_le h
      exact ⟨_, C35_shl hx k⟩
  | shr s _ ih =>
    obtain ⟨x, hx⟩ := ih
    rcases Int.lt_or_le s 0 with h | h
    · exact ⟨_, (C35_shift_negative _ s h).2⟩
    · obtain ⟨k, rfl⟩ := Int.eq_ofNat_of_zero_le h
      exact ⟨_, C35_shr hx k⟩

/-- A 133-bit example crossing bytes: `~((0xABCD << 120) | 1) >> 3`. -/
example : Holds ((((WideBits.assign 2 0xABCD#16 : WideBits 133).shl 120).or (.assign 1 1#8)).not.shr 3)
    (~~~((0xABCD#133 <<< 120) ||| 1#133) >>> 3) :=
  C35_shr (C35_not (C35_or (C35_shl (C35_assign_partial 2 0xABCD#16) 120) (C35_assign_partial 1 1#8))) 3

example : ((WideBits.assign 2 0xABCD#16 : WideBits 133).shl 125).toBool = true ∧
    ((WideBits.assign 2 0xAB00#16 : WideBits 133).shl 125).toBool = false := by decide +kernel

/-! ### C36 -/

/-- C36: for every count up to 2^63 the computed ceil-log2 is the least width `w` with `n ≤ 2^w`. -/
theorem C36_clog2 (n : Nat) (h : n ≤ 2 ^ 63) :
    ∃ w, clog2 n = some w ∧ n ≤ 2 ^ w ∧ ∀ v, n ≤ 2 ^ v → w ≤ v := by
  have key : ∀ (k res : Nat), 64 - res = k → res ≤ 63 → (∀ v < res, 2 ^ v < n) →
      ∃ w, clog2Loop n res = some w ∧ n ≤ 2 ^ w ∧ ∀ v < w, 2 ^ v < n := by
    intro k
    induction k with
    | zero => intro res hk hr _; omega
    | succ k ih =>
      intro res hk hr hv
      rw [clog2Loop, if_neg (by omega)]
      by_cases hn : n > 2 ^ res
      · rw [if_pos hn]
        have hr' : res ≠ 63 := by rintro rfl; omega
        apply ih (res + 1) (by omega) (by omega)
        intro v hv'
        rcases Nat.lt_succ_iff_lt_or_eq.1 hv' with h1 | h1
        · exact hv v h1
        · subst h1; exact hn
      · rw [if_neg hn]
        exact ⟨res, rfl, by omega, hv⟩
  obtain ⟨w, h1, h2, h3⟩ := key 64 0 rfl (by omega) (by omega)
  refine ⟨w, h1, h2, fun v hv => ?_⟩
  by_contra hc
  have := h3 v (by omega)
  omega

/-- C36: beyond 2^63 the loop shifts by 64, which is undefined: `clog2` is not total on its argument type. -/
theorem C36_clog2_undefined (n : Nat) (h : 2 ^ 63 < n) : clog2 n = none := by
  have key : ∀ (k res : Nat), 64 - res = k → clog2Loop n res = none := by
    intro k
    induction k with
    | zero => intro res hk; rw [clog2Loop, if_pos (by omega)]
    | succ k ih =>
      intro res hk
      rw [clog2Loop, if_neg (by omega), if_pos, ih (res + 1) (by omega)]
      have : 2 ^ res ≤ 2 ^ 63 := Nat.pow_le_pow_right (by omega) (by omega)
      omega
  exact key 64 0 rfl

/-- C36: the width used for counters of `n` things (`clog2 n + 1`) represents every count from 0 to `n`. -/
theorem C36_count_width (n c : Nat) (h : n ≤ 2 ^ 63) (hc : c ≤ n) : ∃ w, clog2 n = some w ∧ c < 2 ^ (w + 1) := by
  obtain ⟨w, h1, h2, _⟩ := C36_clog2 n h
  refine ⟨w, h1, ?_⟩
  rw [Nat.pow_succ]
  have : 0 < 2 ^ w := Nat.two_pow_pos w
  omega

/-- C36: the index width represents every index below the count and is the least positive width that does. -/
theorem C36_index_width (n : Nat) (h : 1 ≤ n) :
    1 ≤ bitWidthForCount n ∧ (∀ i < n, i < 2 ^ bitWidthForCount n) ∧
      ∀ v, 1 ≤ v → (∀ i < n, i < 2 ^ v) → bitWidthForCount n ≤ v := by
  have key : ∀ (m w : Nat), ∃ k, bitWidthLoop m w = w + k ∧ 1 ≤ k ∧ m < 2 ^ k ∧ (k = 1 ∨ 2 ^ (k - 1) ≤ m) := by
    intro m
    induction m using Nat.strongRecOn with
    | _ m ih =>
      intro w
      rw [bitWidthLoop]
      by_cases hm : m / 2 ≠ 0
      · rw [if_pos hm]
        obtain ⟨k, h1, h2, h3, h4⟩ := ih (m / 2) (by omega) (w + 1)
        refine ⟨k + 1, by rw [h1]; omega, by omega, by rw [Nat.pow_succ]; omega, Or.inr ?_⟩
        rcases h4 with h4 | h4
        · subst h4; show 2 ^ 1 ≤ m; omega
        · have e : k + 1 - 1 = (k - 1) + 1 := by omega
          rw [e, Nat.pow_succ]; omega
      · rw [if_neg hm]
        exact ⟨1, rfl, by omega, by omega, Or.inl rfl⟩
  obtain ⟨k, h1, h2, h3, h4⟩ := key (n - 1) 0
  have e : bitWidthForCount n = k := by unfold bitWidthForCount; rw [h1]; omega
  rw [e]
  refine ⟨h2, fun i hi => by omega, fun v hv hi => ?_⟩
  rcases h4 with h4 | h4
  · omega
  · by_contra hc
    have h5 := hi (n - 1) (by omega)
    have : 2 ^ v ≤ 2 ^ (k - 1) := Nat.pow_le_pow_right (by omega) (by omega)
    omega

/-- C36: the power-of-two test is right for every 64-bit value. -/
theorem C36_power_of_two (n : BitVec 64) : isPowerOfTwo n = true ↔ ∃ k, n.toNat = 2 ^ k := by
  unfold isPowerOfTwo
  rw [Bool.and_eq_true, bne_iff_ne, beq_iff_eq]
  have h0 : n ≠ 0#64 ↔ n.toNat ≠ 0 := by
    rw [Ne, ← BitVec.toNat_inj]; rfl
  have h1 : n ≠ 0#64 → ((n &&& (n - 1#64)) = 0#64 ↔ n.toNat &&& (n.toNat - 1) = 0) := by
    intro hn
    rw [← BitVec.toNat_inj, BitVec.toNat_and, BitVec.toNat_sub]
    have : (2 ^ 64 - (1#64).toNat + n.toNat) % 2 ^ 64 = n.toNat - 1 := by
      have := n.isLt
      have := h0.1 hn
      have e : (1#64).toNat = 1 := rfl
      rw [e]; omega
    rw [this]; rfl
  constructor
  · rintro ⟨h2, h3⟩
    exact (Nat.ne_zero_and_sub_one_eq_zero_iff_isPowerOfTwo).1 ⟨h0.1 h2, (h1 h2).1 h3⟩
  · intro h
    have h2 := (Nat.ne_zero_and_sub_one_eq_zero_iff_isPowerOfTwo).2 h
    have h3 := h0.2 h2.1
    exact ⟨h3, (h1 h3).2 h2.2⟩

/-- C36: the rounded quotient is a nearest integer to the quotient: off by at most half the divisor. -/
theorem C36_div_round (a b : BitVec 64) (hb : b ≠ 0#64) (h : a.toNat + b.toNat / 2 < 2 ^ 64) :
    ∃ q, divRound a b = some q ∧ 2 * (q.toNat * b.toNat) ≤ 2 * a.toNat + b.toNat ∧
      2 * a.toNat < 2 * (q.toNat * b.toNat) + b.toNat + 1 := by
  unfold divRound
  rw [if_neg hb]
  refine ⟨_, rfl, ?_⟩
  have hb0 : 0 < b.toNat := by
    rcases Nat.eq_zero_or_pos b.toNat with h0 | h0
    · exact absurd (BitVec.toNat_inj.1 (by rw [h0]; rfl)) hb
    · exact h0
  have e : ((a + b / 2#64) / b).toNat = (a.toNat + b.toNat / 2) / b.toNat := by
    rw [BitVec.toNat_udiv, BitVec.toNat_add, BitVec.toNat_udiv]
    have : (2#64).toNat = 2 := rfl
    rw [this, Nat.mod_eq_of_lt h]
  rw [e]
  have h1 := Nat.div_mul_le_self (a.toNat + b.toNat / 2) b.toNat
  have h2 := Nat.lt_div_mul_add (a := a.toNat + b.toNat / 2) hb0
  omega

example : clog2 12 = some 4 ∧ clog2 16 = some 4 ∧ clog2 1 = some 0 ∧ clog2 (2 ^ 63) = some 63 := by decide +kernel
example : bitWidthForCount 18 = 5 ∧ bitWidthForCount 1 = 1 ∧ bitWidthForCount 16 = 4 ∧ bitWidthForCount 17 = 5 := by decide +kernel
example : isPowerOfTwo 64#64 = true ∧ isPowerOfTwo 96#64 = false ∧ isPowerOfTwo 0#64 = false := by decide +kernel
example : divRound 7#64 2#64 = some 4#64 ∧ divRound 10#64 4#64 = some 3#64 ∧ divRound 9#64 4#64 = some 2#64 := by decide +kernel

end Verif.Props

import Verif.Model.RefMem
import Verif.Spec.ByteMem

namespace Verif.RefMem
open Verif.Spec.ByteMem

theorem wordOf_toNat (a : BitVec 32) : (wordOf a).toNat = a.toNat / 4 * 4 := by
  have h : wordOf a = (a >>> 2) <<< 2 := by
    unfold wordOf
    apply BitVec.eq_of_getLsbD_eq
    intro i hi
    have : ∀ i : Fin 32, (~~~3#32).getLsbD i.val = decide (2 ≤ i.val) := by decide
    have h3 := this ⟨i, hi⟩
    simp only [BitVec.getLsbD_and, BitVec.getLsbD_shiftLeft, BitVec.getLsbD_ushiftRight] at *
    rw [h3]
    by_cases h2 : 2 ≤ i
    · have : 2 + (i - 2) = i := by omega
      simp [h2, hi, this, show ¬ i < 2 by omega]
    · simp [h2, show i < 2 by omega]
  rw [h, BitVec.toNat_shiftLeft, BitVec.toNat_ushiftRight, Nat.shiftRight_eq_div_pow, Nat.shiftLeft_eq]
  have := a.isLt
  rw [Nat.mod_eq_of_lt] <;> omega

theorem off_toNat (a : BitVec 32) : (a &&& 3#32).toNat = a.toNat % 4 := by
  rw [BitVec.toNat_and]
  exact Nat.and_two_pow_sub_one_eq_mod a.toNat 2

theorem isRam_iff (a : BitVec 32) (h4 : a.toNat % 4 = 0) :
    isRam a = true ↔ 0x80000000 ≤ a.toNat ∧ a.toNat < 0xC0000000 := by
  unfold isRam
  have hlt := a.isLt
  split
  · simp; omega
  · rw [decide_eq_true_eq]
    have : (a.setWidth 64 + 4#64 - 1#64 : BitVec 64).toNat = a.toNat + 3 := by
      simp only [BitVec.toNat_sub, BitVec.toNat_add, BitVec.toNat_setWidth, BitVec.toNat_ofNat]
      omega
    rw [this]; omega

theorem ramIndex_toNat (a : BitVec 32) (h : 0x80000000 ≤ a.toNat) :
    (ramIndex a).toNat = (a.toNat - 0x80000000) / 4 := by
  unfold ramIndex
  rw [BitVec.toNat_ushiftRight, Nat.shiftRight_eq_div_pow, BitVec.toNat_sub]
  have := a.isLt
  simp only [BitVec.toNat_ofNat]
  omega

/-- Every element number used is inside the array of 2^28 words. -/
theorem ramIndex_lt (a : BitVec 32) (h : isRam (wordOf a) = true) : (ramIndex (wordOf a)).toNat < 2 ^ 28 := by
  have h4 : (wordOf a).toNat % 4 = 0 := by rw [wordOf_toNat]; omega
  rw [isRam_iff _ h4] at h
  rw [ramIndex_toNat _ h.1]; omega

theorem wordOf_idem (a : BitVec 32) : wordOf (wordOf a) = wordOf a := by
  apply BitVec.eq_of_toNat_eq; simp only [wordOf_toNat]; omega

theorem ramIndex_inj {a b : BitVec 32} (ha : isRam (wordOf a) = true) (hb : isRam (wordOf b) = true)
    (h : ramIndex (wordOf a) = ramIndex (wordOf b)) : wordOf a = wordOf b := by
  have h4 : ∀ a, (wordOf a).toNat % 4 = 0 := by intro a; rw [wordOf_toNat]; omega
  rw [isRam_iff _ (h4 a)] at ha
  rw [isRam_iff _ (h4 b)] at hb
  have := congrArg BitVec.toNat h
  rw [ramIndex_toNat _ ha.1, ramIndex_toNat _ hb.1] at this
  apply BitVec.eq_of_toNat_eq
  have := h4 a; have := h4 b
  omega

def timerWord (a : BitVec 32) : Prop :=
  wordOf a = timerLow ∨ wordOf a = timerHigh ∨ wordOf a = timerCmpLow ∨ wordOf a = timerCmpHigh

instance (a) : Decidable (timerWord a) := inferInstanceAs (Decidable (_ ∨ _))

theorem loadWord_storeWord (now : BitVec 64) (s : State) (a d b : BitVec 32) (ht : ¬ timerWord a) :
    loadWord (storeWord now s a d) b = if wordOf b = wordOf a then d else loadWord s b := by
  simp only [timerWord, not_or] at ht
  obtain ⟨h1, h2, h3, h4⟩ := ht
  unfold storeWord
  simp only [h1, h2, h3, h4, if_false]
  unfold loadWord
  by_cases hr : isRam (wordOf a) = true
  · simp only [hr, if_true]
    by_cases hb : isRam (wordOf b) = true
    · simp only [hb, if_true]
      by_cases hi : ramIndex (wordOf b) = ramIndex (wordOf a)
      · simp [ramIndex_inj hb hr hi]
      · have : wordOf b ≠ wordOf a := fun h => hi (by rw [h])
        simp [hi, this]
    · have : wordOf b ≠ wordOf a := fun h => hb (by rw [h]; exact hr)
      simp [hb, this]
  · simp only [hr]
    by_cases hd : d = 0#32
    · subst hd
      by_cases hb : wordOf b = wordOf a
      · simp [hb, hr]
      · simp [hb]
    · by_cases hb : wordOf b = wordOf a
      · simp [hb, hr, hd]
      · simp [hb, hd]

/-- Writes to a timer word leave the word memory alone. -/
theorem loadWord_storeWord_timer (now : BitVec 64) (s : State) (a d b : BitVec 32) (ht : timerWord a) :
    loadWord (storeWord now s a d) b = loadWord s b := by
  simp only [timerWord] at ht
  unfold storeWord
  by_cases h1 : wordOf a = timerLow
  · simp only [h1, if_true]; rfl
  · by_cases h2 : wordOf a = timerHigh
    · simp only [h2, if_true]; rfl
    · by_cases h3 : wordOf a = timerCmpLow
      · simp only [h3, if_true]; rfl
      · have h4 : wordOf a = timerCmpHigh := by rcases ht with h | h | h | h <;> first | contradiction | exact h
        simp only [h4, if_true]; rfl

/-- The memory a program sees through word loads. -/
def view (s : State) : Mem := fun a => byteOf (loadWord s a) (a.toNat % 4)

theorem loadWord_congr (s : State) {a b : BitVec 32} (h : wordOf a = wordOf b) : loadWord s a = loadWord s b := by
  unfold loadWord; rw [h]

theorem byteOf_toNat (v : BitVec 32) (i : Nat) : (byteOf v i).toNat = v.toNat / 256 ^ i % 256 := by
  simp [byteOf]

theorem wordOf_add (p : BitVec 32) (i : Nat) (h : p.toNat % 4 + i < 4) : wordOf (p + BitVec.ofNat 32 i) = wordOf p := by
  apply BitVec.eq_of_toNat_eq
  have := p.isLt
  simp only [wordOf_toNat, BitVec.toNat_add, BitVec.toNat_ofNat]
  omega

theorem add_mod4 (p : BitVec 32) (i : Nat) (h : p.toNat % 4 + i < 4) :
    (p + BitVec.ofNat 32 i).toNat % 4 = p.toNat % 4 + i := by
  have := p.isLt
  simp only [BitVec.toNat_add, BitVec.toNat_ofNat]
  omega

theorem view_add (s : State) (p : BitVec 32) (i : Nat) (h : p.toNat % 4 + i < 4) :
    view s (p + BitVec.ofNat 32 i) = byteOf (loadWord s p) (p.toNat % 4 + i) := by
  unfold view
  rw [add_mod4 p i h, loadWord_congr s (wordOf_add p i h)]

theorem align_cases (sz : Size) (p : BitVec 32) (h : aligned sz p) : p.toNat % 4 + sz.bytes ≤ 4 := by
  cases sz <;> simp only [aligned, Size.bytes] at * <;> omega

/-- The value of consecutive bytes of one word. -/
theorem value_word (m : Mem) (x p : BitVec 32) (n : Nat) (hn : p.toNat % 4 + n ≤ 4)
    (hm : ∀ i, i < n → m (p + BitVec.ofNat 32 i) = byteOf x (p.toNat % 4 + i)) :
    value m p n = x.toNat / 256 ^ (p.toNat % 4) % 256 ^ n := by
  induction n with
  | zero => simp [value, Nat.mod_one]
  | succ n ih =>
    rw [value, ih (by omega) (fun i hi => hm i (by omega)), hm n (by omega), byteOf_toNat]
    rw [Nat.pow_add, ← Nat.div_div_eq_div_mul, Nat.pow_succ 256 n, Nat.mod_mul]
    rw [Nat.mul_comm]

theorem strbMask_bit (w : BitVec 32) (k : Nat) (hk : k < 32) : (strbMask w).getLsbD k = w.getLsbD (k / 8) := by
  have key : ∀ (a b c d : Bool) (k : Fin 32),
      (((if a then 0xFF#32 else 0#32) ||| (if b then 0xFF00#32 else 0#32) |||
        (if c then 0xFF0000#32 else 0#32) ||| (if d then 0xFF000000#32 else 0#32)) : BitVec 32).getLsbD k.val
      = (if k.val / 8 = 0 then a else if k.val / 8 = 1 then b else if k.val / 8 = 2 then c else d) := by
    decide
  unfold strbMask
  rw [key _ _ _ _ ⟨k, hk⟩]
  have : k / 8 = 0 ∨ k / 8 = 1 ∨ k / 8 = 2 ∨ k / 8 = 3 := by omega
  rcases this with h | h | h | h <;> simp [h]

theorem byteOf_bit (v : BitVec 32) (i k : Nat) (hk : k < 8) : (byteOf v i).getLsbD k = v.getLsbD (8 * i + k) := by
  unfold byteOf
  rw [BitVec.getLsbD_ofNat]
  simp only [hk, decide_true, Bool.true_and]
  rw [show (256 : Nat) = 2 ^ 8 from rfl, ← Nat.pow_mul, Nat.testBit_div_two_pow, Nat.add_comm]
  rfl

/-- Byte `j` of a masked merge. -/
theorem byteOf_merge (mk wd old : BitVec 32) (j : Nat) (hj : j < 4) (b : Bool)
    (hmk : ∀ k, 8 * j ≤ k → k < 8 * j + 8 → mk.getLsbD k = b) :
    byteOf ((mk &&& wd) ||| (~~~mk &&& old)) j = if b then byteOf wd j else byteOf old j := by
  apply BitVec.eq_of_getLsbD_eq
  intro k hk
  have h := hmk (8 * j + k) (by omega) (by omega)
  have hlt : 8 * j + k < 32 := by omega
  rw [byteOf_bit _ _ _ hk]
  cases b
  · simp only [BitVec.getLsbD_or, BitVec.getLsbD_and, BitVec.getLsbD_not, h, hlt, decide_true, Bool.not_false,
      Bool.true_and, Bool.false_and, Bool.false_or, Bool.false_eq_true, if_false, byteOf_bit _ _ _ hk]
  · simp only [BitVec.getLsbD_or, BitVec.getLsbD_and, BitVec.getLsbD_not, h, hlt, decide_true, Bool.not_true,
      Bool.true_and, Bool.false_and, Bool.or_false, if_true, byteOf_bit _ _ _ hk]

theorem byteOf_shl (v : BitVec 32) (o j : Nat) (hj : j < 4) (h : o ≤ j) : byteOf (v <<< (o * 8)) j = byteOf v (j - o) := by
  apply BitVec.eq_of_getLsbD_eq
  intro k hk
  rw [byteOf_bit _ _ _ hk, byteOf_bit _ _ _ hk, BitVec.getLsbD_shiftLeft]
  have h1 : 8 * j + k < 32 := by omega
  have h2 : ¬ 8 * j + k < o * 8 := by omega
  have h3 : 8 * j + k - o * 8 = 8 * (j - o) + k := by omega
  simp [h1, h2, h3]

theorem byteOf_ff (v : BitVec 32) : byteOf (v &&& 0xFF#32) 0 = byteOf v 0 := by
  apply BitVec.eq_of_getLsbD_eq
  intro k hk
  rw [byteOf_bit _ _ _ hk, byteOf_bit _ _ _ hk]
  have : ∀ k : Fin 8, (0xFF#32).getLsbD (8 * 0 + k.val) = true := by decide
  rw [BitVec.getLsbD_and, this ⟨k, hk⟩, Bool.and_true]

theorem byteOf_ffff (v : BitVec 32) (j : Nat) (hj : j < 2) : byteOf (v &&& 0xFFFF#32) j = byteOf v j := by
  apply BitVec.eq_of_getLsbD_eq
  intro k hk
  rw [byteOf_bit _ _ _ hk, byteOf_bit _ _ _ hk]
  have : ∀ (j : Fin 2) (k : Fin 8), (0xFFFF#32).getLsbD (8 * j.val + k.val) = true := by decide
  rw [BitVec.getLsbD_and, this ⟨j, hj⟩ ⟨k, hk⟩, Bool.and_true]

/-- The strobe of a store of `sz` bytes. -/
def strbOf : Size → BitVec 32
  | .byte => 1#32
  | .half => 3#32
  | .word => 15#32

theorem strb_bit (sz : Size) (o j : Nat) (ho : o + sz.bytes ≤ 4) (hj : j < 4) :
    (strbOf sz <<< o).getLsbD j = decide (o ≤ j ∧ j < o + sz.bytes) := by
  have ho4 : o < 4 := by cases sz <;> simp only [Size.bytes] at ho <;> omega
  have : ∀ (o : Fin 4) (j : Fin 4), ∀ sz ∈ [Size.byte, Size.half, Size.word], o.val + sz.bytes ≤ 4 →
      (strbOf sz <<< o.val).getLsbD j.val = decide (o.val ≤ j.val ∧ j.val < o.val + sz.bytes) := by decide
  exact this ⟨o, ho4⟩ ⟨j, hj⟩ sz (by cases sz <;> simp) ho

/-- The address offset of `a` from `p`, when `a` lies in the word of `p`. -/
theorem sub_toNat (a p : BitVec 32) (h : wordOf a = wordOf p) (hle : p.toNat % 4 ≤ a.toNat % 4) :
    (a - p).toNat = a.toNat % 4 - p.toNat % 4 := by
  have h := congrArg BitVec.toNat h
  simp only [wordOf_toNat] at h
  have := a.isLt; have := p.isLt
  rw [BitVec.toNat_sub]
  omega

/-- `a` is one of the `n` bytes at `p`, all in one word. -/
theorem in_range_iff (a p : BitVec 32) (n : Nat) (hn : p.toNat % 4 + n ≤ 4) :
    (a - p).toNat < n ↔ wordOf a = wordOf p ∧ p.toNat % 4 ≤ a.toNat % 4 ∧ a.toNat % 4 < p.toNat % 4 + n := by
  have := a.isLt; have := p.isLt
  constructor
  · intro h
    rw [BitVec.toNat_sub] at h
    refine ⟨BitVec.eq_of_toNat_eq ?_, ?_⟩
    · simp only [wordOf_toNat]; omega
    · omega
  · rintro ⟨h1, h2, h3⟩
    rw [sub_toNat a p h1 h2]; omega

/-- Word-level meaning of the masked write. -/
theorem merge_byte (sz : Size) (old v data : BitVec 32) (o j : Nat) (ho : o + sz.bytes ≤ 4) (hj : j < 4)
    (hd : ∀ i, i < sz.bytes → byteOf data i = byteOf v i) :
    byteOf ((strbMask (strbOf sz <<< o) &&& (data <<< (o * 8))) ||| (~~~strbMask (strbOf sz <<< o) &&& old)) j =
      if o ≤ j ∧ j < o + sz.bytes then byteOf v (j - o) else byteOf old j := by
  rw [byteOf_merge _ _ _ j hj (decide (o ≤ j ∧ j < o + sz.bytes))]
  · by_cases h : o ≤ j ∧ j < o + sz.bytes
    · simp only [h, decide_true, if_true, and_self]
      rw [byteOf_shl _ _ _ hj h.1, hd _ (by omega)]
    · simp only [h, decide_false, if_false, Bool.false_eq_true]
  · intro k h1 h2
    have : k / 8 = j := by omega
    rw [strbMask_bit _ _ (by omega), this, strb_bit sz o j ho hj]

theorem alignMask_iff (sz : Size) (p : BitVec 32) (f3 : BitVec 3) (h : f3 &&& 3#3 = sz.code) :
    p &&& alignMask f3 = 0#32 ↔ aligned sz p := by
  unfold alignMask
  rw [h]
  have hb : (p &&& 1#32).toNat = p.toNat % 2 := by
    rw [BitVec.toNat_and]; exact Nat.and_two_pow_sub_one_eq_mod p.toNat 1
  have h3 := off_toNat p
  cases sz
  · simp [Size.code, aligned, Size.bytes, Nat.mod_one]
  · show (p &&& 1#32) = 0#32 ↔ p.toNat % 2 = 0
    rw [← hb]
    exact ⟨fun h => by rw [h]; rfl, fun h => BitVec.eq_of_toNat_eq (by simpa using h)⟩
  · show (p &&& 3#32) = 0#32 ↔ p.toNat % 4 = 0
    rw [← h3]
    exact ⟨fun h => by rw [h]; rfl, fun h => BitVec.eq_of_toNat_eq (by simpa using h)⟩

/-- The low `n` bytes of a shifted word. -/
theorem low_eq (x : BitVec 32) (o n : Nat) : x.toNat / 256 ^ o % 256 ^ n = (x >>> (o * 8)).toNat % 2 ^ (8 * n) := by
  rw [BitVec.toNat_ushiftRight, Nat.shiftRight_eq_div_pow, show (256 : Nat) = 2 ^ 8 from rfl, ← Nat.pow_mul,
    ← Nat.pow_mul, Nat.mul_comm 8 o]

theorem data64_toNat (h l : BitVec 32) :
    ((h.setWidth 64 <<< 32) ||| l.setWidth 64 : BitVec 64).toNat = h.toNat * 2 ^ 32 + l.toNat := by
  have hh := h.isLt; have hl := l.isLt
  rw [BitVec.toNat_or, BitVec.toNat_shiftLeft, BitVec.toNat_setWidth, BitVec.toNat_setWidth,
    Nat.mod_eq_of_lt (show h.toNat < 2 ^ 64 by omega), Nat.mod_eq_of_lt (show l.toNat < 2 ^ 64 by omega),
    Nat.shiftLeft_eq, Nat.mod_eq_of_lt (show h.toNat * 2 ^ 32 < 2 ^ 64 by omega), ← Nat.shiftLeft_eq,
    ← Nat.shiftLeft_add_eq_or_of_lt hl]

/-- The bytes selected from the pair of words are those of the low word. -/
theorem select_low (h l : BitVec 32) (o n : Nat) (hn : n = 1 ∨ n = 2 ∨ n = 4) (ho : o + n ≤ 4) :
    ((((h.setWidth 64 <<< 32) ||| l.setWidth 64 : BitVec 64) >>> (o * 8)).setWidth 32).toNat % 2 ^ (8 * n) =
      l.toNat / 256 ^ o % 256 ^ n := by
  rw [BitVec.toNat_setWidth, BitVec.toNat_ushiftRight, data64_toNat, Nat.shiftRight_eq_div_pow]
  have hh := h.isLt; have hl := l.isLt
  have h4 : o = 0 ∨ o = 1 ∨ o = 2 ∨ o = 3 := by omega
  rcases hn with rfl | rfl | rfl <;> rcases h4 with rfl | rfl | rfl | rfl <;> first | omega | (simp; omega)

/-- Extension of the low byte. -/
theorem ext_byte (d : BitVec 32) :
    ((d &&& 0xFF#32) ||| (if d &&& 0x80#32 ≠ 0#32 then 0xFFFFFF00#32 else 0#32)) =
      (BitVec.ofNat 8 (d.toNat % 2 ^ 8)).signExtend 32 := by
  have hz : d &&& 0x80#32 ≠ 0#32 ↔ d.getLsbD 7 = true := by
    rw [show (0x80#32 : BitVec 32) = BitVec.twoPow 32 7 by decide, BitVec.and_twoPow]
    cases d.getLsbD 7 <;> decide
  have hb : ∀ k, k < 8 → (BitVec.ofNat 8 (d.toNat % 2 ^ 8)).getLsbD k = d.getLsbD k := by
    intro k hk
    rw [BitVec.getLsbD_ofNat, Nat.testBit_mod_two_pow]; simp [hk]; rfl
  have hmsb : (BitVec.ofNat 8 (d.toNat % 2 ^ 8)).msb = d.getLsbD 7 := by
    rw [BitVec.msb_eq_getLsbD_last]; exact hb 7 (by omega)
  have h1 : ∀ k : Fin 32, (0xFF#32).getLsbD k.val = decide (k.val < 8) := by decide
  have h2 : ∀ k : Fin 32, (0xFFFFFF00#32).getLsbD k.val = decide (8 ≤ k.val) := by decide
  apply BitVec.eq_of_getLsbD_eq
  intro k hk
  rw [BitVec.getLsbD_signExtend, hmsb, BitVec.getLsbD_or, BitVec.getLsbD_and, h1 ⟨k, hk⟩]
  by_cases h7 : d.getLsbD 7 = true
  · rw [if_pos (hz.mpr h7), h2 ⟨k, hk⟩, h7]
    by_cases h8 : k < 8
    · rw [if_pos h8, hb k h8]; simp [h8, hk, show ¬ 8 ≤ k by omega]
    · simp [h8, hk, show 8 ≤ k by omega]
  · rw [if_neg (fun h => h7 (hz.mp h))]
    have h7 : d.getLsbD 7 = false := by simpa using h7
    rw [h7]
    by_cases h8 : k < 8
    · rw [if_pos h8, hb k h8]; simp [h8, hk]
    · simp [h8]

/-- Extension of the low half word. -/
theorem ext_half (d : BitVec 32) :
    ((d &&& 0xFFFF#32) ||| (if d &&& 0x8000#32 ≠ 0#32 then 0xFFFF0000#32 else 0#32)) =
      (BitVec.ofNat 16 (d.toNat % 2 ^ 16)).signExtend 32 := by
  have hz : d &&& 0x8000#32 ≠ 0#32 ↔ d.getLsbD 15 = true := by
    rw [show (0x8000#32 : BitVec 32) = BitVec.twoPow 32 15 by decide, BitVec.and_twoPow]
    cases d.getLsbD 15 <;> decide
  have hb : ∀ k, k < 16 → (BitVec.ofNat 16 (d.toNat % 2 ^ 16)).getLsbD k = d.getLsbD k := by
    intro k hk
    rw [BitVec.getLsbD_ofNat, Nat.testBit_mod_two_pow]; simp [hk]; rfl
  have hmsb : (BitVec.ofNat 16 (d.toNat % 2 ^ 16)).msb = d.getLsbD 15 := by
    rw [BitVec.msb_eq_getLsbD_last]; exact hb 15 (by omega)
  have h1 : ∀ k : Fin 32, (0xFFFF#32).getLsbD k.val = decide (k.val < 16) := by decide
  have h2 : ∀ k : Fin 32, (0xFFFF0000#32).getLsbD k.val = decide (16 ≤ k.val) := by decide
  apply BitVec.eq_of_getLsbD_eq
  intro k hk
  rw [BitVec.getLsbD_signExtend, hmsb, BitVec.getLsbD_or, BitVec.getLsbD_and, h1 ⟨k, hk⟩]
  by_cases h7 : d.getLsbD 15 = true
  · rw [if_pos (hz.mpr h7), h2 ⟨k, hk⟩, h7]
    by_cases h8 : k < 16
    · rw [if_pos h8, hb k h8]; simp [h8, hk, show ¬ 16 ≤ k by omega]
    · simp [h8, hk, show 16 ≤ k by omega]
  · rw [if_neg (fun h => h7 (hz.mp h))]
    have h7 : d.getLsbD 15 = false := by simpa using h7
    rw [h7]
    by_cases h8 : k < 16
    · rw [if_pos h8, hb k h8]; simp [h8, hk]
    · simp [h8]

theorem and_ff (d : BitVec 32) : d &&& 0xFF#32 = BitVec.ofNat 32 (d.toNat % 2 ^ 8) := by
  apply BitVec.eq_of_toNat_eq
  have h := Nat.and_two_pow_sub_one_eq_mod d.toNat 8
  have h2 : (d &&& 0xFF#32).toNat = d.toNat % 2 ^ 8 := by rw [BitVec.toNat_and]; exact h
  rw [h2, BitVec.toNat_ofNat]
  omega

theorem and_ffff (d : BitVec 32) : d &&& 0xFFFF#32 = BitVec.ofNat 32 (d.toNat % 2 ^ 16) := by
  apply BitVec.eq_of_toNat_eq
  have h := Nat.and_two_pow_sub_one_eq_mod d.toNat 16
  have h2 : (d &&& 0xFFFF#32).toNat = d.toNat % 2 ^ 16 := by rw [BitVec.toNat_and]; exact h
  rw [h2, BitVec.toNat_ofNat]
  omega

theorem and_all (d : BitVec 32) : d &&& 0xFFFFFFFF#32 = d := by
  have : (0xFFFFFFFF#32 : BitVec 32) = BitVec.allOnes 32 := by decide
  rw [this, BitVec.and_allOnes]

/-- Reading `n` bytes and extending them. -/
theorem spec_load_eq (m : Mem) (sz : Size) (sg : Bool) (p x : BitVec 32) (ha : aligned sz p)
    (hm : ∀ i, i < sz.bytes → m (p + BitVec.ofNat 32 i) = byteOf x (p.toNat % 4 + i)) :
    Spec.ByteMem.load m sz sg p =
      if sg then (BitVec.ofNat (8 * sz.bytes) (x.toNat / 256 ^ (p.toNat % 4) % 256 ^ sz.bytes)).signExtend 32
      else BitVec.ofNat 32 (x.toNat / 256 ^ (p.toNat % 4) % 256 ^ sz.bytes) := by
  unfold Spec.ByteMem.load
  rw [value_word m x p sz.bytes (align_cases sz p ha) hm]

end Verif.RefMem

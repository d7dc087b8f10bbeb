import Verif.Spec.DeviceSpec
/-
The devices: bytes of memory, one step, the run.
-/
namespace Verif.Device.Proofs
open Verif.Device Verif.Device.Spec
open Verif.RefMem (wordOf uartBase uartIer plicClaim timerLow timerHigh timerCmpLow timerCmpHigh)

theorem wordOf_toNat (a : BitVec 32) : (wordOf a).toNat = a.toNat - a.toNat % 4 := by
  have h : wordOf a = (a >>> 2) <<< 2 := by
    unfold wordOf
    apply BitVec.eq_of_getLsbD_eq
    intro i hi
    rw [BitVec.getLsbD_and, BitVec.getLsbD_shiftLeft, BitVec.getLsbD_ushiftRight]
    by_cases h2 : i < 2
    · have : i = 0 ∨ i = 1 := by omega
      rcases this with rfl | rfl <;> simp
    · have e : 2 + (i - 2) = i := by omega
      have : (~~~(3#32)).getLsbD i = true := by
        rw [BitVec.getLsbD_not]
        have : (3#32).getLsbD i = false := by
          have : (3#32).getLsbD i = Nat.testBit 3 i := rfl
          rw [this]
          apply Nat.testBit_lt_two_pow
          calc 3 < 2 ^ 2 := by decide
            _ ≤ 2 ^ i := Nat.pow_le_pow_right (by decide) (by omega)
        rw [this, decide_eq_true hi]; rfl
      rw [this]
      simp [hi, h2, e]
  rw [h]
  simp only [BitVec.toNat_shiftLeft, BitVec.toNat_ushiftRight, Nat.shiftRight_eq_div_pow, Nat.shiftLeft_eq]
  have := a.isLt
  omega

theorem wordOf_eq_iff (a c : BitVec 32) : wordOf a = wordOf c ↔ a.toNat / 4 = c.toNat / 4 := by
  rw [← BitVec.toNat_inj, wordOf_toNat, wordOf_toNat]
  omega

theorem byteAt_setByte (m : BitVec 32 → BitVec 32) (a c : BitVec 32) (b : BitVec 8) :
    byteAt (setByte m a b) c = if c = a then b else byteAt m c := by
  unfold byteAt setByte pmemWrite
  by_cases hw : wordOf c = wordOf a
  · rw [if_pos hw, hw]
    have hd := (wordOf_eq_iff _ _).1 hw
    apply BitVec.eq_of_getLsbD_eq
    intro i hi
    by_cases hc : c = a
    · subst hc
      simp only [BitVec.getLsbD_setWidth, BitVec.getLsbD_ushiftRight, BitVec.getLsbD_or, BitVec.getLsbD_and,
        BitVec.getLsbD_not, BitVec.getLsbD_shiftLeft, if_true]
      have e : 8 * (c.toNat % 4) + i - 8 * (c.toNat % 4) = i := by omega
      have l : 8 * (c.toNat % 4) + i < 32 := by omega
      have g : ¬ 8 * (c.toNat % 4) + i < 8 * (c.toNat % 4) := by omega
      have : (0xFF#32).getLsbD i = true := by
        have : ∀ i < 8, (0xFF#32).getLsbD i = true := by decide
        exact this i hi
      have l2 : i < 32 := by omega
      rw [e, this, decide_eq_false g]
      simp [l, hi, l2]
    · rw [if_neg hc]
      have hne : c.toNat % 4 ≠ a.toNat % 4 := by
        intro h; apply hc; apply BitVec.eq_of_toNat_eq; omega
      have l : 8 * (c.toNat % 4) + i < 32 := by omega
      simp only [BitVec.getLsbD_setWidth, BitVec.getLsbD_ushiftRight, BitVec.getLsbD_or, BitVec.getLsbD_and,
        BitVec.getLsbD_not, BitVec.getLsbD_shiftLeft, hi, l, decide_true, Bool.true_and]
      by_cases hlt : 8 * (c.toNat % 4) + i < 8 * (a.toNat % 4)
      · simp [hlt]
      · have g : 8 ≤ 8 * (c.toNat % 4) + i - 8 * (a.toNat % 4) := by omega
        have h1 : b.getLsbD (8 * (c.toNat % 4) + i - 8 * (a.toNat % 4)) = false := BitVec.getLsbD_of_ge _ _ g
        have h2 : (0xFF#32).getLsbD (8 * (c.toNat % 4) + i - 8 * (a.toNat % 4)) = false := by
          have : (0xFF#32).getLsbD (8 * (c.toNat % 4) + i - 8 * (a.toNat % 4)) =
            Nat.testBit 0xFF (8 * (c.toNat % 4) + i - 8 * (a.toNat % 4)) := rfl
          rw [this]
          apply Nat.testBit_lt_two_pow
          calc 0xFF < 2 ^ 8 := by decide
            _ ≤ _ := Nat.pow_le_pow_right (by decide) g
        simp [h1, h2]
  · rw [if_neg hw]
    have : c ≠ a := fun h => hw (by rw [h])
    rw [if_neg this]

/-- Copying through the buffer, byte by byte. -/
theorem byteAt_copy (m : BitVec 32 → BitVec 32) (src dst : BitVec 32) (n : Nat) (hd : dst.toNat + n ≤ 2 ^ 32) (a : BitVec 32) :
    byteAt (copy m src dst n) a =
      if dst.toNat ≤ a.toNat ∧ a.toNat < dst.toNat + n then byteAt m (src + (a - dst)) else byteAt m a := by
  unfold copy
  have key : ∀ k : Nat, k ≤ n →
      byteAt ((List.range k).foldl (fun k i => setByte k (dst + BitVec.ofNat 32 i) (byteAt m (src + BitVec.ofNat 32 i))) m) a =
        if dst.toNat ≤ a.toNat ∧ a.toNat < dst.toNat + k then byteAt m (src + (a - dst)) else byteAt m a := by
    intro k
    induction k with
    | zero => intro _; rw [if_neg (by omega)]; rfl
    | succ k ih =>
      intro hk
      rw [List.range_succ, List.foldl_append]
      show byteAt (setByte _ (dst + BitVec.ofNat 32 k) _) a = _
      rw [byteAt_setByte]
      have hk32 : (dst + BitVec.ofNat 32 k).toNat = dst.toNat + k := by
        rw [BitVec.toNat_add, BitVec.toNat_ofNat]; omega
      by_cases h : a = dst + BitVec.ofNat 32 k
      · rw [if_pos h, if_pos (by rw [h, hk32]; omega)]
        have : a - dst = BitVec.ofNat 32 k := by rw [h, BitVec.add_comm, BitVec.add_sub_cancel]
        rw [this]
      · rw [if_neg h, ih (by omega)]
        have hne : a.toNat ≠ dst.toNat + k := by
          intro e; exact h (BitVec.eq_of_toNat_eq (by rw [e, hk32]))
        by_cases h2 : dst.toNat ≤ a.toNat ∧ a.toNat < dst.toNat + k
        · rw [if_pos h2, if_pos (by omega)]
        · rw [if_neg h2, if_neg (by omega)]
  exact key n (Nat.le_refl n)

theorem isRam_iff (a len : BitVec 32) : isRam a len = true ↔ InRam a len := by
  unfold isRam InRam
  have h1 := a.isLt
  have h2 := len.isLt
  by_cases hz : len = 0#32
  · simp [hz]
  · have hp : 0 < len.toNat := by
      rcases Nat.eq_zero_or_pos len.toNat with h | h
      · exact absurd (BitVec.eq_of_toNat_eq (by simpa using h)) hz
      · exact h
    by_cases ha : a.toNat < 0x80000000
    · rw [if_pos (Or.inr ha)]
      constructor
      · intro h; cases h
      · rintro ⟨_, h, _⟩; omega
    · rw [if_neg (by rintro (h | h); exact hz h; exact ha h)]
      rw [decide_eq_true_eq, BitVec.toNat_sub, BitVec.toNat_add, BitVec.toNat_setWidth, BitVec.toNat_setWidth]
      have e : (1#64).toNat = 1 := rfl
      rw [e]
      constructor
      · intro h; refine ⟨hz, by omega, ?_⟩; omega
      · rintro ⟨_, _, h⟩; omega

theorem modeled_regs : modeled timerLow = true ∧ modeled timerHigh = true ∧ modeled timerCmpLow = true ∧
    modeled timerCmpHigh = true ∧ modeled dmaSrcAddr = true ∧ modeled dmaDstAddr = true ∧ modeled dmaLenAddr = true ∧
    modeled dmaCtrlAddr = true ∧ modeled dmaStatusAddr = true ∧ modeled plicClaim = true ∧ modeled uartBase = true ∧
    modeled uartIer = true := by decide

/-- The registers that are not memory. -/
structure Regs where
  off : BitVec 64
  cmp : BitVec 64
  src : BitVec 32
  dst : BitVec 32
  len : BitVec 32
  uart : Bool
  dma : Bool
  out : List (BitVec 8)

def regs (s : State) : Regs := ⟨s.timerOff, s.timerCmp, s.dmaSrc, s.dmaDst, s.dmaLen, s.uartIrq, s.dmaIrq, s.out⟩

theorem regs_updTimer (now : BitVec 64) (s : State) : regs (updTimer now s) = regs s := rfl
theorem regs_updExt (s : State) : regs (updExt s) = regs s := rfl
theorem regs_tick (now : BitVec 64) (s : State) : regs (tick now s) = regs s := rfl
theorem regs_ram (a d : BitVec 32) (s : State) : regs (step s (.ram a d)) = regs s := by
  show regs (if _ then _ else _) = _
  split <;> rfl

theorem regs_startDma (s : State) : regs (startDma s) = { regs s with
    dma := if s.dmaLen ≠ 0#32 ∧ isRam s.dmaSrc s.dmaLen = true ∧ isRam s.dmaDst s.dmaLen = true ∧ s.dmaCtrl &&& 2#32 ≠ 0#32
      then true else s.dmaIrq } := by
  unfold startDma
  by_cases h : s.dmaLen ≠ 0#32 ∧ isRam s.dmaSrc s.dmaLen = true ∧ isRam s.dmaDst s.dmaLen = true
  · rw [if_pos h]
    dsimp only
    by_cases h2 : s.dmaCtrl &&& 2#32 ≠ 0#32
    · rw [if_pos h2, if_pos ⟨h.1, h.2.1, h.2.2, h2⟩]; rfl
    · rw [if_neg h2, if_neg (fun k => h2 k.2.2.2)]; rfl
  · rw [if_neg h, if_neg (fun k => h ⟨k.1, k.2.1, k.2.2.1⟩)]; rfl

theorem mask8 (d : BitVec 32) (f3 : BitVec 3) : maskData d f3 &&& 0xFF#32 = (d.setWidth 8).setWidth 32 := by
  have h : ∀ x : BitVec 32, x &&& 0xFF#32 = (x.setWidth 8).setWidth 32 := by
    intro x
    apply BitVec.eq_of_toNat_eq
    rw [BitVec.toNat_and, BitVec.toNat_setWidth, BitVec.toNat_setWidth]
    have : (0xFF#32).toNat = 2 ^ 8 - 1 := rfl
    rw [this, Nat.and_two_pow_sub_one_eq_mod]
    have := x.isLt
    omega
  rw [h]
  congr 1
  unfold maskData
  split
  · rw [h]
    apply BitVec.eq_of_toNat_eq; simp only [BitVec.toNat_setWidth]; have := d.isLt; omega
  · split
    · apply BitVec.eq_of_toNat_eq
      rw [BitVec.toNat_setWidth, BitVec.toNat_and, BitVec.toNat_setWidth]
      have : (0xFFFF#32).toNat = 2 ^ 16 - 1 := rfl
      rw [this, Nat.and_two_pow_sub_one_eq_mod]
      omega
    · rfl

theorem low_byte (d : BitVec 32) (f3 : BitVec 3) (k : BitVec 8) : maskData d f3 &&& 0xFF#32 = k.setWidth 32 ↔ d.setWidth 8 = k := by
  rw [mask8]
  constructor
  · intro h
    apply BitVec.eq_of_toNat_eq
    have := congrArg BitVec.toNat h
    simp only [BitVec.toNat_setWidth] at this ⊢
    have := k.isLt
    omega
  · intro h; rw [h]

theorem regs_plain (p d : BitVec 32) (f3 : BitVec 3) (s : State) : regs (storePlain p d f3 s) = { regs s with
    uart := if p = uartIer ∧ d.setWidth 8 = 7#8 then true else if p = plicClaim ∧ d.setWidth 8 = 10#8 then false else s.uartIrq
    dma := if p = plicClaim ∧ d.setWidth 8 = 11#8 then false else s.dmaIrq
    out := if p = uartBase then d.setWidth 8 :: s.out else s.out } := by
  unfold storePlain
  dsimp only
  have e7 : maskData d f3 &&& 0xFF#32 = 7#32 ↔ d.setWidth 8 = 7#8 := low_byte d f3 7#8
  have e10 : maskData d f3 &&& 0xFF#32 = 10#32 ↔ d.setWidth 8 = 10#8 := low_byte d f3 10#8
  have e11 : maskData d f3 &&& 0xFF#32 = 11#32 ↔ d.setWidth 8 = 11#8 := low_byte d f3 11#8
  simp only [e7, e10, e11]
  have n1 : uartBase ≠ uartIer := by decide
  have n2 : uartBase ≠ plicClaim := by decide
  have n3 : uartIer ≠ plicClaim := by decide
  have n4 : uartIer ≠ uartBase := by decide
  have n5 : (10#8 : BitVec 8) ≠ 11#8 := by decide
  by_cases h1 : p = uartBase
  · simp only [h1, n1, n2, if_true, if_false, false_and]; rfl
  · by_cases h2 : p = uartIer
    · simp only [h2, n3, n4, if_true, if_false, false_and, true_and]
      by_cases h7 : d.setWidth 8 = 7#8
      · simp only [h7, if_true]; rfl
      · simp only [h7, if_false]; split <;> rfl
    · simp only [h1, h2, if_false, false_and]
      by_cases h3 : p = plicClaim
      · simp only [h3, if_true, true_and, regs_updExt]
        by_cases h10 : d.setWidth 8 = 10#8
        · simp only [h10, n5, if_true, if_false]; rfl
        · by_cases h11 : d.setWidth 8 = 11#8
          · simp only [h11, n5.symm, if_true, if_false]; rfl
          · simp only [h10, h11, if_false]; rfl
      · simp only [h3, if_false, false_and]; rfl

theorem lo_half (x : BitVec 64) (d : BitVec 32) :
    (x &&& 0xFFFFFFFF00000000#64) ||| d.setWidth 64 = (x.extractLsb' 32 32 ++ d : BitVec 64) := by
  apply BitVec.eq_of_getLsbD_eq
  intro i hi
  rw [BitVec.getLsbD_or, BitVec.getLsbD_and, BitVec.getLsbD_append, BitVec.getLsbD_setWidth, BitVec.getLsbD_extractLsb']
  have hm : ∀ i < 64, (0xFFFFFFFF00000000#64).getLsbD i = decide (32 ≤ i) := by decide
  rw [hm i hi, decide_eq_true hi, Bool.true_and]
  by_cases h : i < 32
  · rw [if_pos h, decide_eq_false (by omega)]; simp
  · have e : 32 + (i - 32) = i := by omega
    rw [if_neg h, decide_eq_true (by omega), BitVec.getLsbD_of_ge d i (by omega), decide_eq_true (by omega), e]
    simp

theorem hi_half (x : BitVec 64) (d : BitVec 32) :
    (d.setWidth 64 <<< 32) ||| (x &&& 0x00000000FFFFFFFF#64) = (d ++ x.extractLsb' 0 32 : BitVec 64) := by
  apply BitVec.eq_of_getLsbD_eq
  intro i hi
  rw [BitVec.getLsbD_or, BitVec.getLsbD_and, BitVec.getLsbD_append, BitVec.getLsbD_shiftLeft, BitVec.getLsbD_setWidth,
    BitVec.getLsbD_extractLsb']
  have hm : ∀ i < 64, (0x00000000FFFFFFFF#64).getLsbD i = decide (i < 32) := by decide
  rw [hm i hi, decide_eq_true hi, Bool.true_and]
  by_cases h : i < 32
  · rw [if_pos h, decide_eq_true h, Nat.zero_add]; simp
  · rw [if_neg h, decide_eq_false h, decide_eq_true (show i - 32 < 64 by omega)]; simp

theorem bits01 (d : BitVec 32) : (d &&& 1#32 ≠ 0#32 ↔ d.getLsbD 0 = true) ∧ (d &&& 2#32 &&& 2#32 ≠ 0#32 ↔ d.getLsbD 1 = true) := by
  have h : ∀ k < 2, d &&& (1#32 <<< k) ≠ 0#32 ↔ d.getLsbD k = true := by
    intro k hk
    have hb : ∀ i < 32, (1#32 <<< k).getLsbD i = decide (i = k) := by
      have : ∀ k < 2, ∀ i < 32, (1#32 <<< k).getLsbD i = decide (i = k) := by decide
      exact this k hk
    constructor
    · intro h
      cases hk' : d.getLsbD k with
      | true => rfl
      | false =>
        refine absurd ?_ h
        apply BitVec.eq_of_getLsbD_eq
        intro i hi
        rw [BitVec.getLsbD_and, hb i hi]
        by_cases e : i = k
        · rw [e, hk']; simp
        · rw [decide_eq_false e]; simp
    · intro hk' h
      have := congrArg (fun x => BitVec.getLsbD x k) h
      rw [BitVec.getLsbD_and, hk', hb k (by omega)] at this
      simp at this
  refine ⟨h 0 (by decide), ?_⟩
  have e : d &&& 2#32 &&& 2#32 = d &&& (1#32 <<< 1) := by rw [BitVec.and_assoc]; rfl
  rw [e]
  exact h 1 (by decide)

/-- The registers after a committed store. -/
theorem regs_store (now : BitVec 64) (p d : BitVec 32) (f3 : BitVec 3) (s : State) : regs (store now p d f3 s) = {
    off := if p = timerLow then ((timerNow s now).extractLsb' 32 32 ++ d : BitVec 64) - now
      else if p = timerHigh then (d ++ (timerNow s now).extractLsb' 0 32 : BitVec 64) - now else s.timerOff
    cmp := if p = timerCmpLow then (s.timerCmp.extractLsb' 32 32 ++ d : BitVec 64)
      else if p = timerCmpHigh then (d ++ s.timerCmp.extractLsb' 0 32 : BitVec 64) else s.timerCmp
    src := if p = dmaSrcAddr then d else s.dmaSrc
    dst := if p = dmaDstAddr then d else s.dmaDst
    len := if p = dmaLenAddr then d else s.dmaLen
    uart := if p = uartIer ∧ d.setWidth 8 = 7#8 then true else if p = plicClaim ∧ d.setWidth 8 = 10#8 then false else s.uartIrq
    dma := if p = dmaCtrlAddr ∧ d.getLsbD 0 = true ∧ d.getLsbD 1 = true ∧ InRam s.dmaSrc s.dmaLen ∧ InRam s.dmaDst s.dmaLen then true
      else if p = plicClaim ∧ d.setWidth 8 = 11#8 then false else s.dmaIrq
    out := if p = uartBase then d.setWidth 8 :: s.out else s.out } := by
  obtain ⟨m1, m2, m3, m4, m5, m6, m7, m8, m9, m10, m11, m12⟩ := modeled_regs
  unfold store
  rw [lo_half, hi_half, lo_half, hi_half]
  by_cases hm : modeled p = false
  · rw [if_pos hm]
    have hne : ∀ {q : BitVec 32}, modeled q = true → ¬ p = q := by
      intro q hq e; rw [e, hq] at hm; cases hm
    simp only [hne m1, hne m2, hne m3, hne m4, hne m5, hne m6, hne m7, hne m8, hne m10, hne m11, hne m12, if_false, false_and]
    rfl
  · rw [if_neg hm]
    by_cases h1 : p = timerLow
    · subst h1; simp only [if_true]; rfl
    · by_cases h2 : p = timerHigh
      · subst h2; simp only [h1, if_true, if_false]; rfl
      · by_cases h3 : p = timerCmpLow
        · subst h3; simp only [h1, h2, if_true, if_false]; rfl
        · by_cases h4 : p = timerCmpHigh
          · subst h4; simp only [h1, h2, h3, if_true, if_false]; rfl
          · simp only [h1, h2, h3, h4, if_false]
            by_cases h5 : p = dmaSrcAddr
            · subst h5; simp only [if_true]; rfl
            · by_cases h6 : p = dmaDstAddr
              · subst h6; simp only [h5, if_true, if_false]; rfl
              · by_cases h7 : p = dmaLenAddr
                · subst h7; simp only [h5, h6, if_true, if_false]; rfl
                · simp only [h5, h6, h7, if_false]
                  by_cases h8 : p = dmaCtrlAddr
                  · have a1 : ¬ p = uartIer := by rw [h8]; decide
                    have a2 : ¬ p = plicClaim := by rw [h8]; decide
                    have a3 : ¬ p = uartBase := by rw [h8]; decide
                    rw [if_pos h8]
                    simp only [a1, a2, a3, if_false, false_and, (bits01 d).1]
                    have a4 : p = dmaCtrlAddr ∧ d.getLsbD 0 = true ∧ d.getLsbD 1 = true ∧ InRam s.dmaSrc s.dmaLen ∧
                        InRam s.dmaDst s.dmaLen ↔ d.getLsbD 0 = true ∧ d.getLsbD 1 = true ∧ InRam s.dmaSrc s.dmaLen ∧
                        InRam s.dmaDst s.dmaLen := and_iff_right h8
                    simp only [a4]
                    by_cases hb : d.getLsbD 0 = true
                    · rw [if_pos hb, regs_startDma]
                      have e : (s.dmaLen ≠ 0#32 ∧ isRam s.dmaSrc s.dmaLen = true ∧ isRam s.dmaDst s.dmaLen = true ∧
                          d &&& 2#32 &&& 2#32 ≠ 0#32) ↔
                          (d.getLsbD 0 = true ∧ d.getLsbD 1 = true ∧ InRam s.dmaSrc s.dmaLen ∧ InRam s.dmaDst s.dmaLen) := by
                        rw [isRam_iff, isRam_iff, (bits01 d).2]
                        constructor
                        · rintro ⟨_, h1, h2, h3⟩; exact ⟨hb, h3, h1, h2⟩
                        · rintro ⟨_, h1, h2, h3⟩; exact ⟨h2.1, h2, h3, h1⟩
                      simp only [e]
                      rfl
                    · rw [if_neg hb, if_neg (fun h => hb h.1)]; rfl
                  · simp only [h8, if_false, false_and]
                    by_cases h9 : p = dmaStatusAddr
                    · have a1 : ¬ p = uartIer := by rw [h9]; decide
                      have a2 : ¬ p = plicClaim := by rw [h9]; decide
                      have a3 : ¬ p = uartBase := by rw [h9]; decide
                      rw [if_pos h9]
                      simp only [a1, a2, a3, if_false, false_and]
                      rfl
                    · rw [if_neg h9, regs_plain]
                      rfl

theorem pending_snoc {r : List Ev → Ev → Prop} {k : Ev → Prop} (l : List Ev) (e : Ev) :
    Pending r k (l ++ [e]) ↔ r l e ∨ (Pending r k l ∧ ¬ k e) := by
  constructor
  · rintro ⟨pre, x, post, h, hr, hd⟩
    rcases List.eq_nil_or_concat post with rfl | ⟨q, y, rfl⟩
    · have := List.append_inj' h rfl
      obtain ⟨h1, h2⟩ := this
      cases h2; subst h1
      exact Or.inl hr
    · rw [List.concat_eq_append, ← List.cons_append, ← List.append_assoc] at h
      have := List.append_inj' h rfl
      obtain ⟨h1, h2⟩ := this
      cases h2
      refine Or.inr ⟨⟨pre, x, q, h1, hr, fun z hz => hd z ?_⟩, hd e ?_⟩
      · rw [List.concat_eq_append]; simp [hz]
      · rw [List.concat_eq_append]; simp
  · rintro (h | ⟨⟨pre, x, post, rfl, hr, hd⟩, hk⟩)
    · exact ⟨l, e, [], rfl, h, by simp⟩
    · refine ⟨pre, x, post ++ [e], by simp, hr, ?_⟩
      intro z hz
      rcases List.mem_append.1 hz with hz | hz
      · exact hd z hz
      · rw [List.mem_singleton.1 hz]; exact hk

/-- What the registers are, in terms of the history. -/
structure Inv (l : List Ev) (r : Regs) : Prop where
  clock : ∀ now, clock l now = now + r.off
  alarm : alarm l = r.cmp
  src : last l dmaSrcAddr = r.src
  dst : last l dmaDstAddr = r.dst
  len : last l dmaLenAddr = r.len
  uart : r.uart = true ↔ UartPending l
  dma : r.dma = true ↔ DmaPending l
  out : r.out.reverse = printed l

theorem last_snoc (l : List Ev) (e : Ev) (p : BitVec 32) : last (l ++ [e]) p = (match e with
    | .store _ q d _ => if q = p then d else last l p
    | _ => last l p) := by
  unfold last
  rw [List.foldl_append]
  rfl

theorem clock_snoc (l : List Ev) (e : Ev) : clock (l ++ [e]) = tell (clock l) e := by
  unfold clock
  rw [List.foldl_append]
  rfl

theorem printed_snoc (l : List Ev) (e : Ev) : printed (l ++ [e]) = printed l ++ (match e with
    | .store _ q d _ => if q = uartBase then [d.setWidth 8] else []
    | _ => []) := by
  unfold printed
  rw [List.filterMap_append]
  congr 1
  cases e with
  | store n q d f3 =>
    by_cases h : q = uartBase
    · simp [h]
    · simp [h]
  | tick n => rfl
  | ram a d => rfl

theorem inv_quiet {l : List Ev} {r : Regs} (h : Inv l r) {e : Ev} (he : ∀ n q d f3, e ≠ .store n q d f3) : Inv (l ++ [e]) r := by
  have hu : ¬ UartRaise l e := by rintro ⟨n, d, f3, h, _⟩; exact he _ _ _ _ h
  have hd : ¬ DmaRaise l e := by rintro ⟨n, d, f3, h, _⟩; exact he _ _ _ _ h
  have hc : ∀ k, ¬ Completes k e := by rintro k ⟨n, d, f3, h, _⟩; exact he _ _ _ _ h
  have hl : ∀ p, last (l ++ [e]) p = last l p := by
    intro p; rw [last_snoc]; cases e with
    | store n q d f3 => exact absurd rfl (he n q d f3)
    | tick n => rfl
    | ram a d => rfl
  refine ⟨?_, ?_, ?_, ?_, ?_, ?_, ?_, ?_⟩
  · intro now
    rw [clock_snoc, ← h.clock now]
    cases e with
    | store n q d f3 => exact absurd rfl (he n q d f3)
    | tick n => rfl
    | ram a d => rfl
  · unfold Spec.alarm; rw [hl, hl]; exact h.alarm
  · rw [hl]; exact h.src
  · rw [hl]; exact h.dst
  · rw [hl]; exact h.len
  · unfold UartPending; rw [h.uart, pending_snoc]
    exact ⟨fun k => Or.inr ⟨k, hc _⟩, fun k => k.elim (fun k => absurd k hu) And.left⟩
  · unfold DmaPending; rw [h.dma, pending_snoc]
    exact ⟨fun k => Or.inr ⟨k, hc _⟩, fun k => k.elim (fun k => absurd k hd) And.left⟩
  · rw [h.out, printed_snoc]
    cases e with
    | store n q d f3 => exact absurd rfl (he n q d f3)
    | tick n => exact (List.append_nil _).symm
    | ram a d => exact (List.append_nil _).symm

theorem halves (x : BitVec 64) : x.extractLsb' 32 32 ++ x.extractLsb' 0 32 = x := by
  apply BitVec.eq_of_getLsbD_eq
  intro i hi
  rw [BitVec.getLsbD_append, BitVec.getLsbD_extractLsb', BitVec.getLsbD_extractLsb']
  by_cases h : i < 32
  · rw [if_pos h, decide_eq_true h]; simp
  · have e : 32 + (i - 32) = i := by omega
    rw [if_neg h, e, decide_eq_true (show i - 32 < 32 by omega)]; simp

theorem halves_inj {a b c d : BitVec 32} (h : (a ++ b : BitVec 64) = c ++ d) : a = c ∧ b = d := by
  constructor
  · apply BitVec.eq_of_getLsbD_eq
    intro i hi
    have := congrArg (fun x => BitVec.getLsbD x (i + 32)) h
    rw [BitVec.getLsbD_append, BitVec.getLsbD_append, if_neg (by omega), if_neg (by omega), Nat.add_sub_cancel] at this
    exact this
  · apply BitVec.eq_of_getLsbD_eq
    intro i hi
    have := congrArg (fun x => BitVec.getLsbD x i) h
    rw [BitVec.getLsbD_append, BitVec.getLsbD_append, if_pos hi, if_pos hi] at this
    exact this

theorem shift_time (x now n : BitVec 64) : x + (now - n) = now + (x - n) := by
  rw [BitVec.sub_eq_add_neg, BitVec.sub_eq_add_neg, ← BitVec.add_assoc, ← BitVec.add_assoc, BitVec.add_comm x now]

theorem inv_store {l : List Ev} {s : State} (h : Inv l (regs s)) (n : BitVec 64) (p d : BitVec 32) (f3 : BitVec 3) :
    Inv (l ++ [.store n p d f3]) (regs (store n p d f3 s)) := by
  rw [regs_store]
  have hc : ∀ k, Completes k (.store n p d f3) ↔ p = plicClaim ∧ d.setWidth 8 = k := by
    intro k
    constructor
    · rintro ⟨_, _, _, e, hd⟩; cases e; exact ⟨rfl, hd⟩
    · rintro ⟨rfl, hd⟩; exact ⟨_, _, _, rfl, hd⟩
  have hcl : ∀ now, clock l now = timerNow s now := fun now => h.clock now
  refine ⟨?_, ?_, ?_, ?_, ?_, ?_, ?_, ?_⟩
  · intro now
    rw [clock_snoc]
    unfold tell
    dsimp only
    rw [hcl, hcl]
    by_cases h1 : p = timerLow
    · rw [if_pos h1, if_pos h1, shift_time]
    · rw [if_neg h1, if_neg h1]
      by_cases h2 : p = timerHigh
      · rw [if_pos h2, if_pos h2, shift_time]
      · rw [if_neg h2, if_neg h2]; rfl
  · have ha : last l timerCmpHigh = s.timerCmp.extractLsb' 32 32 ∧ last l timerCmpLow = s.timerCmp.extractLsb' 0 32 := by
      apply halves_inj
      rw [halves]
      exact h.alarm
    unfold Spec.alarm
    rw [last_snoc, last_snoc, ha.1, ha.2]
    dsimp only
    by_cases h1 : p = timerCmpLow
    · rw [if_pos h1, if_pos h1, if_neg (by rw [h1]; decide)]
    · rw [if_neg h1, if_neg h1]
      by_cases h2 : p = timerCmpHigh
      · rw [if_pos h2, if_pos h2]
      · rw [if_neg h2, if_neg h2, halves]
  · rw [last_snoc]; dsimp only; rw [h.src]; rfl
  · rw [last_snoc]; dsimp only; rw [h.dst]; rfl
  · rw [last_snoc]; dsimp only; rw [h.len]; rfl
  · unfold UartPending
    rw [pending_snoc, hc]
    have hr : UartRaise l (.store n p d f3) ↔ p = uartIer ∧ d.setWidth 8 = 7#8 := by
      constructor
      · rintro ⟨_, _, _, e, hd⟩; cases e; exact ⟨rfl, hd⟩
      · rintro ⟨rfl, hd⟩; exact ⟨_, _, _, rfl, hd⟩
    have hu : s.uartIrq = true ↔ Pending UartRaise (Completes 10#8) l := h.uart
    rw [hr, ← hu]
    dsimp only
    by_cases h1 : p = uartIer ∧ d.setWidth 8 = 7#8
    · rw [if_pos h1]; simp [h1]
    · rw [if_neg h1]
      by_cases h2 : p = plicClaim ∧ d.setWidth 8 = 10#8
      · rw [if_pos h2]
        exact ⟨fun h => Bool.noConfusion h, fun h => (h.elim (fun h => h1 h) (fun h => h.2 h2)).elim⟩
      · rw [if_neg h2]; simp only [h1, h2, false_or, not_false_eq_true, and_true]
  · unfold DmaPending
    rw [pending_snoc, hc]
    have hr : DmaRaise l (.store n p d f3) ↔ p = dmaCtrlAddr ∧ d.getLsbD 0 = true ∧ d.getLsbD 1 = true ∧
        InRam s.dmaSrc s.dmaLen ∧ InRam s.dmaDst s.dmaLen := by
      have e1 : last l dmaSrcAddr = s.dmaSrc := h.src
      have e2 : last l dmaDstAddr = s.dmaDst := h.dst
      have e3 : last l dmaLenAddr = s.dmaLen := h.len
      unfold DmaRaise
      rw [e1, e2, e3]
      constructor
      · rintro ⟨_, _, _, e, hd⟩; cases e; exact ⟨rfl, hd⟩
      · rintro ⟨rfl, hd⟩; exact ⟨_, _, _, rfl, hd⟩
    have hu : s.dmaIrq = true ↔ Pending DmaRaise (Completes 11#8) l := h.dma
    rw [hr, ← hu]
    dsimp only
    by_cases h1 : p = dmaCtrlAddr ∧ d.getLsbD 0 = true ∧ d.getLsbD 1 = true ∧ InRam s.dmaSrc s.dmaLen ∧ InRam s.dmaDst s.dmaLen
    · rw [if_pos h1]; simp only [h1, true_or, and_self]
    · rw [if_neg h1]
      by_cases h2 : p = plicClaim ∧ d.setWidth 8 = 11#8
      · rw [if_pos h2]
        exact ⟨fun h => Bool.noConfusion h, fun h => (h.elim (fun h => h1 h) (fun h => h.2 h2)).elim⟩
      · rw [if_neg h2]; simp only [h1, h2, false_or, not_false_eq_true, and_true]
  · rw [printed_snoc]
    dsimp only
    have ho : s.out.reverse = printed l := h.out
    by_cases h1 : p = uartBase
    · rw [if_pos h1, if_pos h1, List.reverse_cons, ho]
    · rw [if_neg h1, if_neg h1, ho, List.append_nil]

theorem run_snoc (l : List Ev) (e : Ev) (s : State) : run (l ++ [e]) s = step (run l s) e := by
  unfold run
  rw [List.foldl_append]
  rfl

theorem inv_run (m : BitVec 32 → BitVec 32) (l : List Ev) : Inv l (regs (run l (.init m))) := by
  have hr : ∀ k : List Ev, Inv k.reverse (regs (run k.reverse (.init m))) := by
    intro k
    induction k with
    | nil =>
      have hp : ∀ r d, ¬ Pending r d [] := by
        rintro r d ⟨pre, e, post, h, _⟩
        simp at h
      refine ⟨fun now => (BitVec.add_zero now).symm, rfl, rfl, rfl, rfl, ?_, ?_, rfl⟩
      · exact ⟨(fun h => Bool.noConfusion h), fun h => absurd h (hp _ _)⟩
      · exact ⟨(fun h => Bool.noConfusion h), fun h => absurd h (hp _ _)⟩
    | cons e k ih =>
      rw [List.reverse_cons, run_snoc]
      cases e with
      | store n p d f3 => exact inv_store ih n p d f3
      | tick n => exact inv_quiet ih (by intro a b c d h; cases h)
      | ram a d => rw [regs_ram]; exact inv_quiet ih (by intro a b c d h; cases h)
  have := hr l.reverse
  rwa [List.reverse_reverse] at this

end Verif.Device.Proofs

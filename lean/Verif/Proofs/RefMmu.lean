import Verif.Model.RefMmu
import Verif.Spec.Sv32
import Verif.Proofs.RefMem

namespace Verif.RefMmu
open Verif.Spec Verif.Spec.Sv32

theorem flag_iff (x : BitVec 32) (n : Nat) : flag x.toNat n ↔ x.getLsbD n = true := by
  unfold flag
  show _ ↔ x.toNat.testBit n = true
  rw [Nat.testBit_eq_decide_div_mod_eq, decide_eq_true_eq]

theorem and_low (x : BitVec 32) (m : BitVec 32) (k : Nat) (hm : m.toNat = 2 ^ k - 1) : (x &&& m).toNat = x.toNat % 2 ^ k := by
  rw [BitVec.toNat_and, hm]; exact Nat.and_two_pow_sub_one_eq_mod _ _

theorem shr_toNat (x : BitVec 32) (k : Nat) : (x >>> k).toNat = x.toNat / 2 ^ k := by
  rw [BitVec.toNat_ushiftRight, Nat.shiftRight_eq_div_pow]

/-- `(x << 12) | y` for `y` below a page, as a 32-bit sum. -/
theorem page_or (x y : BitVec 32) (hy : y.toNat < 2 ^ 12) :
    (x <<< 12) ||| y = BitVec.ofNat 32 (x.toNat * 2 ^ 12 + y.toNat) := by
  apply BitVec.eq_of_toNat_eq
  have hx := x.isLt
  have e : (x <<< 12).toNat = (x.toNat % 2 ^ 20) * 2 ^ 12 := by
    rw [BitVec.toNat_shiftLeft, Nat.shiftLeft_eq]; omega
  rw [BitVec.toNat_or, e, ← Nat.shiftLeft_eq, ← Nat.shiftLeft_add_eq_or_of_lt hy, Nat.shiftLeft_eq, BitVec.toNat_ofNat]
  omega

theorem vpn_shift (v : BitVec 32) (k : Nat) : (((v >>> k) &&& 0x3FF#32) <<< 2).toNat = 4 * (v.toNat / 2 ^ k % 2 ^ 10) := by
  rw [BitVec.toNat_shiftLeft, and_low _ _ 10 (by decide), shr_toNat, Nat.shiftLeft_eq]
  have : v.toNat / 2 ^ k % 2 ^ 10 < 2 ^ 10 := Nat.mod_lt _ (by decide)
  omega

theorem pte1_addr (satp v : BitVec 32) :
    ((satp &&& 0x3FFFFF#32) <<< 12) ||| (((v >>> 22) &&& 0x3FF#32) <<< 2) =
      BitVec.ofNat 32 (satp.toNat % 2 ^ 22 * 2 ^ 12 + 4 * vpn v.toNat 1) := by
  have h := vpn_shift v 22
  have hv : vpn v.toNat 1 < 2 ^ 10 := Nat.mod_lt _ (by decide)
  have hvp : vpn v.toNat 1 = v.toNat / 2 ^ 22 % 2 ^ 10 := rfl
  rw [page_or _ _ (by rw [h]; omega), h, and_low _ _ 22 (by decide), hvp]

theorem pte2_addr (pte v : BitVec 32) :
    (((pte >>> 10) &&& 0x3FFFFF#32) <<< 12) ||| (((v >>> 12) &&& 0x3FF#32) <<< 2) =
      BitVec.ofNat 32 (ppn pte.toNat * 2 ^ 12 + 4 * vpn v.toNat 0) := by
  have h := vpn_shift v 12
  have hv : vpn v.toNat 0 < 2 ^ 10 := Nat.mod_lt _ (by decide)
  have hvp : vpn v.toNat 0 = v.toNat / 2 ^ 12 % 2 ^ 10 := rfl
  have hp := pte.isLt
  have hpp : ppn pte.toNat = pte.toNat / 2 ^ 10 := rfl
  rw [page_or _ _ (by rw [h]; omega), h, and_low _ _ 22 (by decide), shr_toNat, hvp, hpp,
    Nat.mod_eq_of_lt (show pte.toNat / 2 ^ 10 < 2 ^ 22 by omega)]

theorem pa_page (pte v : BitVec 32) :
    (((pte >>> 10) <<< 12) ||| (v &&& 0xFFF#32)) = BitVec.ofNat 32 (ppn pte.toNat * 2 ^ 12 + v.toNat % 2 ^ (12 + 10 * 0)) := by
  have h := and_low v 0xFFF#32 12 (by decide)
  have : v.toNat % 2 ^ 12 < 2 ^ 12 := Nat.mod_lt _ (by decide)
  rw [page_or _ _ (by rw [h]; exact this), h, shr_toNat]
  rfl

theorem super_aligned (pte : BitVec 32) : (pte >>> 10) &&& 0x3FF#32 = 0#32 ↔ ppn pte.toNat % 2 ^ (10 * 1) = 0 := by
  have h := and_low (pte >>> 10) 0x3FF#32 10 (by decide)
  rw [shr_toNat] at h
  constructor
  · intro e; rw [e] at h; exact h.symm
  · intro e; apply BitVec.eq_of_toNat_eq; rw [h]; exact e

theorem pa_super (pte v : BitVec 32) (ha : ppn pte.toNat % 2 ^ (10 * 1) = 0) :
    (((pte <<< 2) &&& 0xFFC00000#32) ||| (v &&& 0x3FFFFF#32)) =
      BitVec.ofNat 32 (ppn pte.toNat * 2 ^ 12 + v.toNat % 2 ^ (12 + 10 * 1)) := by
  have hv := and_low v 0x3FFFFF#32 22 (by decide)
  have hvl : v.toNat % 2 ^ 22 < 2 ^ 22 := Nat.mod_lt _ (by decide)
  have hp := pte.isLt
  have e : ((pte <<< 2) &&& 0xFFC00000#32) = (pte >>> 20) <<< 22 := by
    apply BitVec.eq_of_getLsbD_eq
    intro i hi
    have hm : ∀ i : Fin 32, (0xFFC00000#32).getLsbD i.val = decide (22 ≤ i.val) := by decide
    rw [BitVec.getLsbD_and, hm ⟨i, hi⟩, BitVec.getLsbD_shiftLeft, BitVec.getLsbD_shiftLeft, BitVec.getLsbD_ushiftRight]
    by_cases h : 22 ≤ i
    · have : 20 + (i - 22) = i - 2 := by omega
      simp [hi, h, this, show ¬ i < 2 by omega, show ¬ i < 22 by omega]
    · simp [h, show i < 22 by omega]
  apply BitVec.eq_of_toNat_eq
  have e2 : ((pte >>> 20) <<< 22).toNat = (pte.toNat / 2 ^ 20 % 2 ^ 10) * 2 ^ 22 := by
    rw [BitVec.toNat_shiftLeft, shr_toNat, Nat.shiftLeft_eq]; omega
  rw [BitVec.toNat_or, e, e2, hv, ← Nat.shiftLeft_eq, ← Nat.shiftLeft_add_eq_or_of_lt hvl, Nat.shiftLeft_eq, BitVec.toNat_ofNat]
  have hpp : ppn pte.toNat = pte.toNat / 2 ^ 10 := rfl
  have h3 : (2 : Nat) ^ (12 + 10 * 1) = 2 ^ 22 := rfl
  rw [h3]
  rw [hpp] at ha ⊢
  have : pte.toNat / 2 ^ 10 = pte.toNat / 2 ^ 20 * 2 ^ 10 := by omega
  rw [this]
  omega

/-- The numeric access type. -/
def code : Access → Nat
  | .fetch => 0
  | .load => 1
  | .store => 2

def modeCode : Mode → Nat
  | .user => 0
  | .supervisor => 1

/-- The user-page check of a leaf. -/
def userOk (pte : BitVec 32) (acc : Access) (mode : Mode) (sum : Bool) : Bool :=
  match mode with
  | .user => pte.getLsbD 4
  | .supervisor => !pte.getLsbD 4 || (decide (acc ≠ .fetch) && sum)

theorem permitted_iff (pte : BitVec 32) (acc : Access) (mode : Mode) (sum mxr : Bool) :
    permitted pte.toNat acc mode sum mxr ↔ permOk pte mxr (code acc) = true ∧ userOk pte acc mode sum = true := by
  unfold permitted permOk userOk
  simp only [flag_iff]
  cases acc <;> cases mode <;> simp only [code] <;>
    cases pte.getLsbD 1 <;> cases pte.getLsbD 2 <;> cases pte.getLsbD 3 <;> cases pte.getLsbD 4 <;> cases sum <;>
    cases mxr <;> decide

theorem ad_iff (pte : BitVec 32) (acc : Access) :
    (A pte.toNat ∧ (acc = .store → D pte.toNat)) ↔ adOk pte (code acc) = true := by
  unfold adOk
  simp only [flag_iff]
  cases acc <;> simp only [code] <;> cases pte.getLsbD 6 <;> cases pte.getLsbD 7 <;> decide

end Verif.RefMmu

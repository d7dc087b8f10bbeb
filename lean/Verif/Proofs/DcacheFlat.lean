import Verif.Proofs.DcacheReach
import Verif.Spec.CacheMem

/-
The contents of the data cache as a byte-addressed memory.
-/
namespace Verif.Dcache

open Verif.Spec.ByteMem Verif.Spec.CacheMem

theorem lineOf_nat (a : BitVec 32) : lineOf a = BitVec.ofNat 32 (a.toNat / 64 * 64) := by
  rw [← lineMask_eq]
  unfold lineMask
  have h : a &&& ~~~63#32 = (a >>> 6) <<< 6 := by
    ext i hi
    simp only [BitVec.getElem_and, BitVec.getElem_not, BitVec.getElem_shiftLeft]
    by_cases h6 : i < 6
    · have : (63#32)[i] = true := by
        have : ∀ j : Fin 6, (63#32).getLsbD j.val = true := by decide
        have := this ⟨i, h6⟩
        rw [← BitVec.getLsbD_eq_getElem]; exact this
      rw [this]; simp [h6]
    · have : (63#32)[i] = false := by
        have : ∀ j : Fin 32, 6 ≤ j.val → (63#32).getLsbD j.val = false := by decide
        have := this ⟨i, hi⟩ (by simpa using h6)
        rw [← BitVec.getLsbD_eq_getElem]; exact this
      rw [this]
      simp only [h6, Bool.not_false, Bool.and_true]
      rw [BitVec.getElem_ushiftRight]
      simp only [show 6 + (i - 6) = i by omega]
      simp [BitVec.getLsbD_eq_getElem hi]
  rw [h]
  apply BitVec.eq_of_toNat_eq
  rw [BitVec.toNat_shiftLeft, BitVec.toNat_ushiftRight, BitVec.toNat_ofNat, Nat.shiftLeft_eq, Nat.shiftRight_eq_div_pow]

theorem wordOf_nat (a : BitVec 32) : wordOf a = a.toNat % 64 / 4 := by
  unfold wordOf
  rw [BitVec.toNat_and, BitVec.toNat_ushiftRight, Nat.shiftRight_eq_div_pow]
  have : (15#32).toNat = 2 ^ 4 - 1 := rfl
  rw [this, Nat.and_two_pow_sub_one_eq_mod]
  omega

/-- Same line and same word of it: same word. -/
theorem same_word (a p : BitVec 32) : (lineOf p = lineOf a ∧ wordOf p = wordOf a) ↔ p.toNat / 4 = a.toNat / 4 := by
  rw [lineOf_nat, lineOf_nat, wordOf_nat, wordOf_nat]
  have ha := a.isLt
  have hp := p.isLt
  constructor
  · rintro ⟨h1, h2⟩
    have h1' := congrArg BitVec.toNat h1
    rw [BitVec.toNat_ofNat, BitVec.toNat_ofNat, Nat.mod_eq_of_lt (by omega), Nat.mod_eq_of_lt (by omega)] at h1'
    omega
  · intro h
    have : p.toNat / 64 = a.toNat / 64 := by omega
    rw [this]
    exact ⟨rfl, by omega⟩

theorem flat_eq (B : BitVec 32 → Line) (p : BitVec 32) : flat B p = byteOf (B (lineOf p) (wordOf p)) (p.toNat % 4) := by
  unfold flat; rw [lineOf_nat, wordOf_nat]

theorem byteOf_bit (v : BitVec 32) (i j : Nat) (hj : j < 8) : (byteOf v i).getLsbD j = v.getLsbD (8 * i + j) := by
  unfold byteOf
  rw [BitVec.getLsbD_ofNat]
  simp only [hj, decide_true, Bool.true_and]
  rw [show 256 ^ i = 2 ^ (8 * i) by rw [show (256 : Nat) = 2 ^ 8 from rfl, ← Nat.pow_mul], Nat.testBit_div_two_pow]
  rw [show j + 8 * i = 8 * i + j by omega]
  rfl

theorem byteOf_strobe (d v : BitVec 32) (strb : BitVec 8) (i : Nat) (hi : i < 4) :
    byteOf (strobe d v strb) i = if strb.getLsbD i = true then byteOf v i else byteOf d i := by
  apply BitVec.eq_of_getLsbD_eq
  intro j hj
  rw [byteOf_bit _ _ _ hj, strobe_bit _ _ _ _ (by omega), show (8 * i + j) / 8 = i by omega]
  split
  · rw [byteOf_bit _ _ _ hj]
  · rw [byteOf_bit _ _ _ hj]

/-- One store. -/
theorem flat_put (B : BitVec 32 → Line) (r : St) :
    flat (fun X => if X = lineOf r.addr then (B X).put r else B X) = writeLanes (flat B) r.addr r.data r.strb := by
  funext p
  rw [flat_eq]
  unfold writeLanes
  rw [flat_eq]
  by_cases hl : lineOf p = lineOf r.addr
  · rw [if_pos hl]
    unfold Line.put upd
    by_cases hw : wordOf p = wordOf r.addr
    · rw [if_pos hw, byteOf_strobe _ _ _ _ (Nat.mod_lt _ (by decide))]
      have := (same_word r.addr p).mp ⟨hl, hw⟩
      rw [hw]
      simp only [this, true_and]
    · rw [if_neg hw, if_neg (fun hc => hw ((same_word r.addr p).mpr hc.1).2)]
  · rw [if_neg hl, if_neg (fun hc => hl ((same_word r.addr p).mpr hc.1).1)]

/-- Memory after the stores of a batch that were answered with a hit. -/
def after (m : Mem) (ss : List StResp) : Mem :=
  ss.foldl (fun m r => if r.replay = .hit then writeLanes m r.req.addr r.req.data r.req.strb else m) m

theorem flat_congr {B B' : BitVec 32 → Line} (h : ∀ X, lineOf X = X → B X = B' X) : flat B = flat B' := by
  funext p; rw [flat_eq, flat_eq, h _ (lineOf_idem p)]

theorem flat_after (ss : List StResp) : ∀ B : BitVec 32 → Line, after (flat B) ss = flat (applyHits B ss) := by
  induction ss with
  | nil => intro B; rfl
  | cons r ss ih =>
    intro B
    unfold after
    rw [List.foldl_cons]
    have hstep : (if r.replay = .hit then writeLanes (flat B) r.req.addr r.req.data r.req.strb else flat B) = flat (applyHits B [r]) := by
      by_cases hr : r.replay = .hit
      · rw [if_pos hr, ← flat_put]
        apply flat_congr
        intro X _
        unfold applyHits
        rw [hitsOf_cons]
        by_cases hX : lineOf r.req.addr = X
        · rw [if_pos hX.symm, if_pos ⟨hr, hX⟩]; rfl
        · rw [if_neg (fun hc => hX hc.symm), if_neg (fun hc => hX hc.2)]; rfl
      · rw [if_neg hr]
        apply flat_congr
        intro X _
        unfold applyHits
        rw [hitsOf_cons, if_neg (fun hc => hr hc.1)]; rfl
    rw [hstep]
    have := ih (applyHits B [r])
    unfold after at this
    rw [this]
    apply flat_congr
    intro X _
    unfold applyHits
    rw [← List.foldl_append, ← hitsOf_append]
    rfl

theorem prefix_take (X : BitVec 32) : ∀ (ss : List StResp) (T : List St), T <+: hitsOf X ss → ∃ n, T = hitsOf X (ss.take n)
  | [], T, h => ⟨0, by have : T = [] := List.prefix_nil.mp h; rw [this]; rfl⟩
  | r :: ss, T, h => by
    rw [hitsOf_cons] at h
    by_cases hc : r.replay = .hit ∧ lineOf r.req.addr = X
    · rw [if_pos hc] at h
      cases T with
      | nil => exact ⟨0, rfl⟩
      | cons t T =>
        rw [List.singleton_append, List.cons_prefix_cons] at h
        obtain ⟨n, hn⟩ := prefix_take X ss T h.2
        refine ⟨n + 1, ?_⟩
        rw [List.take_succ_cons, hitsOf_cons, if_pos hc, h.1, hn]; rfl
    · rw [if_neg hc, List.nil_append] at h
      obtain ⟨n, hn⟩ := prefix_take X ss T h
      refine ⟨n + 1, ?_⟩
      rw [List.take_succ_cons, hitsOf_cons, if_neg hc, hn]; rfl

/-- The word at an address. -/
theorem value4 (m : Mem) (p v : BitVec 32) (h : ∀ i, i < 4 → m (p + BitVec.ofNat 32 i) = byteOf v i) : BitVec.ofNat 32 (value m p 4) = v := by
  unfold value value value value value
  rw [h 0 (by decide), h 1 (by decide), h 2 (by decide), h 3 (by decide)]
  unfold byteOf
  simp only [BitVec.toNat_ofNat]
  apply BitVec.eq_of_toNat_eq
  rw [BitVec.toNat_ofNat]
  have := v.isLt
  simp only [Nat.reducePow, Nat.div_one, Nat.mul_one, Nat.zero_add]
  omega

theorem flat_word (B : BitVec 32 → Line) (a : BitVec 32) : word (flat B) a = B (lineOf a) (wordOf a) := by
  unfold word
  apply value4
  intro i hi
  have ha := a.isLt
  have hp : (a - BitVec.ofNat 32 (a.toNat % 4) + BitVec.ofNat 32 i).toNat = a.toNat - a.toNat % 4 + i := by
    rw [BitVec.toNat_add, BitVec.toNat_sub, BitVec.toNat_ofNat, BitVec.toNat_ofNat]
    have : a.toNat % 4 % 2 ^ 32 = a.toNat % 4 := Nat.mod_eq_of_lt (by omega)
    rw [this, Nat.mod_eq_of_lt (a := i) (by omega)]
    have h2 : 2 ^ 32 - a.toNat % 4 + a.toNat = (a.toNat - a.toNat % 4) + 2 ^ 32 := by omega
    rw [h2, Nat.add_mod_right, Nat.mod_add_mod, Nat.mod_eq_of_lt (by omega)]
  have hw := (same_word a (a - BitVec.ofNat 32 (a.toNat % 4) + BitVec.ofNat 32 i)).mpr (by rw [hp]; omega)
  rw [flat_eq, hw.1, hw.2, hp]
  congr 1
  omega

end Verif.Dcache

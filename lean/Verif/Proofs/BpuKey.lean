import Verif.Proofs.BpuType
import Verif.Proofs.BpuRun
/- The entries of the tables, as arithmetic on word addresses. -/
namespace Verif.BpuTab
open Verif.Bpu (W32 BrType)

theorem find_range_min (p : Nat → Bool) : ∀ (n k : Nat), k < n → p k = true → (∀ j, j < k → p j = false) →
    (List.range n).find? p = some k := by
  intro n
  induction n with
  | zero => intro k hk; omega
  | succ n ih =>
    intro k hk hp hmin
    rw [List.range_succ, List.find?_append]
    by_cases hkn : k < n
    · rw [ih k hkn hp hmin]; rfl
    · have : k = n := by omega
      subst this
      have hn : (List.range k).find? p = none := by
        rw [List.find?_eq_none]
        intro j hj
        rw [hmin j (List.mem_range.mp hj)]
        decide
      rw [hn]
      simp [hp]

theorem clog2_pow {m : Nat} (h : m ≤ 32) : clog2 (2 ^ m) = m := by
  unfold clog2
  rw [find_range_min _ 33 m (by omega) (by simp) (fun j hj => ?_)]
  · rfl
  · have : 2 ^ j < 2 ^ m := Nat.pow_lt_pow_right (by omega) hj
    simp only [decide_eq_false_iff_not]
    omega

theorem and_mask {m : Nat} (h : m ≤ 32) (x : W32) : (x &&& BitVec.ofNat 32 (2 ^ m - 1)).toNat = x.toNat % 2 ^ m := by
  rw [BitVec.toNat_and, BitVec.toNat_ofNat]
  have h1 : 2 ^ m ≤ 2 ^ 32 := Nat.pow_le_pow_right (by omega) h
  have h2 : 0 < 2 ^ m := Nat.two_pow_pos m
  rw [Nat.mod_eq_of_lt (by omega), Nat.and_two_pow_sub_one_eq_mod]

/-- Bank, set and tag are the digits of the word address. -/
theorem typeKey_arith {c : Bpu.Cfg} (ok : c.Ok) {tc : TCfg} {m : Nat} (hs : tc.sets = 2 ^ m) (hm : m ≤ 32) (ht : tc.tagBits ≤ 32)
    (pc : W32) :
    typeKey c tc pc = (((pc >>> 2).toNat % c.bankNum, (pc >>> 2).toNat / c.bankNum % 2 ^ m),
      (pc >>> 2).toNat / c.bankNum / 2 ^ m % 2 ^ tc.tagBits) := by
  have hN : 0 < c.bankNum := by have := ok.fetchPos; have := ok.banksFetch; omega
  unfold typeKey
  dsimp only
  rw [hs, and_mask hm, and_mask ht, clog2_pow hm, BitVec.toNat_ushiftRight (x := Bpu.bankPc c pc >>> 2), Bpu.bankPc_word hN,
    Nat.shiftRight_eq_div_pow]
  rfl

theorem digits_iff (B S G x y : Nat) :
    (x % B = y % B ∧ x / B % S = y / B % S ∧ x / B / S % G = y / B / S % G) ↔ x % (B * (S * G)) = y % (B * (S * G)) := by
  rw [Nat.mod_mul, Nat.mod_mul (x := y), Nat.mod_mul (x := x / B), Nat.mod_mul (x := y / B)]
  constructor
  · rintro ⟨h1, h2, h3⟩; rw [h1, h2, h3]
  · intro h
    rcases Nat.eq_zero_or_pos B with hB | hB
    · subst hB; simp_all
    · have e1 := congrArg (· % B) h
      simp only [Nat.add_mul_mod_self_left, Nat.mod_mod] at e1
      have e2 : x / B % S + S * (x / B / S % G) = y / B % S + S * (y / B / S % G) := by
        rw [e1] at h
        exact Nat.eq_of_mul_eq_mul_left hB (Nat.add_left_cancel h)
      refine ⟨e1, ?_⟩
      rcases Nat.eq_zero_or_pos S with hS | hS
      · subst hS; simp_all
      · have e3 := congrArg (· % S) e2
        simp only [Nat.add_mul_mod_self_left, Nat.mod_mod] at e3
        refine ⟨e3, ?_⟩
        rw [e3] at e2
        exact Nat.eq_of_mul_eq_mul_left hS (Nat.add_left_cancel e2)

/-! ### Bounds of the counters -/

theorem typeUpdate_bound {tc : TCfg} (hc : 1 ≤ tc.confMax) (ha : 1 ≤ tc.ageMax) {s : Nat → TEntry} {t : Nat} {ty : BrType} {w : Nat}
    {e : TEntry} (h : typeUpdate tc s t ty = some (w, e)) : e.pay.2 ≤ tc.confMax ∧ e.rank ≤ tc.ageMax := by
  unfold typeUpdate at h
  dsimp only at h
  by_cases hty : ty = .nonctl
  · rw [if_pos hty] at h
    rcases hh : hitWay tc.ways s t with _ | v
    · rw [hh] at h; cases h
    · rw [hh] at h
      simp only [Option.map_some, Option.some.injEq, Prod.mk.injEq] at h
      rw [← h.2]
      exact ⟨Nat.zero_le _, Nat.zero_le _⟩
  · rw [if_neg hty] at h
    generalize (hitWay tc.ways s t).getD (typeVictim tc.ways s) = v at h
    generalize (if (hitWay tc.ways s t).isSome = true then s v else tEmpty) = f at h
    rcases hh : ((hitWay tc.ways s t).isSome && f.pay.1 == ty) with _ | _
    · rw [hh] at h
      simp only [Bool.false_eq_true, if_false, Option.some.injEq, Prod.mk.injEq] at h
      rw [← h.2]
      exact ⟨hc, ha⟩
    · rw [hh] at h
      simp only [if_true, Option.some.injEq, Prod.mk.injEq] at h
      rw [← h.2]
      dsimp only
      constructor
      · split <;> omega
      · split <;> omega

theorem setCycle_bound {tc : TCfg} (hc : 1 ≤ tc.confMax) (ha : 1 ≤ tc.ageMax) {s : Nat → TEntry} (ups : List (Nat × BrType)) :
    ∀ s' : Nat → TEntry, (∀ w, (s' w).pay.2 ≤ tc.confMax ∧ (s' w).rank ≤ tc.ageMax) →
      ∀ w, (setCycle tc s ups s' w).pay.2 ≤ tc.confMax ∧ (setCycle tc s ups s' w).rank ≤ tc.ageMax := by
  induction ups with
  | nil => intro s' h; exact h
  | cons u r ih =>
    intro s' h
    refine ih _ ?_
    intro w
    dsimp only
    rcases hu : typeUpdate tc s u.1 u.2 with _ | ⟨v, e⟩
    · simp only
      exact h w
    · simp only [put]
      by_cases hw : w = v
      · rw [if_pos hw]; exact typeUpdate_bound hc ha hu
      · rw [if_neg hw]; exact h w

theorem table_bound {c : Bpu.Cfg} {tc : TCfg} (hc : 1 ≤ tc.confMax) (ha : 1 ≤ tc.ageMax) (log : TLog) (r : Nat × Nat) :
    ∀ w, (tableOf c tc log r w).pay.2 ≤ tc.confMax ∧ (tableOf c tc log r w).rank ≤ tc.ageMax := by
  induction log with
  | nil => intro w; exact ⟨Nat.zero_le _, Nat.zero_le _⟩
  | cons us l ih =>
    have ht : tableOf c tc (us :: l) r = setCycle tc (tableOf c tc l r) (rowUps c tc r us) (tableOf c tc l r) :=
      typeCycle_set c tc _ _ _
    rw [ht]
    exact setCycle_bound hc ha _ _ ih

/-! ### The main target table -/

theorem indexWidth_pow (m : Nat) : indexWidth (2 ^ m - 1) = m := by
  induction m with
  | zero => rw [indexWidth]; simp
  | succ m ih =>
    have h := Nat.two_pow_pos m
    rw [indexWidth, dif_pos (by rw [Nat.pow_succ]; omega)]
    have : (2 ^ (m + 1) - 1) / 2 = 2 ^ m - 1 := by rw [Nat.pow_succ]; omega
    rw [this, ih]

theorem mask_bit {m : Nat} (hm : m ≤ 32) (x : W32) {i : Nat} (hi : i < m) :
    (x &&& BitVec.ofNat 32 (2 ^ m - 1)).getLsbD i = x.getLsbD i := by
  have h := and_mask hm x
  have h2 : (x &&& BitVec.ofNat 32 (2 ^ m - 1)).toNat.testBit i = x.toNat.testBit i := by
    rw [h, Nat.testBit_mod_two_pow]; simp [hi]
  exact h2

theorem word_of_parts {m : Nat} (hm : m ≤ 32) {v w : W32} (hl : ∀ i, i < m → v.getLsbD i = w.getLsbD i) (hh : v >>> m = w >>> m) :
    v = w := by
  apply BitVec.eq_of_getLsbD_eq
  intro i hi
  by_cases h : i < m
  · exact hl i h
  · have := congrArg (fun x : W32 => x.getLsbD (i - m)) hh
    simp only [BitVec.getLsbD_ushiftRight] at this
    rwa [show m + (i - m) = i from by omega] at this

/-- The index hash loses nothing: it only adds upper bits to the lower ones. -/
theorem hash_inj {m : Nat} (hm : m ≤ 32) {v w salt : W32} (h : hashIndex v (2 ^ m - 1) salt = hashIndex w (2 ^ m - 1) salt)
    (hh : v >>> m = w >>> m) : v = w := by
  refine word_of_parts hm (fun i hi => ?_) hh
  unfold hashIndex at h
  rw [indexWidth_pow] at h
  dsimp only at h
  have hm0 : m ≠ 0 := by omega
  rw [if_neg hm0, if_neg hm0] at h
  have h2 : v >>> (2 * m) = w >>> (2 * m) := by
    rw [Nat.two_mul, BitVec.shiftRight_add, BitVec.shiftRight_add, hh]
  have h3 : v >>> (3 * m) = w >>> (3 * m) := by
    rw [show 3 * m = m + (m + m) from by omega, BitVec.shiftRight_add v, BitVec.shiftRight_add w, hh]
  rw [hh, h2, h3] at h
  have hb := congrArg (fun n : Nat => n.testBit i) h
  have hb' : ((((if 3 * m < 32 then (if 2 * m < 32 then (if m < 32 then v ^^^ w >>> m else v) ^^^ w >>> (2 * m) else
      if m < 32 then v ^^^ w >>> m else v) ^^^ w >>> (3 * m) else if 2 * m < 32 then (if m < 32 then v ^^^ w >>> m else v) ^^^ w >>> (2 * m)
      else if m < 32 then v ^^^ w >>> m else v) ^^^ salt) &&& BitVec.ofNat 32 (2 ^ m - 1)).getLsbD i) =
      ((((if 3 * m < 32 then (if 2 * m < 32 then (if m < 32 then w ^^^ w >>> m else w) ^^^ w >>> (2 * m) else
      if m < 32 then w ^^^ w >>> m else w) ^^^ w >>> (3 * m) else if 2 * m < 32 then (if m < 32 then w ^^^ w >>> m else w) ^^^ w >>> (2 * m)
      else if m < 32 then w ^^^ w >>> m else w) ^^^ salt) &&& BitVec.ofNat 32 (2 ^ m - 1)).getLsbD i) := hb
  rw [mask_bit hm _ hi, mask_bit hm _ hi] at hb'
  clear hb h
  by_cases c1 : m < 32 <;> by_cases c2 : 2 * m < 32 <;> by_cases c3 : 3 * m < 32 <;>
    simp only [c1, c2, c3, if_true, if_false, BitVec.getLsbD_xor] at hb' <;>
    revert hb' <;>
    cases v.getLsbD i <;> cases w.getLsbD i <;> cases (w >>> m).getLsbD i <;> cases (w >>> (2 * m)).getLsbD i <;>
    cases (w >>> (3 * m)).getLsbD i <;> cases salt.getLsbD i <;> simp

/-- Set and tag of the main table, with the address bits above the tag, identify the word. -/
theorem btbKey_inj {b : BCfg} {m : Nat} (he : b.entries = 2 ^ m) (hm : m ≤ 32) (ht : b.tagBits ≤ 32) {p q : W32}
    (hi : btbIdx b p = btbIdx b q) (htag : btbTag b p = btbTag b q)
    (hup : p >>> (2 + m + b.tagBits) = q >>> (2 + m + b.tagBits)) : p >>> 2 = q >>> 2 := by
  have hsh : (p >>> 2) >>> m = (q >>> 2) >>> m := by
    refine word_of_parts ht (fun i hi' => ?_) ?_
    · unfold btbTag at htag
      rw [he, clog2_pow hm] at htag
      have := congrArg (fun n : Nat => n.testBit i) htag
      have h2 : ((p >>> 2) >>> m &&& BitVec.ofNat 32 (2 ^ b.tagBits - 1)).getLsbD i =
          ((q >>> 2) >>> m &&& BitVec.ofNat 32 (2 ^ b.tagBits - 1)).getLsbD i := this
      rwa [mask_bit ht _ hi', mask_bit ht _ hi'] at h2
    · rw [← BitVec.shiftRight_add, ← BitVec.shiftRight_add, ← BitVec.shiftRight_add, ← BitVec.shiftRight_add, ← Nat.add_assoc]
      exact hup
  unfold btbIdx at hi
  rw [he] at hi
  cases hal : b.aliasHash
  · rw [hal] at hi
    simp only [Bool.false_eq_true, if_false] at hi
    refine word_of_parts hm (fun i hi' => ?_) hsh
    have := congrArg (fun n : Nat => n.testBit i) hi
    have h2 : ((p >>> 2) &&& BitVec.ofNat 32 (2 ^ m - 1)).getLsbD i = ((q >>> 2) &&& BitVec.ofNat 32 (2 ^ m - 1)).getLsbD i := this
    rwa [mask_bit hm _ hi', mask_bit hm _ hi'] at h2
  · rw [hal] at hi
    simp only [if_true] at hi
    exact hash_inj hm hi hsh

end Verif.BpuTab

import Verif.Model.Fu
import Verif.Spec.Isa
/-
Helper lemmas relating the C++-level operations of the functional units to the
bit-indexed / arithmetic specification of `Verif.Isa`.
-/
namespace Verif.AluLemmas
open Verif.Isa Verif.CInt

/-- Partial sums of `ofBits`. -/
def psum (f : Nat → Bool) (n : Nat) : Nat :=
  ((List.range n).map (fun i => if f i then 2 ^ i else 0)).sum

theorem psum_succ (f : Nat → Bool) (n : Nat) :
    psum f (n + 1) = psum f n + (if f n then 2 ^ n else 0) := by
  simp [psum, List.range_succ]

theorem psum_lt (f : Nat → Bool) (n : Nat) : psum f n < 2 ^ n := by
  induction n with
  | zero => simp [psum]
  | succ n ih =>
    rw [psum_succ, Nat.pow_succ]
    split <;> omega

theorem psum_testBit (f : Nat → Bool) (n i : Nat) :
    (psum f n).testBit i = (decide (i < n) && f i) := by
  induction n with
  | zero => simp [psum]
  | succ n ih =>
    rw [psum_succ]
    have hlt := psum_lt f n
    by_cases hf : f n
    · simp only [hf, if_true]
      rw [Nat.add_comm]
      by_cases hin : i = n
      · subst hin
        rw [Nat.testBit_two_pow_add_eq, Nat.testBit_lt_two_pow hlt]
        simp [hf]
      · by_cases hlt' : i < n
        · rw [Nat.testBit_two_pow_add_gt hlt', ih]
          simp [hlt', Nat.lt_succ_of_lt hlt']
        · have : 2 ^ n + psum f n < 2 ^ i := by
            have h1 : 2 ^ (n + 1) ≤ 2 ^ i := Nat.pow_le_pow_right (by omega) (by omega)
            rw [Nat.pow_succ] at h1; omega
          rw [Nat.testBit_lt_two_pow this]
          have : ¬ i < n + 1 := by omega
          simp [this]
    · simp only [hf, Bool.false_eq_true, if_false, Nat.add_zero, ih]
      by_cases hin : i = n
      · subst hin; simp [hf]
      · have : i < n ↔ i < n + 1 := by omega
        simp [this]

theorem getLsbD_ofBits (f : Nat → Bool) (i : Nat) :
    (ofBits f).getLsbD i = (decide (i < 32) && f i) := by
  have h : ofBits f = BitVec.ofNat 32 (psum f 32) := rfl
  rw [h, BitVec.getLsbD_ofNat, psum_testBit]
  by_cases hi : i < 32 <;> simp [hi]

theorem eq_ofBits {x : Word} {f : Nat → Bool} (h : ∀ i, i < 32 → x.getLsbD i = f i) :
    x = ofBits f := by
  apply BitVec.eq_of_getLsbD_eq
  intro i hi
  rw [getLsbD_ofBits, h i hi]; simp [hi]

theorem shamt_eq (b : Word) : (b &&& 0x1F#32).toNat = b.toNat % 32 := by
  rw [BitVec.toNat_and]
  exact Nat.and_two_pow_sub_one_eq_mod b.toNat 5

theorem shamt_lt (b : Word) : b.toNat % 32 < 32 := Nat.mod_lt _ (by omega)

theorem shl_some {a : W32} {n : Nat} (h : n < 32) : shl a n = some (a <<< n) := by simp [shl, h]
theorem shr_some {a : W32} {n : Nat} (h : n < 32) : shr a n = some (a >>> n) := by simp [shr, h]
theorem sar_some {a : W32} {n : Nat} (h : n < 32) : sar a n = some (a.sshiftRight n) := by
  simp [sar, h]

theorem ofBool_flag (p : Prop) [Decidable p] (b : Bool) (h : b = true ↔ p) :
    ofBool b = flag p := by
  unfold ofBool flag
  by_cases hp : p
  · simp [hp, h.2 hp]
  · have : b = false := by cases b <;> simp_all
    simp [hp, this]

theorem bit_test (b : W32) (i : Nat) : ((b >>> i) &&& 1#32 = 1#32) ↔ b.getLsbD i = true := by
  constructor
  · intro h
    have := congrArg (fun x => x.getLsbD 0) h
    simpa using this
  · intro h
    apply BitVec.eq_of_getLsbD_eq
    intro j hj
    by_cases h0 : j = 0
    · subst h0; simp [h]
    · simp [BitVec.getLsbD_one, h0]

/-! ### single-bit masks -/

theorem getLsbD_one_shl (s i : Nat) (hi : i < 32) :
    (1#32 <<< s).getLsbD i = decide (i = s) := by
  rw [BitVec.getLsbD_shiftLeft]
  by_cases h : i = s
  · subst h; simp [hi]
  · by_cases h2 : i < s
    · simp [h2, h]
    · have : ¬ (i - s = 0) := by omega
      simp [BitVec.getLsbD_one, h, this]

/-! ### rotates -/

theorem rol_eq (a : Word) (s : Nat) (h0 : 0 < s) (h : s < 32) :
    (a <<< s) ||| (a >>> (32 - s)) = ofBits fun i => a.getLsbD ((i + (32 - s)) % 32) := by
  apply eq_ofBits
  intro i hi
  rw [BitVec.getLsbD_or, BitVec.getLsbD_shiftLeft, BitVec.getLsbD_ushiftRight]
  by_cases hs : i < s
  · have e : (i + (32 - s)) % 32 = 32 - s + i := by rw [Nat.mod_eq_of_lt] <;> omega
    simp [hs, e]
  · have e : (i + (32 - s)) % 32 = i - s := by
      have : i + (32 - s) = (i - s) + 32 := by omega
      rw [this, Nat.add_mod_right, Nat.mod_eq_of_lt]; omega
    have hz : a.getLsbD (32 - s + i) = false := BitVec.getLsbD_of_ge _ _ (by omega)
    simp [hs, e, hi, hz]

theorem ror_eq (a : Word) (s : Nat) (h0 : 0 < s) (h : s < 32) :
    (a >>> s) ||| (a <<< (32 - s)) = ofBits fun i => a.getLsbD ((i + s) % 32) := by
  apply eq_ofBits
  intro i hi
  rw [BitVec.getLsbD_or, BitVec.getLsbD_shiftLeft, BitVec.getLsbD_ushiftRight]
  by_cases hs : i < 32 - s
  · have e : (i + s) % 32 = s + i := by rw [Nat.mod_eq_of_lt] <;> omega
    simp [hs, e]
  · have e : (i + s) % 32 = i - (32 - s) := by
      have : i + s = (i - (32 - s)) + 32 := by omega
      rw [this, Nat.add_mod_right, Nat.mod_eq_of_lt]; omega
    have hz : a.getLsbD (s + i) = false := BitVec.getLsbD_of_ge _ _ (by omega)
    simp [hs, e, hi, hz]

/-! ### carry-less multiplication -/

/-- One bit of a xor-accumulating loop. -/
theorem foldl_xor_bit (l : List Nat) (c : Nat → Bool) (g : Nat → Word) (acc : Word) (k : Nat) :
    (l.foldl (fun out i => if c i then out ^^^ g i else out) acc).getLsbD k =
      (acc.getLsbD k ^^ (l.countP (fun i => c i && (g i).getLsbD k) % 2 == 1)) := by
  induction l generalizing acc with
  | nil => simp
  | cons x xs ih =>
    rw [List.foldl_cons, ih, List.countP_cons]
    cases hc : c x
    · simp
    · cases hg : (g x).getLsbD k
      · simp [hg]
      · simp only [if_true, BitVec.getLsbD_xor, hg, Bool.and_self]
        rcases Nat.mod_two_eq_zero_or_one (List.countP (fun i => c i && (g i).getLsbD k) xs)
          with h | h
        · have h' : (List.countP (fun i => c i && (g i).getLsbD k) xs + 1) % 2 = 1 := by omega
          simp [h, h']
        · have h' : (List.countP (fun i => c i && (g i).getLsbD k) xs + 1) % 2 = 0 := by omega
          simp [h, h']

/-- Counting a predicate that vanishes beyond `n`. -/
theorem countP_range_trunc (p : Nat → Bool) (n m : Nat) (h : n ≤ m)
    (hp : ∀ i, n ≤ i → i < m → p i = false) :
    (List.range m).countP p = (List.range n).countP p := by
  induction m with
  | zero => have : n = 0 := by omega
            subst this; rfl
  | succ m ih =>
    by_cases hn : n = m + 1
    · subst hn; rfl
    · rw [List.range_succ, List.countP_append, ih (by omega) (fun i h1 h2 => hp i h1 (by omega))]
      simp [hp m (by omega) (by omega)]

theorem loop_cond (b : W32) (g : Nat → W32) :
    (fun (out : W32) (i : Nat) => if (b >>> i) &&& 1#32 = 1#32 then out ^^^ g i else out) =
      (fun out i => if b.getLsbD i then out ^^^ g i else out) := by
  funext out i
  by_cases h : b.getLsbD i = true
  · rw [if_pos ((bit_test b i).2 h), if_pos h]
  · rw [if_neg (fun hh => h ((bit_test b i).1 hh)), if_neg h]

theorem clmulLoop_eq (a b : Word) : Fu.clmulLoop a b = ofBits fun i => clmulBit a b i := by
  apply eq_ofBits
  intro k hk
  rw [Fu.clmulLoop, loop_cond b (fun i => a <<< i), foldl_xor_bit]
  simp only [BitVec.getLsbD_zero, Bool.false_xor, clmulBit]
  rw [countP_range_trunc _ (k + 1) 32 (by omega)]
  · congr 2
    apply List.countP_congr
    intro i hi
    have hik : ¬ k < i := by have := List.mem_range.1 hi; omega
    rw [BitVec.getLsbD_shiftLeft]
    simp only [hk, hik, decide_true, decide_false, Bool.not_false, Bool.true_and]
  · intro i h1 h2
    have : k < i := by omega
    simp [this]

theorem clmulrLoop_eq (a b : Word) :
    Fu.clmulrLoop a b = ofBits fun i => clmulBit a b (i + 31) := by
  apply eq_ofBits
  intro k hk
  rw [Fu.clmulrLoop, loop_cond b (fun i => a >>> (31 - i)), foldl_xor_bit]
  simp only [BitVec.getLsbD_zero, Bool.false_xor, clmulBit]
  rw [countP_range_trunc (fun i => b.getLsbD i && a.getLsbD (k + 31 - i)) 32 (k + 31 + 1) (by omega)]
  · congr 2
    apply List.countP_congr
    intro i hi
    have hi := List.mem_range.1 hi
    have e : 31 - i + k = k + 31 - i := by omega
    simp [e]
  · intro i h1 h2
    simp [BitVec.getLsbD_of_ge b i h1]

theorem clmulhLoop_eq (a b : Word) :
    Fu.clmulhLoop a b = ofBits fun i => clmulBit a b (i + 32) := by
  apply eq_ofBits
  intro k hk
  rw [Fu.clmulhLoop, loop_cond b (fun i => a >>> (32 - i)), foldl_xor_bit]
  simp only [BitVec.getLsbD_zero, Bool.false_xor, clmulBit]
  rw [countP_range_trunc (fun i => b.getLsbD i && a.getLsbD (k + 32 - i)) 32 (k + 32 + 1) (by omega)]
  · have hr : List.range 32 = 0 :: List.range' 1 31 := rfl
    rw [hr, List.countP_cons]
    have hz : a.getLsbD (k + 32 - 0) = false := BitVec.getLsbD_of_ge _ _ (by omega)
    rw [hz]
    simp only [Bool.and_false, Bool.false_eq_true, if_false, Nat.add_zero]
    congr 2
    apply List.countP_congr
    intro i hi
    have hi := List.mem_range'_1.1 hi
    have e : 32 - i + k = k + 32 - i := by omega
    simp [e]
  · intro i h1 h2
    simp [BitVec.getLsbD_of_ge b i h1]

/-! ### count leading / trailing zeros -/

theorem isClz_log2 (a : Word) (ha : a ≠ 0#32) : IsClz a (31 - Nat.log2 a.toNat) := by
  have hne : a.toNat ≠ 0 := fun h => ha (BitVec.eq_of_toNat_eq (by simpa using h))
  have hlt : Nat.log2 a.toNat < 32 := (Nat.log2_lt hne).2 a.isLt
  refine ⟨by omega, ?_, ?_⟩
  · intro i h1 h2
    have : a.toNat < 2 ^ i := Nat.lt_of_lt_of_le Nat.lt_log2_self
      (Nat.pow_le_pow_right (by omega) (by omega))
    rw [BitVec.getLsbD, Nat.testBit_lt_two_pow this]
  · intro _
    have e : 31 - (31 - Nat.log2 a.toNat) = Nat.log2 a.toNat := by omega
    rw [e, BitVec.getLsbD]
    exact Nat.testBit_log2 hne

theorem ctzFrom_spec (a : W32) (fuel i : Nat) (h : i + fuel = 32)
    (hz : ∀ j, j < i → a.getLsbD j = false) : IsCtz a (ctzFrom a fuel i) := by
  induction fuel generalizing i with
  | zero =>
    simp only [ctzFrom]
    exact ⟨by omega, hz, by omega⟩
  | succ n ih =>
    simp only [ctzFrom]
    by_cases hb : a.getLsbD i = true
    · simp only [hb, if_true]
      exact ⟨by omega, hz, fun _ => hb⟩
    · simp only [hb]
      apply ih (i + 1) (by omega)
      intro j hj
      by_cases hj' : j = i
      · subst hj'; simpa using hb
      · exact hz j (by omega)

theorem popcount_eq (a : W32) :
    builtinPopcount a = (List.range 32).countP fun i => a.getLsbD i := by
  unfold builtinPopcount
  generalize List.range 32 = l
  induction l with
  | nil => rfl
  | cons x xs ih =>
    simp only [List.map_cons, List.sum_cons, List.countP_cons, ih]
    cases a.getLsbD x <;> simp <;> omega

end Verif.AluLemmas

import Verif.Spec.Bpu
/- The history registers hold the last outcomes and their folds. -/
namespace Verif.Bpu

/-! ### Parities -/

/-- Parity of the `i < n` with `p i`. -/
def par (n : Nat) (p : Nat → Bool) : Bool := ((List.range n).filter p).length % 2 == 1

theorem par_zero (p : Nat → Bool) : par 0 p = false := rfl

theorem par_succ (n : Nat) (p : Nat → Bool) : par (n + 1) p = (par n p ^^ p n) := by
  unfold par
  rw [List.range_succ, List.filter_append, List.length_append]
  rcases hp : p n with _ | _
  · simp [hp]
  · simp only [List.filter_cons, hp, if_true, List.filter_nil, List.length_singleton]
    generalize ((List.range n).filter p).length = m
    rcases Nat.mod_two_eq_zero_or_one m with h | h
    · have h' : (m + 1) % 2 = 1 := by omega
      simp [h, h']
    · have h' : (m + 1) % 2 = 0 := by omega
      simp [h, h']

theorem par_congr {n : Nat} {p q : Nat → Bool} (h : ∀ i, i < n → p i = q i) : par n p = par n q := by
  induction n with
  | zero => rfl
  | succ n ih => rw [par_succ, par_succ, ih (fun i hi => h i (by omega)), h n (by omega)]

theorem par_shift (n : Nat) (p : Nat → Bool) : par (n + 1) p = (p 0 ^^ par n (fun i => p (i + 1))) := by
  induction n with
  | zero => rw [par_succ, par_zero, par_zero]; simp
  | succ n ih => rw [par_succ, ih, par_succ]; simp [Bool.xor_assoc]

/-! ### Bits -/

theorem bit_getLsb (b : Bool) (j : Nat) : (bit b).getLsbD j = (decide (j = 0) && b) := by
  unfold bit
  cases b <;> simp [BitVec.getLsbD_one]
  
theorem maskLow_getLsb {n : Nat} (hn : n < 32) (j : Nat) (hj : j < 32) :
    ((1#32 <<< n) - 1#32).getLsbD j = decide (j < n) := by
  have h1 : ((1#32 <<< n) - 1#32) = BitVec.ofNat 32 (2 ^ n - 1) := by
    apply BitVec.eq_of_toNat_eq
    have hlt : 2 ^ n < 2 ^ 32 := Nat.pow_lt_pow_right (by omega) hn
    have hpos : 0 < 2 ^ n := Nat.two_pow_pos n
    rw [BitVec.toNat_sub, BitVec.toNat_shiftLeft, BitVec.toNat_ofNat, BitVec.toNat_ofNat, Nat.shiftLeft_eq]
    simp only [show 1 % 2 ^ 32 = 1 from rfl, Nat.one_mul]
    rw [Nat.mod_eq_of_lt hlt, Nat.mod_eq_of_lt (show 2 ^ n - 1 < 2 ^ 32 by omega)]
    rw [show 2 ^ 32 - 1 + 2 ^ n = 2 ^ 32 + (2 ^ n - 1) by omega, Nat.add_mod_left, Nat.mod_eq_of_lt (by omega)]
  rw [h1, BitVec.getLsbD_ofNat, Nat.testBit_two_pow_sub_one]
  simp [hj]

theorem test_high (v : W32) (n : Nat) : decide ((v >>> n) &&& 1#32 ≠ 0#32) = v.getLsbD n := by
  have h : (v >>> n) &&& 1#32 = bit (v.getLsbD n) := by
    apply BitVec.eq_of_getLsbD_eq
    intro j hj
    rw [BitVec.getLsbD_and, bit_getLsb, BitVec.getLsbD_ushiftRight, BitVec.getLsbD_one]
    by_cases h0 : j = 0
    · subst h0; simp
    · simp [h0]
  rw [h]
  cases v.getLsbD n <;> decide

/-- The bits of one folded register after an update. -/
theorem fhUpd_bits (c : Cfg) (fh : Nat → Nat → W32) (g : Nat → Bool) (d : Bool) (k i j : Nat) (hj : j < 32)
    (hlen : 0 < c.fhLen k i ∧ c.fhLen k i < 32) :
    (fhUpd c fh g d k i).getLsbD j =
      ((if j = 0 then d ^^ (fh k i).getLsbD (c.fhLen k i - 1)
        else decide (j < c.fhLen k i) && (fh k i).getLsbD (j - 1))
       ^^ (decide (j = c.tnLen i % c.fhLen k i) && g (c.tnLen i - 1))) := by
  have hm : c.tnLen i % c.fhLen k i < c.fhLen k i := Nat.mod_lt _ hlen.1
  unfold fhUpd
  dsimp only
  rw [BitVec.getLsbD_xor, BitVec.getLsbD_or, BitVec.getLsbD_and, BitVec.getLsbD_shiftLeft, BitVec.getLsbD_shiftLeft,
    maskLow_getLsb hlen.2 j hj, bit_getLsb, bit_getLsb, test_high]
  congr 1
  · by_cases h0 : j = 0
    · subst h0; simp
    · simp only [h0, if_false, decide_false, Bool.false_and, Bool.or_false, hj, decide_true, Bool.true_and]
      rw [show decide (j < 1) = false by simp [h0]]
      simp [Bool.and_comm]
  · by_cases he : j = c.tnLen i % c.fhLen k i
    · subst he; simp [hj]
    · by_cases hlt : j < c.tnLen i % c.fhLen k i
      · simp [he, hlt]
      · have : j - c.tnLen i % c.fhLen k i ≠ 0 := by omega
        simp [he, hlt, this]

theorem folded_par (l : List Br) (n len j : Nat) :
    folded l n len j = par n (fun i => i % len == j && outcome l i) := rfl

theorem outcome_cons_zero (p : Br) (l : List Br) : outcome (p :: l) 0 = p.2 := rfl

theorem outcome_cons_succ (p : Br) (l : List Br) (i : Nat) : outcome (p :: l) (i + 1) = outcome l i := rfl

/-- Folding one more outcome. -/
theorem folded_cons (p : Br) (l : List Br) {n len j : Nat} (hn : 0 < n) (hlen : 0 < len) (hj : j < len) :
    folded (p :: l) n len j =
      ((if j = 0 then p.2 ^^ folded l n len (len - 1) else folded l n len (j - 1))
        ^^ (decide (j = n % len) && outcome l (n - 1))) := by
  obtain ⟨m, rfl⟩ : ∃ m, n = m + 1 := ⟨n - 1, by omega⟩
  rw [folded_par, par_shift]
  -- the shifted sum, over one more term
  have hs : ∀ x : Nat, (((x + 1) % len == j) : Bool) = (if j = 0 then x % len == len - 1 else x % len == j - 1) := by
    intro x
    have hx : x % len < len := Nat.mod_lt _ hlen
    have h2 : (x + 1) % len = if x % len = len - 1 then 0 else x % len + 1 := by
      rw [Nat.add_mod]
      split
      · next h =>
        rw [h]
        by_cases h1 : len = 1
        · subst h1; rfl
        · rw [Nat.mod_eq_of_lt (show 1 < len by omega), show len - 1 + 1 = len by omega, Nat.mod_self]
      · next h =>
        have h1 : len ≠ 1 := by intro h1; subst h1; omega
        rw [Nat.mod_eq_of_lt (show 1 < len by omega), Nat.mod_eq_of_lt (by omega)]
    rw [h2, Bool.eq_iff_iff]
    by_cases h0 : j = 0
    · by_cases hc : x % len = len - 1 <;> simp [h0, hc]
    · by_cases hc : x % len = len - 1
      · simp [h0, hc]; omega
      · simp [h0, hc]; omega
  have key : par m (fun i => ((i + 1) % len == j) && outcome l i) =
      ((if j = 0 then folded l (m + 1) len (len - 1) else folded l (m + 1) len (j - 1))
        ^^ (decide (j = (m + 1) % len) && outcome l m)) := by
    have h3 : par (m + 1) (fun i => ((i + 1) % len == j) && outcome l i) =
        (if j = 0 then folded l (m + 1) len (len - 1) else folded l (m + 1) len (j - 1)) := by
      split
      · next h0 =>
        rw [folded_par]
        refine par_congr (fun i _ => ?_)
        rw [hs i, if_pos h0]
      · next h0 =>
        rw [folded_par]
        refine par_congr (fun i _ => ?_)
        rw [hs i, if_neg h0]
    rw [← h3, par_succ]
    have h4 : (((m + 1) % len == j) : Bool) = decide (j = (m + 1) % len) := by
      rw [Bool.eq_iff_iff]; simp; exact ⟨fun h => h.symm, fun h => h.symm⟩
    rw [h4, Bool.xor_assoc, Bool.xor_self, Bool.xor_false]
  have e0 : (fun i => ((i + 1) % len == j) && outcome (p :: l) (i + 1)) =
      (fun i => ((i + 1) % len == j) && outcome l i) := by
    funext i; rw [outcome_cons_succ]
  rw [e0, key, outcome_cons_zero, Nat.add_sub_cancel]
  by_cases h0 : j = 0
  · subst h0
    simp [Bool.xor_assoc]
  · have : ((0 % len == j) : Bool) = false := by
      rw [Nat.zero_mod]
      simp; omega
    rw [this]
    simp [h0]

/-- A branch enters the history. -/
theorem reps_push {c : Cfg} (ok : c.Ok) {l : List Br} {h : GHist} (r : Reps c l h) (pc : W32) (d : Bool) :
    Reps c ((pc, d) :: l) (h.push c pc d) where
  ghr i hi := by
    show ghrUpd c h.ghr d i = _
    unfold ghrUpd
    cases i with
    | zero => rfl
    | succ i =>
      rw [if_neg (by omega), if_pos hi, Nat.add_sub_cancel, outcome_cons_succ]
      exact r.ghr i (by omega)
  fh k hk i hi j hj := by
    show (fhUpd c h.fh h.ghr d k i).getLsbD j = _
    have hl := ok.fh k hk i hi
    have ht := ok.tn i hi
    rw [fhUpd_bits c _ _ _ _ _ _ hj hl]
    by_cases hjl : j < c.fhLen k i
    · rw [folded_cons _ _ ht.1 hl.1 hjl, r.ghr _ (by omega)]
      rw [r.fh k hk i hi _ (show c.fhLen k i - 1 < 32 by omega), r.fh k hk i hi _ (show j - 1 < 32 by omega)]
      simp only [hjl, decide_true, Bool.true_and, show c.fhLen k i - 1 < c.fhLen k i by omega,
        show j - 1 < c.fhLen k i by omega]
    · have hm : c.tnLen i % c.fhLen k i < c.fhLen k i := Nat.mod_lt _ hl.1
      have h0 : j ≠ 0 := by omega
      have h1 : j ≠ c.tnLen i % c.fhLen k i := by omega
      simp [hjl, h0, h1]
  path := by
    show pathUpd c h.path pc d = _
    rw [r.path]; rfl

theorem reps_nil (c : Cfg) : Reps c [] ⟨fun _ => false, fun _ _ => 0#32, 0#32⟩ where
  ghr _ _ := rfl
  fh k _ i _ j _ := by
    have : ∀ n p, (∀ i, p i = false) → par n p = false := by
      intro n p hp
      induction n with
      | zero => rfl
      | succ n ih => rw [par_succ, ih, hp]; rfl
    rw [folded_par, this _ _ (fun i => by simp [outcome])]
    simp
  path := rfl

/-! ### The path register -/

theorem pathMask_getLsb {c : Cfg} (h : 0 < c.pathBits ∧ c.pathBits ≤ 32) (j : Nat) (hj : j < 32) :
    (pathMask c).getLsbD j = decide (j < c.pathBits) := by
  unfold pathMask
  split
  · next he =>
    rw [he]
    have : (0xffffffff#32) = BitVec.allOnes 32 := by decide
    rw [this, BitVec.getLsbD_allOnes]
  · next he => exact maskLow_getLsb (by omega) j hj

/-- The bits of the path register come from the newest branches. -/
theorem pathOf_low (c : Cfg) (n : Nat) (l l' : List Br) (h : l.take n = l'.take n)
    (hb : 0 < c.pathBits ∧ c.pathBits ≤ 32) :
    ∀ j, j < n → j < 32 → (pathOf c l).getLsbD j = (pathOf c l').getLsbD j := by
  induction n generalizing l l' with
  | zero => intro j hj; omega
  | succ n ih =>
    intro j hj hj32
    cases l with
    | nil =>
      cases l' with
      | nil => rfl
      | cons p r' => simp at h
    | cons p r =>
      cases l' with
      | nil => simp at h
      | cons p' r' =>
        obtain ⟨rfl, hr⟩ : p = p' ∧ r.take n = r'.take n := by simpa using h
        obtain ⟨pc, d⟩ := p
        show (pathUpd c (pathOf c r) pc d).getLsbD j = (pathUpd c (pathOf c r') pc d).getLsbD j
        unfold pathUpd
        dsimp only
        simp only [BitVec.getLsbD_and, BitVec.getLsbD_xor, BitVec.getLsbD_shiftLeft]
        by_cases h0 : j = 0
        · subst h0; simp
        · rw [ih r r' hr (j - 1) (by omega) (by omega)]

theorem pathOf_recent (c : Cfg) (hb : 0 < c.pathBits ∧ c.pathBits ≤ 32) (l l' : List Br)
    (h : l.take c.pathBits = l'.take c.pathBits) : pathOf c l = pathOf c l' := by
  apply BitVec.eq_of_getLsbD_eq
  intro j hj
  by_cases hlt : j < c.pathBits
  · exact pathOf_low c _ l l' h hb j hlt hj
  · have hz : ∀ m : List Br, (pathOf c m).getLsbD j = false := by
      intro m
      cases m with
      | nil => simp [pathOf]
      | cons p r =>
        show (pathUpd c (pathOf c r) p.1 p.2).getLsbD j = false
        unfold pathUpd
        dsimp only
        rw [BitVec.getLsbD_and, pathMask_getLsb hb j hj]
        simp [hlt]
    rw [hz, hz]

end Verif.Bpu

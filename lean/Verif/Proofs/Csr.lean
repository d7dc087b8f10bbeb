import Verif.Spec.CsrSpec
namespace Verif.Csr.Proofs
open Verif.Csr.Spec

theorem on_bit (x : BitVec 32) (i : Nat) (hi : i < 32) : on x (1#32 <<< i) = x.getLsbD i := by
  unfold on
  rw [← BitVec.twoPow_eq, BitVec.and_twoPow]
  cases x.getLsbD i with
  | false => simp
  | true =>
    simp only [if_true, bne_iff_ne, ne_eq]
    intro h
    have := congrArg (·.getLsbD i) h
    simp [hi] at this

theorem bit_eq (x : BitVec 32) (i : Nat) : bit x i = x.getLsbD i := by
  unfold bit
  have h : (x >>> i) &&& 1#32 = if (x >>> i).getLsbD 0 then 1#32 else 0#32 := by
    have := BitVec.and_twoPow (x >>> i) 0
    simpa [BitVec.twoPow_eq] using this
  rw [h]
  simp only [BitVec.getLsbD_ushiftRight, Nat.add_zero]
  cases x.getLsbD i <;> decide

theorem set_same (f : File) (r : Reg) (v : BitVec 32) : set f r v r = v := by simp [set]
theorem set_other (f : File) {r q : Reg} (v : BitVec 32) (h : q ≠ r) : set f r v q = f q := by simp [set, h]

/-! ### Views -/

/-- The masks select the architectural fields. -/
theorem view_status (m : BitVec 32) : View sstatusFields m (m &&& sstatusMask) := by
  have h : ∀ i < 32, sstatusMask.getLsbD i = decide (i ∈ sstatusFields) := by decide +kernel
  intro i hi
  rw [BitVec.getLsbD_and, h i hi, Bool.and_comm]

theorem view_int (m : BitVec 32) : View sinterruptFields m (m &&& sieMask) := by
  have h : ∀ i < 32, sieMask.getLsbD i = decide (i ∈ sinterruptFields) := by decide +kernel
  intro i hi
  rw [BitVec.getLsbD_and, h i hi, Bool.and_comm]

theorem view_unique {fields : List Nat} {m v w : BitVec 32} (h1 : View fields m v) (h2 : View fields m w) :
    v = w := by
  apply BitVec.eq_of_getLsbD_eq
  intro i hi
  rw [h1 i hi, h2 i hi]

structure Inv (f : File) : Prop where
  status : f .sstatus = f .mstatus &&& sstatusMask
  ie : f .sie = f .mie &&& sieMask
  ip : f .sip = f .mip &&& sieMask

theorem inv_iff (f : File) : Inv f ↔ Consistent f := by
  constructor
  · intro h
    exact ⟨by rw [h.status]; exact view_status _, by rw [h.ie]; exact view_int _, by rw [h.ip]; exact view_int _⟩
  · intro h
    exact ⟨view_unique h.status (view_status _), view_unique h.ie (view_int _), view_unique h.ip (view_int _)⟩

theorem merge_and (m s k : BitVec 32) : ((m &&& ~~~k) ||| (s &&& k)) &&& k = s &&& k := by
  ext i hi
  simp only [BitVec.getElem_and, BitVec.getElem_or, BitVec.getElem_not]
  cases m[i] <;> cases s[i] <;> cases k[i] <;> rfl

theorem copyFlag_mask {x k a b : BitVec 32} (hb : b &&& k = b) (hx : x &&& k = x) :
    copyFlag x a b &&& k = copyFlag x a b := by
  unfold copyFlag
  have e1 : (x ||| b) &&& k = (x &&& k) ||| (b &&& k) := by
    ext i hi
    simp only [BitVec.getElem_and, BitVec.getElem_or]
    cases x[i] <;> cases b[i] <;> cases k[i] <;> rfl
  have e2 : ∀ c, (x &&& c) &&& k = (x &&& k) &&& c := by
    intro c
    rw [BitVec.and_assoc, BitVec.and_comm c k, BitVec.and_assoc]
  split
  · rw [e1, hx, hb]
  · rw [e2, hx]

theorem or_mask {x k b : BitVec 32} (hb : b &&& k = b) (hx : x &&& k = x) : (x ||| b) &&& k = x ||| b := by
  have e1 : (x ||| b) &&& k = (x &&& k) ||| (b &&& k) := by
    ext i hi
    simp only [BitVec.getElem_and, BitVec.getElem_or]
    cases x[i] <;> cases b[i] <;> cases k[i] <;> rfl
  rw [e1, hx, hb]

theorem and_mask {x k b : BitVec 32} (hx : x &&& k = x) : (x &&& b) &&& k = x &&& b := by
  rw [BitVec.and_assoc, BitVec.and_comm b k, ← BitVec.and_assoc, hx]

theorem sstatusTrap_mask {x : BitVec 32} (priv : Nat) (hx : x &&& sstatusMask = x) :
    sstatusTrap x priv &&& sstatusMask = sstatusTrap x priv := by
  unfold sstatusTrap
  apply and_mask
  apply copyFlag_mask (by decide)
  split
  · exact or_mask (by decide) hx
  · exact and_mask hx

theorem sstatusRet_mask {x : BitVec 32} (hx : x &&& sstatusMask = x) :
    sstatusRet x &&& sstatusMask = sstatusRet x := by
  unfold sstatusRet
  apply and_mask
  apply or_mask (by decide)
  exact copyFlag_mask (by decide) hx

theorem and_idem (x k : BitVec 32) : x &&& k &&& k = x &&& k := by
  rw [BitVec.and_assoc, BitVec.and_self]

theorem inv_exception {s : State} (h : Inv s.file) (r : Rob) : Inv (exception s r).1 := by
  have hs : s.file .sstatus &&& sstatusMask = s.file .sstatus := by rw [h.status, and_idem]
  unfold exception
  split
  · constructor <;> simp [set, h.ie, h.ip]
  · split
    · constructor
      · show sstatusTrap (s.file .sstatus) s.priv = mergeS _ (sstatusTrap (s.file .sstatus) s.priv) &&& sstatusMask
        rw [mergeS, merge_and, sstatusTrap_mask _ hs]
      · simp [set, h.ie]
      · simp [set, h.ip]
    · split
      · constructor <;> simp [set, h.ie, h.ip]
      · split
        · constructor
          · show sstatusRet (s.file .sstatus) = mergeS _ (sstatusRet (s.file .sstatus)) &&& sstatusMask
            rw [mergeS, merge_and, sstatusRet_mask hs]
          · simp [set, h.ie]
          · simp [set, h.ip]
        · exact h

theorem inv_write {f g : File} (hg : Inv g) (r : Reg) (w : BitVec 32) : Inv (applyWrite f g r w) := by
  cases r <;> (constructor <;> simp [applyWrite, set, hg.status, hg.ie, hg.ip])

theorem inv_line {g : File} (hg : Inv g) (line : Option Bool) (b : BitVec 32) : Inv (injectLine line b g) := by
  cases line with
  | none => exact hg
  | some v => cases v <;> (constructor <;> simp [injectLine, set, hg.status, hg.ie])

theorem inv_inject {g : File} (hg : Inv g) (x : Inject) : Inv (inject x g) := inv_line (inv_line hg _ _) _ _

theorem step_file {e : Exe} {r : Rob} {x : Inject} {s s' : State} (h : step e r x s = some s') :
    (r.commit = true ∧ s.we = true ∧ ∃ c, cvt s.idx = some c ∧
      s'.file = inject x (applyWrite s.file (exception s r).1 c (combine s.wcmd s.wdata (s.file c)))) ∨
    ((r.commit && s.we) = false ∧ s'.file = inject x (exception s r).1) := by
  unfold step at h
  simp only at h
  by_cases hc : (r.commit && s.we) = true
  · rw [if_pos hc] at h
    simp only [Option.map_eq_some_iff] at h
    obtain ⟨c, h1, h2⟩ := h
    simp only [Bool.and_eq_true] at hc
    refine Or.inl ⟨hc.1, hc.2, c, h1, ?_⟩
    rw [← h2]
  · rw [if_neg hc] at h
    cases h
    exact Or.inr ⟨by simpa using hc, rfl⟩

theorem inv_reach {s : State} (h : Reach s) : Inv s.file := by
  induction h with
  | init => constructor <;> decide +kernel
  | step s s' e r x _ hs ih =>
    rcases step_file hs with ⟨_, _, c, _, hf⟩ | ⟨_, hf⟩
    · rw [hf]; exact inv_inject (inv_write (inv_exception ih r) _ _) _
    · rw [hf]; exact inv_inject (inv_exception ih r) _

/-! ### Status registers, bit by bit -/

theorem copyFlag_bit (x : BitVec 32) (a b i : Nat) (ha : a < 32) (hb : b < 32) (hi : i < 32) :
    (copyFlag x (1#32 <<< a) (1#32 <<< b)).getLsbD i = if i = b then x.getLsbD a else x.getLsbD i := by
  unfold copyFlag
  rw [on_bit x a ha]
  have hbit : (1#32 <<< b).getLsbD i = decide (i = b) := by
    rw [← BitVec.twoPow_eq, BitVec.getLsbD_twoPow]
    by_cases h : i = b
    · subst h; simp [hi]
    · have : ¬ b = i := fun e => h e.symm
      simp [h, this]
  by_cases h : i = b
  · subst h
    cases hx : x.getLsbD a <;> simp [hbit, hi]
  · cases hx : x.getLsbD a
    · rw [if_neg (by simp), BitVec.getLsbD_and, BitVec.getLsbD_not, hbit]; simp [h, hi]
    · rw [if_pos rfl, BitVec.getLsbD_or, hbit]; simp [h]

theorem shl_bit (b i : Nat) (hi : i < 32) : (1#32 <<< b).getLsbD i = decide (i = b) := by
  rw [← BitVec.twoPow_eq, BitVec.getLsbD_twoPow]
  by_cases h : i = b
  · subst h; simp [hi]
  · have : ¬ b = i := fun e => h e.symm
    simp [h, this]

theorem mpp_bit (i : Nat) (hi : i < 32) : MPP.getLsbD i = (decide (i = 11) || decide (i = 12)) := by
  revert i; decide +kernel

theorem priv_bit (p i : Nat) (hi : i < 32) :
    ((BitVec.ofNat 32 p &&& 3#32) <<< 11).getLsbD i =
      if i = 11 then p.testBit 0 else if i = 12 then p.testBit 1 else false := by
  have h3 : ∀ j < 32, (3#32).getLsbD j = (decide (j = 0) || decide (j = 1)) := by decide +kernel
  rw [BitVec.getLsbD_shiftLeft]
  by_cases h1 : i < 11
  · have : ¬ i = 11 := by omega
    have : ¬ i = 12 := by omega
    simp [*]
  · rw [BitVec.getLsbD_and, h3 (i - 11) (by omega), BitVec.getLsbD_ofNat]
    by_cases h2 : i = 11
    · subst h2; simp
    · by_cases h4 : i = 12
      · subst h4; simp
      · have h5 : ¬ (i - 11 = 0) := by omega
        have h6 : ¬ (i - 11 = 1) := by omega
        simp [h2, h4, h5, h6]

theorem mstatusTrap_bit (x : BitVec 32) (p i : Nat) (hi : i < 32) :
    (mstatusTrap x p).getLsbD i =
      if i = 3 then false else if i = 7 then x.getLsbD 3
      else if i = 11 then p.testBit 0 else if i = 12 then p.testBit 1 else x.getLsbD i := by
  unfold mstatusTrap
  rw [BitVec.getLsbD_and, BitVec.getLsbD_not, shl_bit 3 i hi, copyFlag_bit _ 3 7 i (by omega) (by omega) hi]
  simp only [BitVec.getLsbD_or, BitVec.getLsbD_and, BitVec.getLsbD_not, priv_bit _ _ hi, mpp_bit _ hi,
    priv_bit _ 3 (by omega), mpp_bit 3 (by omega), hi, decide_true, Bool.true_and]
  by_cases h3 : i = 3
  · subst h3; simp
  · by_cases h7 : i = 7
    · subst h7; simp
    · by_cases h11 : i = 11
      · subst h11; simp
      · by_cases h12 : i = 12
        · subst h12; simp
        · simp [h3, h7, h11, h12]

theorem sstatusTrap_bit (x : BitVec 32) (p i : Nat) (hi : i < 32) :
    (sstatusTrap x p).getLsbD i =
      if i = 1 then false else if i = 5 then x.getLsbD 1
      else if i = 8 then decide (p = 1) else x.getLsbD i := by
  unfold sstatusTrap
  rw [BitVec.getLsbD_and, BitVec.getLsbD_not, shl_bit 1 i hi, copyFlag_bit _ 1 5 i (by omega) (by omega) hi]
  by_cases hp : p = 1
  · simp only [hp, if_true, BitVec.getLsbD_or, shl_bit 8 i hi, shl_bit 8 1 (by omega), hi, decide_true, Bool.true_and]
    by_cases h1 : i = 1
    · subst h1; simp
    · by_cases h5 : i = 5
      · subst h5; simp
      · by_cases h8 : i = 8
        · subst h8; simp
        · simp [h1, h5, h8]
  · simp only [hp, if_false, BitVec.getLsbD_and, BitVec.getLsbD_not, shl_bit 8 i hi, shl_bit 8 1 (by omega), hi,
      decide_true, Bool.true_and]
    by_cases h1 : i = 1
    · subst h1; simp
    · by_cases h5 : i = 5
      · subst h5; simp
      · by_cases h8 : i = 8
        · subst h8; simp
        · simp [h1, h5, h8]

theorem mstatusRet_bit (x : BitVec 32) (i : Nat) (hi : i < 32) :
    (mstatusRet x).getLsbD i =
      if i = 3 then x.getLsbD 7 else if i = 7 then true
      else if i = 11 ∨ i = 12 then false else x.getLsbD i := by
  unfold mstatusRet
  rw [BitVec.getLsbD_and, BitVec.getLsbD_not, BitVec.getLsbD_or, shl_bit 7 i hi, mpp_bit i hi,
    copyFlag_bit _ 7 3 i (by omega) (by omega) hi]
  by_cases h3 : i = 3
  · subst h3; simp
  · by_cases h7 : i = 7
    · subst h7; simp
    · by_cases h11 : i = 11
      · subst h11; simp
      · by_cases h12 : i = 12
        · subst h12; simp
        · simp [h3, h7, h11, h12, hi]

theorem sstatusRet_bit (x : BitVec 32) (i : Nat) (hi : i < 32) :
    (sstatusRet x).getLsbD i =
      if i = 1 then x.getLsbD 5 else if i = 5 then true
      else if i = 8 then false else x.getLsbD i := by
  unfold sstatusRet
  rw [BitVec.getLsbD_and, BitVec.getLsbD_not, BitVec.getLsbD_or, shl_bit 5 i hi, shl_bit 8 i hi,
    copyFlag_bit _ 5 1 i (by omega) (by omega) hi]
  by_cases h1 : i = 1
  · subst h1; simp
  · by_cases h5 : i = 5
    · subst h5; simp
    · by_cases h8 : i = 8
      · subst h8; simp
      · simp [h1, h5, h8, hi]

theorem sstatusMask_bit (i : Nat) (hi : i < 32) : sstatusMask.getLsbD i = decide (i ∈ sstatusFields) := by
  revert i; decide +kernel

theorem merge_bit {f : File} (h : Inv f) (g : BitVec 32 → BitVec 32) (i : Nat) (hi : i < 32)
    (hg : i ∉ sstatusFields → ∀ x, (g x).getLsbD i = x.getLsbD i)
    (hv : i ∈ sstatusFields → (g (f .sstatus)).getLsbD i = (g (f .mstatus)).getLsbD i) :
    (mergeS (f .mstatus) (g (f .sstatus))).getLsbD i = (g (f .mstatus)).getLsbD i := by
  unfold mergeS
  rw [BitVec.getLsbD_or, BitVec.getLsbD_and, BitVec.getLsbD_and, BitVec.getLsbD_not, sstatusMask_bit i hi]
  by_cases hm : i ∈ sstatusFields
  · simp [hm, hv hm]
  · rw [hg hm (f .mstatus)]; simp [hm, hi]

theorem sstatus_bit {f : File} (h : Inv f) (i : Nat) (hi : i < 32) (hm : i ∈ sstatusFields) :
    (f .sstatus).getLsbD i = (f .mstatus).getLsbD i := by
  rw [h.status, BitVec.getLsbD_and, sstatusMask_bit i hi]
  simp [hm]

theorem merge_trap_bit {f : File} (h : Inv f) (p i : Nat) (hi : i < 32) :
    (mergeS (f .mstatus) (sstatusTrap (f .sstatus) p)).getLsbD i =
      if i = 1 then false else if i = 5 then (f .mstatus).getLsbD 1
      else if i = 8 then decide (p = 1) else (f .mstatus).getLsbD i := by
  rw [merge_bit h (fun x => sstatusTrap x p) i hi, sstatusTrap_bit _ _ _ hi]
  · intro hn x
    rw [sstatusTrap_bit _ _ _ hi]
    have h1 : ¬ i = 1 := by rintro rfl; exact hn (by decide)
    have h5 : ¬ i = 5 := by rintro rfl; exact hn (by decide)
    have h8 : ¬ i = 8 := by rintro rfl; exact hn (by decide)
    simp [h1, h5, h8]
  · intro hm
    rw [sstatusTrap_bit _ _ _ hi, sstatusTrap_bit _ _ _ hi, sstatus_bit h i hi hm,
      sstatus_bit h 1 (by omega) (by decide)]

theorem merge_ret_bit {f : File} (h : Inv f) (i : Nat) (hi : i < 32) :
    (mergeS (f .mstatus) (sstatusRet (f .sstatus))).getLsbD i =
      if i = 1 then (f .mstatus).getLsbD 5 else if i = 5 then true
      else if i = 8 then false else (f .mstatus).getLsbD i := by
  rw [merge_bit h sstatusRet i hi, sstatusRet_bit _ _ hi]
  · intro hn x
    rw [sstatusRet_bit _ _ hi]
    have h1 : ¬ i = 1 := by rintro rfl; exact hn (by decide)
    have h5 : ¬ i = 5 := by rintro rfl; exact hn (by decide)
    have h8 : ¬ i = 8 := by rintro rfl; exact hn (by decide)
    simp [h1, h5, h8]
  · intro hm
    rw [sstatusRet_bit _ _ hi, sstatusRet_bit _ _ hi, sstatus_bit h i hi hm,
      sstatus_bit h 5 (by omega) (by decide)]

end Verif.Csr.Proofs

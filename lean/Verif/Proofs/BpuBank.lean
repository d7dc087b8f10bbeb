import Verif.Proofs.BpuState
/- Fetch groups, cache lines and banks. -/
namespace Verif.Bpu

/-! ### Fetch groups -/

theorem lineMask (x : W32) {m : Nat} (hm : m < 32) :
    (x &&& ~~~ (BitVec.ofNat 32 (2 ^ m - 1))).toNat = x.toNat / 2 ^ m * 2 ^ m := by
  have h : x &&& ~~~ (BitVec.ofNat 32 (2 ^ m - 1)) = (x >>> m) <<< m := by
    apply BitVec.eq_of_getLsbD_eq
    intro j hj
    rw [BitVec.getLsbD_and, BitVec.getLsbD_not, BitVec.getLsbD_ofNat, Nat.testBit_two_pow_sub_one,
      BitVec.getLsbD_shiftLeft, BitVec.getLsbD_ushiftRight]
    by_cases hlt : j < m
    · simp [hj, hlt]
    · have : m + (j - m) = j := by omega
      simp [hj, hlt, this]
  rw [h, BitVec.toNat_shiftLeft, BitVec.toNat_ushiftRight, Nat.shiftLeft_eq, Nat.shiftRight_eq_div_pow]
  have := x.isLt
  exact Nat.mod_eq_of_lt (Nat.lt_of_le_of_lt (Nat.div_mul_le_self _ _) this)

/-- The end of a group, as a number: no group at the very end of the address space; otherwise the group's own end or the end of
its line. -/
theorem boundary_toNat {c : Cfg} {m : Nat} (hl : c.Lines m) (hf : 0 < c.fetchWidth) (pc : W32) :
    (boundary c pc).toNat =
      if 2 ^ 32 ≤ pc.toNat + 4 * c.fetchWidth then 0
      else if pc.toNat / 2 ^ m = (pc.toNat + 4 * c.fetchWidth) / 2 ^ m then pc.toNat + 4 * c.fetchWidth
      else (pc.toNat / 2 ^ m + 1) * 2 ^ m := by
  have hg := hl.group
  rw [hl.size] at hg
  have hr := hl.range
  have hS : 0 < 2 ^ m := Nat.two_pow_pos m
  have hS31 : 2 ^ m < 2 ^ 31 := Nat.pow_lt_pow_right (by omega) hr.2
  have hx := pc.isLt
  have hm1 := lineMask pc (show m < 32 by omega)
  have hm2 := lineMask (pc + BitVec.ofNat 32 (c.fetchWidth * 4)) (show m < 32 by omega)
  have hplus : (pc + BitVec.ofNat 32 (c.fetchWidth * 4)).toNat = (pc.toNat + 4 * c.fetchWidth) % 2 ^ 32 := by
    rw [BitVec.toNat_add, BitVec.toNat_ofNat, Nat.add_mod_mod]
    congr 1; omega
  have hcond : (pc &&& ~~~ (BitVec.ofNat 32 (2 ^ m - 1)) ≠
        (pc + BitVec.ofNat 32 (c.fetchWidth * 4)) &&& ~~~ (BitVec.ofNat 32 (2 ^ m - 1))) ↔
      pc.toNat / 2 ^ m ≠ (pc + BitVec.ofNat 32 (c.fetchWidth * 4)).toNat / 2 ^ m := by
    rw [Ne, ← BitVec.toNat_inj, hm1, hm2]
    constructor
    · intro h h'; exact h (by rw [h'])
    · intro h h'; exact h (Nat.eq_of_mul_eq_mul_right hS h')
  unfold boundary
  dsimp only
  rw [hl.size]
  by_cases hw : 2 ^ 32 ≤ pc.toNat + 4 * c.fetchWidth
  · rw [if_pos hw]
    have hp : (pc + BitVec.ofNat 32 (c.fetchWidth * 4)).toNat = pc.toNat + 4 * c.fetchWidth - 2 ^ 32 := by
      rw [hplus, Nat.mod_eq_sub_mod hw, Nat.mod_eq_of_lt (by omega)]
    have h0 : (pc + BitVec.ofNat 32 (c.fetchWidth * 4)).toNat / 2 ^ m = 0 := by
      rw [hp]; exact Nat.div_eq_of_lt (by omega)
    have h1 : 0 < pc.toNat / 2 ^ m := Nat.div_pos (by omega) hS
    rw [if_pos (hcond.mpr (by rw [h0]; omega)), hm2, h0, Nat.zero_mul]
  · rw [if_neg hw]
    have hp : (pc + BitVec.ofNat 32 (c.fetchWidth * 4)).toNat = pc.toNat + 4 * c.fetchWidth := by
      rw [hplus, Nat.mod_eq_of_lt (by omega)]
    by_cases he : pc.toNat / 2 ^ m = (pc.toNat + 4 * c.fetchWidth) / 2 ^ m
    · rw [if_pos he, if_neg (by rw [hcond, hp]; exact fun h => h he), hp]
    · rw [if_neg he, if_pos (by rw [hcond, hp]; exact he), hm2, hp]
      congr 1
      have h1 : (pc.toNat + 4 * c.fetchWidth) / 2 ^ m ≤ (pc.toNat + 2 ^ m) / 2 ^ m := Nat.div_le_div_right (by omega)
      rw [Nat.add_div_right _ hS] at h1
      have h2 : pc.toNat / 2 ^ m ≤ (pc.toNat + 4 * c.fetchWidth) / 2 ^ m := Nat.div_le_div_right (by omega)
      omega

theorem slots_get {c : Cfg} {base : W32} {going : Bool} {i : In} {k : Nat} {s : Slot}
    (h : (slots c base going i)[k]? = some s) :
    k < c.fetchWidth ∧ s.pc = base + BitVec.ofNat 32 (k * 4) ∧ s.on = decide (s.pc.toNat < (boundary c base).toNat) ∧
      s.ty = i.pType k ∧ s.taken = (going && s.on && predTaken i (i.pType k) (bankSel c s.pc)) ∧
      s.target = i.btb (bankSel c s.pc) := by
  unfold slots at h
  rw [List.getElem?_map] at h
  by_cases hk : k < c.fetchWidth
  · rw [List.getElem?_range hk] at h
    simp only [Option.map_some, Option.some.injEq] at h
    subst h
    exact ⟨hk, rfl, rfl, rfl, rfl, rfl⟩
  · rw [List.getElem?_eq_none (by simp; omega)] at h
    cases h

/-- A predicted slot is where it should be: no wrap-around, in the line of the group's first instruction. -/
theorem slot_on {c : Cfg} {m : Nat} (hl : c.Lines m) {base : W32} {going : Bool} {i : In} {k : Nat} {s : Slot}
    (h : (slots c base going i)[k]? = some s) (hon : s.on = true) :
    s.pc.toNat = base.toNat + 4 * k ∧ s.pc.toNat / 2 ^ m = base.toNat / 2 ^ m := by
  obtain ⟨hk, hpc, ho, -, -, -⟩ := slots_get h
  rw [hon, eq_comm, decide_eq_true_eq] at ho
  have hf : 0 < c.fetchWidth := by omega
  rw [boundary_toNat hl hf] at ho
  have hS : 0 < 2 ^ m := Nat.two_pow_pos m
  by_cases hw : 2 ^ 32 ≤ base.toNat + 4 * c.fetchWidth
  · rw [if_pos hw] at ho; omega
  · rw [if_neg hw] at ho
    have hp : s.pc.toNat = base.toNat + 4 * k := by
      rw [hpc, BitVec.toNat_add, BitVec.toNat_ofNat, Nat.add_mod_mod, Nat.mod_eq_of_lt (by omega)]
      omega
    refine ⟨hp, ?_⟩
    have hle : base.toNat / 2 ^ m ≤ s.pc.toNat / 2 ^ m := Nat.div_le_div_right (by omega)
    by_cases he : base.toNat / 2 ^ m = (base.toNat + 4 * c.fetchWidth) / 2 ^ m
    · have : s.pc.toNat / 2 ^ m ≤ (base.toNat + 4 * c.fetchWidth) / 2 ^ m := Nat.div_le_div_right (by omega)
      omega
    · rw [if_neg he] at ho
      have : s.pc.toNat / 2 ^ m < base.toNat / 2 ^ m + 1 := (Nat.div_lt_iff_lt_mul hS).mpr ho
      omega

/-- The slots before the end of the group and of the line are predicted. -/
theorem slot_on_iff {c : Cfg} {m : Nat} (hl : c.Lines m) {base : W32} {going : Bool} {i : In} {k : Nat} {s : Slot}
    (h : (slots c base going i)[k]? = some s) (hw : base.toNat + 4 * c.fetchWidth < 2 ^ 32) :
    s.on = true ↔ (base.toNat + 4 * k) / 2 ^ m = base.toNat / 2 ^ m := by
  constructor
  · intro hon
    have := slot_on hl h hon
    rw [← this.1, this.2]
  · intro hq
    obtain ⟨hk, hpc, ho, -, -, -⟩ := slots_get h
    have hf : 0 < c.fetchWidth := by omega
    have hp : s.pc.toNat = base.toNat + 4 * k := by
      rw [hpc, BitVec.toNat_add, BitVec.toNat_ofNat, Nat.add_mod_mod, Nat.mod_eq_of_lt (by omega)]
      omega
    rw [ho, decide_eq_true_eq, boundary_toNat hl hf, if_neg (by omega), hp]
    split
    · omega
    · have hS : 0 < 2 ^ m := Nat.two_pow_pos m
      exact (Nat.div_lt_iff_lt_mul hS).mp (by omega)

theorem bank_of_slot {c : Cfg} {m : Nat} (hl : c.Lines m) {base : W32} {going : Bool} {i : In} {k : Nat} {s : Slot}
    (h : (slots c base going i)[k]? = some s) (hon : s.on = true) :
    bankSel c s.pc = (base.toNat / 4 + k) % c.bankNum := by
  unfold bankSel
  rw [BitVec.toNat_ushiftRight, (slot_on hl h hon).1, Nat.shiftRight_eq_div_pow]
  congr 1; omega

theorem banks_distinct {c : Cfg} (ok : c.Ok) {m : Nat} (hl : c.Lines m) {base : W32} {going : Bool} {i : In} {j k : Nat}
    {s t : Slot} (hs : (slots c base going i)[j]? = some s) (ht : (slots c base going i)[k]? = some t)
    (hon : s.on = true) (hon' : t.on = true) (hjk : j < k) : bankSel c s.pc ≠ bankSel c t.pc := by
  rw [bank_of_slot hl hs hon, bank_of_slot hl ht hon']
  have hk := (slots_get ht).1
  have hb := ok.banksFetch
  generalize base.toNat / 4 = x
  intro h
  have hN : 0 < c.bankNum := by omega
  have e : (x + k) % c.bankNum = ((x + j) % c.bankNum + (k - j)) % c.bankNum := by
    rw [Nat.mod_add_mod]; congr 1; omega
  rw [e, mod_add (Nat.mod_lt _ hN) (by omega)] at h
  have := Nat.mod_lt (x + j) hN
  split at h <;> omega

/-! ### Bank addresses -/

theorem highestBit_pow (h : Nat) : highestBit (2 ^ h) = h := by
  induction h with
  | zero => unfold highestBit; simp
  | succ h ih =>
    unfold highestBit
    have hp : 0 < 2 ^ h := Nat.two_pow_pos h
    rw [dif_pos (by rw [Nat.pow_succ]; omega), Nat.pow_succ, Nat.mul_div_cancel _ (by omega), ih]

/-- The word address inside a bank is the word address divided by the number of banks. -/
theorem bankPc_word {c : Cfg} (hN : 0 < c.bankNum) (pc : W32) :
    (bankPc c pc >>> 2).toNat = (pc >>> 2).toNat / c.bankNum := by
  have hx := pc.isLt
  unfold bankPc
  split
  · next h =>
    have hlt : (pc >>> 2).toNat / c.bankNum < 2 ^ 30 := by
      refine Nat.lt_of_le_of_lt (Nat.div_le_self _ _) ?_
      rw [BitVec.toNat_ushiftRight, Nat.shiftRight_eq_div_pow]; omega
    have h1 : (pc >>> 2).toNat / c.bankNum < 2 ^ 32 := by omega
    rw [BitVec.toNat_ushiftRight, BitVec.toNat_shiftLeft, BitVec.toNat_ofNat, Nat.mod_eq_of_lt h1]
    generalize (pc >>> 2).toNat / c.bankNum = q at *
    rw [Nat.shiftLeft_eq, Nat.shiftRight_eq_div_pow, Nat.mod_eq_of_lt (by omega)]
    omega
  · next h =>
    have h0 : c.bankNum &&& (c.bankNum - 1) = 0 := by omega
    obtain ⟨e, he⟩ := (Nat.and_sub_one_eq_zero_iff_isPowerOfTwo (by omega)).mp h0
    rw [he, highestBit_pow]
    rw [BitVec.toNat_ushiftRight, BitVec.toNat_ushiftRight, BitVec.toNat_ushiftRight, Nat.shiftRight_eq_div_pow,
      Nat.shiftRight_eq_div_pow, Nat.shiftRight_eq_div_pow, Nat.div_div_eq_div_mul, Nat.div_div_eq_div_mul, Nat.mul_comm]

/-! ### The next fetch address -/

theorem top_contents (r : Ras) : r.top = r.contents.head? := by
  unfold Ras.top
  rw [List.head?_eq_getElem?, contents_get]
  split <;> rfl

/-- The slot that decides the next fetch address. -/
def decides (s : Slot) : Bool := s.on && s.taken && s.target.isSome

theorem nextAddr_find (ras : Option W32) (d : W32) (ss : List Slot) :
    nextAddr ras d ss = match ss.find? decides with
      | none => d
      | some s => if s.ty = .ret then ras.getD (s.target.getD d) else s.target.getD d := by
  induction ss with
  | nil => rfl
  | cons s r ih =>
    unfold nextAddr
    rw [List.find?_cons]
    unfold decides at ih ⊢
    rcases h : (s.on && s.taken) with _ | _
    · simp only [Bool.false_and, Bool.false_eq_true, if_false]; exact ih
    · cases ht : s.target with
      | none => simp only [if_true, Option.isSome_none, Bool.and_false]; exact ih
      | some t => simp [ht]

theorem cycle_next {c : Cfg} {s s' : St} {i : In} {o : Out} (h : cycle c s i = some (s', o)) (hn : i.refetch = none)
    (hr : i.ready = true) :
    o.nextAddr = nextAddr s.specRas.top (boundary c s.pc) (slots c s.pc true i) ∧ s'.pc = o.nextAddr ∧
      o.fetchAddr = s.pc ∧ o.ptabWrite = true := by
  unfold cycle at h
  dsimp only at h
  split at h
  · cases h
  · simp only [Option.some.injEq, Prod.mk.injEq] at h
    obtain ⟨rfl, rfl⟩ := h
    simp [hn, hr]

end Verif.Bpu

import Verif.Model.Dcache

/-
Addresses and byte lanes of the data cache.
-/
namespace Verif.Dcache

theorem lineOf_bit (a : BitVec 32) (i : Nat) : (lineOf a).getLsbD i = (a.getLsbD i && decide (6 ≤ i)) := by
  rcases Nat.lt_or_ge i 32 with hi | hi
  case inr => rw [BitVec.getLsbD_of_ge _ _ (by omega), BitVec.getLsbD_of_ge _ _ (by omega)]; rfl
  simp only [lineOf, getAddr, setOf, tagOf, BitVec.getLsbD_or, BitVec.getLsbD_shiftLeft, BitVec.getLsbD_setWidth,
    BitVec.getLsbD_ushiftRight, hi, decide_true, Bool.true_and]
  by_cases h6 : i < 6
  · have h14 : i < 14 := by omega
    have : ¬ 6 ≤ i := by omega
    simp [h6, h14, this]
  · by_cases h14 : i < 14
    · have e1 : 6 + (i - 6) = i := by omega
      have e2 : i - 6 < 32 := by omega
      have e3 : i - 6 < 8 := by omega
      have e4 : 6 ≤ i := by omega
      simp [h6, h14, e1, e2, e3, e4]
    · have e1 : 14 + (i - 14) = i := by omega
      have e2 : i - 14 < 32 := by omega
      have e3 : i - 14 < 18 := by omega
      have e4 : 6 ≤ i := by omega
      have e5 : ¬ i - 6 < 8 := by omega
      simp [h6, h14, e1, e2, e3, e4, e5]

theorem lineMask_eq (a : BitVec 32) : lineMask a = lineOf a := by
  apply BitVec.eq_of_getLsbD_eq
  intro i hi
  rw [lineOf_bit, lineMask, BitVec.getLsbD_and]
  congr 1
  have : ∀ j : Fin 32, (~~~63#32).getLsbD j = decide (6 ≤ j.val) := by decide
  exact this ⟨i, hi⟩

theorem lineOf_idem (a : BitVec 32) : lineOf (lineOf a) = lineOf a := by
  apply BitVec.eq_of_getLsbD_eq
  intro i hi
  rw [lineOf_bit, lineOf_bit, Bool.and_assoc, Bool.and_self]

theorem set_getAddr (s : BitVec 8) (t : BitVec 18) : setOf (getAddr s t) = s := by
  apply BitVec.eq_of_getLsbD_eq
  intro i hi
  have h1 : i < 32 := by omega
  have h2 : 6 + i < 32 := by omega
  have h3 : 6 + i < 14 := by omega
  have h4 : ¬ 6 + i < 6 := by omega
  simp only [getAddr, setOf, BitVec.getLsbD_or, BitVec.getLsbD_shiftLeft, BitVec.getLsbD_setWidth,
    BitVec.getLsbD_ushiftRight, hi, h1, h2, h3, h4, decide_true, decide_false, Bool.true_and, Bool.not_true, Bool.false_and, Bool.not_false, Bool.false_or]
  rw [Nat.add_sub_cancel_left]
  simp [h1]

theorem tag_getAddr (s : BitVec 8) (t : BitVec 18) : tagOf (getAddr s t) = t := by
  apply BitVec.eq_of_getLsbD_eq
  intro i hi
  have h1 : i < 32 := by omega
  have h2 : 14 + i < 32 := by omega
  have h3 : ¬ 14 + i < 14 := by omega
  have h4 : ¬ 14 + i < 6 := by omega
  have h5 : s.getLsbD (14 + i - 6) = false := BitVec.getLsbD_of_ge _ _ (by omega)
  simp only [getAddr, tagOf, BitVec.getLsbD_or, BitVec.getLsbD_shiftLeft, BitVec.getLsbD_setWidth,
    BitVec.getLsbD_ushiftRight, hi, h1, h2, h3, h4, h5, decide_true, decide_false, Bool.true_and, Bool.not_true, Bool.false_and, Bool.not_false, Bool.and_false, Bool.or_false]
  rw [Nat.add_sub_cancel_left]
  simp [h1]

theorem lineOf_getAddr (s : BitVec 8) (t : BitVec 18) : lineOf (getAddr s t) = getAddr s t := by
  unfold lineOf; rw [set_getAddr, tag_getAddr]

theorem getAddr_inj {s s' : BitVec 8} {t t' : BitVec 18} : getAddr s t = getAddr s' t' ↔ s = s' ∧ t = t' := by
  constructor
  · intro h
    exact ⟨by rw [← set_getAddr s t, h, set_getAddr], by rw [← tag_getAddr s t, h, tag_getAddr]⟩
  · rintro ⟨rfl, rfl⟩; rfl

theorem set_lineOf (a : BitVec 32) : setOf (lineOf a) = setOf a := set_getAddr _ _
theorem tag_lineOf (a : BitVec 32) : tagOf (lineOf a) = tagOf a := tag_getAddr _ _

/-- Set and tag determine the line. -/
theorem line_eq_iff {a b : BitVec 32} : lineOf a = lineOf b ↔ setOf a = setOf b ∧ tagOf a = tagOf b := getAddr_inj

theorem lineMatch_iff {a b : BitVec 32} : lineMatch a b = true ↔ lineOf a = lineOf b := by
  unfold lineMatch
  rw [decide_eq_true_eq]
  constructor
  · intro h
    apply BitVec.eq_of_getLsbD_eq
    intro i hi
    rw [lineOf_bit, lineOf_bit]
    by_cases h6 : 6 ≤ i
    · have := congrArg (fun x => x.getLsbD (i - 6)) h
      simp only [BitVec.getLsbD_ushiftRight, show 6 + (i - 6) = i by omega] at this
      rw [this]
    · simp [h6]
  · intro h
    apply BitVec.eq_of_getLsbD_eq
    intro i hi
    have := congrArg (fun x => x.getLsbD (6 + i)) h
    simp only [lineOf_bit, show 6 ≤ 6 + i by omega, decide_true, Bool.and_true] at this
    simp only [BitVec.getLsbD_ushiftRight]
    exact this

/-! ## Byte lanes -/

theorem getLsbD_lane (b i : Nat) (hb : b < 4) (hi : i < 32) : (0xFF#32 <<< (b * 8)).getLsbD i = decide (i / 8 = b) := by
  have : ∀ b : Fin 4, ∀ i : Fin 32, (0xFF#32 <<< (b.val * 8)).getLsbD i.val = decide (i.val / 8 = b.val) := by decide +kernel
  exact this ⟨b, hb⟩ ⟨i, hi⟩

theorem strobe_fold (src : BitVec 32) (strb : BitVec 8) (i : Nat) (hi : i < 32) : ∀ (n : Nat) (_ : n ≤ 4) (dst : BitVec 32),
    ((List.range n).foldl (fun d b => if strb.getLsbD b then (d &&& ~~~(0xFF#32 <<< (b * 8))) ||| (src &&& (0xFF#32 <<< (b * 8))) else d) dst).getLsbD i =
      if i / 8 < n ∧ strb.getLsbD (i / 8) = true then src.getLsbD i else dst.getLsbD i := by
  intro n
  induction n with
  | zero => intro _ dst; simp
  | succ n ih =>
    intro hn dst
    rw [List.range_succ, List.foldl_append]
    simp only [List.foldl_cons, List.foldl_nil]
    have ih' := ih (by omega) dst
    by_cases hs : strb.getLsbD n = true
    · rw [if_pos hs]
      simp only [BitVec.getLsbD_or, BitVec.getLsbD_and, BitVec.getLsbD_not, hi, decide_true, Bool.true_and, getLsbD_lane n i (by omega) hi, ih']
      by_cases e : i / 8 = n
      · subst e
        rw [if_pos (⟨by omega, hs⟩ : i / 8 < i / 8 + 1 ∧ strb.getLsbD (i / 8) = true)]
        simp
      · simp only [e, decide_false, Bool.not_false, Bool.and_true, Bool.and_false, Bool.or_false]
        by_cases h2 : i / 8 < n
        · have h3 : i / 8 < n + 1 := by omega
          simp [h2, h3]
        · have h3 : ¬ i / 8 < n + 1 := by omega
          simp [h2, h3]
    · rw [if_neg hs, ih']
      by_cases e : i / 8 = n
      · subst e
        rw [if_neg (fun h => hs h.2), if_neg (fun h => hs h.2)]
      · by_cases h2 : i / 8 < n
        · have h3 : i / 8 < n + 1 := by omega
          simp [h2, h3]
        · have h3 : ¬ i / 8 < n + 1 := by omega
          simp [h2, h3]

/-- A strobed write selects byte lanes. -/
theorem strobe_bit (dst src : BitVec 32) (strb : BitVec 8) (i : Nat) (hi : i < 32) :
    (strobe dst src strb).getLsbD i = if strb.getLsbD (i / 8) = true then src.getLsbD i else dst.getLsbD i := by
  unfold strobe
  rw [strobe_fold src strb i hi 4 (Nat.le_refl _) dst]
  have : i / 8 < 4 := by omega
  simp [this]

theorem strobe_zero (d s : BitVec 32) : strobe d s 0#8 = d := by
  apply BitVec.eq_of_getLsbD_eq
  intro i hi
  rw [strobe_bit _ _ _ _ hi]; simp

/-- Merging a store into an outstanding miss: the line that arrives, overlaid with the merged stores, is the
line overlaid before with the store written into it. -/
theorem over_merge (e : MEntry) (r : St) (l : Line) : (e.merge r).over l = (e.over l).put r := by
  funext w
  unfold MEntry.over MEntry.merge Line.put upd
  dsimp only
  by_cases hw : w = wordOf r.addr
  · subst hw
    simp only [if_true]
    apply BitVec.eq_of_getLsbD_eq
    intro i hi
    by_cases h1 : e.strb (wordOf r.addr) = 0#8
    · rw [if_neg (c := e.strb (wordOf r.addr) ≠ 0#8) (fun h => h h1), h1]
      rw [BitVec.zero_or]
      split
      · simp only [strobe_bit _ _ _ _ hi]
        split
        · rfl
        · rfl
      · next h => 
        have : r.strb = 0#8 := Classical.byContradiction fun e => h e
        rw [this, strobe_zero]
    · rw [if_pos (c := e.strb (wordOf r.addr) ≠ 0#8) h1]
      have h2 : e.strb (wordOf r.addr) ||| r.strb ≠ 0#8 := by
        intro h
        apply h1
        apply BitVec.eq_of_getLsbD_eq
        intro j hj
        have := congrArg (fun x => x.getLsbD j) h
        simp only [BitVec.getLsbD_or] at this
        simp at this ⊢
        exact this.1
      rw [if_pos h2]
      simp only [strobe_bit _ _ _ _ hi, BitVec.getLsbD_or]
      cases (e.strb (wordOf r.addr)).getLsbD (i / 8) <;> cases r.strb.getLsbD (i / 8) <;> simp
  · simp only [if_neg hw]

end Verif.Dcache

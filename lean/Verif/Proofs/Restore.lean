import Verif.Spec.Restore
import Verif.Props.PhysMem
/-
Lemmas for C109: words of the I/O windows, bulk writes and reads, and reading back what was encoded.
-/
namespace Verif.Restore
open PhysMem

/-- Aligned, below RAM. -/
def Plain (a : BitVec 32) : Prop := a &&& ~~~3#32 = a ∧ a.toNat < 0x80000000

theorem align_nat (a : BitVec 32) : (a &&& ~~~3#32).toNat = a.toNat / 4 * 4 := Verif.Props.align_toNat a

theorem aligned_iff (a : BitVec 32) : a &&& ~~~3#32 = a ↔ a.toNat % 4 = 0 := by
  constructor
  · intro h
    have := align_nat a
    rw [h] at this; omega
  · intro h
    apply BitVec.eq_of_toNat_eq
    rw [align_nat]; omega

theorem toNat_word {base : BitVec 32} {i : Nat} (h : base.toNat + 4 * i < 2 ^ 32) :
    (base + BitVec.ofNat 32 (4 * i)).toNat = base.toNat + 4 * i := by
  rw [BitVec.toNat_add, BitVec.toNat_ofNat, Nat.mod_eq_of_lt (a := 4 * i) (by omega), Nat.mod_eq_of_lt (by omega)]

theorem mem_words {base : BitVec 32} {size : Nat} (h : base.toNat + size ≤ 0x80000000) (a : BitVec 32) :
    a ∈ words base size ↔ ∃ i, i < size / 4 ∧ a.toNat = base.toNat + 4 * i := by
  simp only [words, List.mem_map, List.mem_range]
  constructor
  · rintro ⟨i, hi, rfl⟩
    exact ⟨i, hi, toNat_word (by omega)⟩
  · rintro ⟨i, hi, e⟩
    exact ⟨i, hi, BitVec.eq_of_toNat_eq (by rw [toNat_word (by omega), e])⟩

theorem mem_ioWords (a : BitVec 32) : a ∈ ioWords ↔ a.toNat % 4 = 0 ∧ InIo a.toNat := by
  simp only [ioWords, ioRanges, List.flatMap_cons, List.flatMap_nil, List.append_nil, List.mem_append]
  rw [mem_words (by decide), mem_words (by decide), mem_words (by decide), mem_words (by decide), mem_words (by decide)]
  simp only [InIo, BitVec.toNat_ofNat]
  constructor
  · rintro (⟨i, h1, h2⟩ | ⟨i, h1, h2⟩ | ⟨i, h1, h2⟩ | ⟨i, h1, h2⟩ | ⟨i, h1, h2⟩) <;> omega
  · rintro ⟨h0, h | h | h | h | h⟩
    · exact .inl ⟨a.toNat / 4, by omega, by omega⟩
    · exact .inr (.inl ⟨(a.toNat - 0x10000000) / 4, by omega, by omega⟩)
    · exact .inr (.inr (.inl ⟨(a.toNat - 0x0c000000) / 4, by omega, by omega⟩))
    · exact .inr (.inr (.inr (.inl ⟨(a.toNat - 0x1fd0e000) / 4, by omega, by omega⟩)))
    · exact .inr (.inr (.inr (.inr ⟨(a.toNat - 0x1fd0f000) / 4, by omega, by omega⟩)))

theorem ioWords_plain {a : BitVec 32} (h : a ∈ ioWords) : Plain a := by
  obtain ⟨h1, h2⟩ := (mem_ioWords a).1 h
  refine ⟨(aligned_iff a).2 h1, ?_⟩
  unfold InIo at h2; omega

theorem isRam_plain {a : BitVec 32} (h : Plain a) : isRam a 4#32 = false := by
  unfold isRam
  rw [if_pos (.inr h.2)]

theorem write_plain {s : State} {ram : Nat → BitVec 8} {a v : BitVec 32} (hs : s.ram = some ram) (h : Plain a) :
    ∃ s', write s a v = some s' ∧ s'.ram = some ram ∧
      ∀ q, (s'.io q).getD 0#32 = if q = a then v else (s.io q).getD 0#32 := by
  unfold write
  rw [hs]
  simp only [h.1, isRam_plain h, Bool.false_eq_true, if_false]
  by_cases hv : v = 0#32
  · rw [if_pos hv]
    refine ⟨_, rfl, rfl, fun q => ?_⟩
    by_cases hq : q = a <;> simp [hq, hv]
  · rw [if_neg hv]
    refine ⟨_, rfl, rfl, fun q => ?_⟩
    by_cases hq : q = a <;> simp [hq]

theorem writeAll_plain {f : BitVec 32 → BitVec 32} {ram : Nat → BitVec 8} :
    ∀ (l : List (BitVec 32)) {s : State}, s.ram = some ram → (∀ a ∈ l, Plain a) →
      ∃ s', writeAll f l s = some s' ∧ s'.ram = some ram ∧
        ∀ q, (s'.io q).getD 0#32 = if q ∈ l then f q else (s.io q).getD 0#32
  | [], s, hs, _ => ⟨s, rfl, hs, fun q => by simp⟩
  | a :: l, s, hs, h => by
    obtain ⟨s1, e1, r1, g1⟩ := write_plain (v := f a) hs (h a (List.mem_cons_self ..))
    obtain ⟨s2, e2, r2, g2⟩ := writeAll_plain l r1 (fun b hb => h b (List.mem_cons_of_mem _ hb))
    refine ⟨s2, by rw [writeAll, e1]; exact e2, r2, fun q => ?_⟩
    rw [g2 q, g1 q]
    by_cases hq : q = a
    · subst hq; simp
    · simp [hq]

theorem readAll_plain {s : State} {ram : Nat → BitVec 8} (hs : s.ram = some ram) :
    ∀ (l : List (BitVec 32)), (∀ a ∈ l, Plain a) →
      ∃ m, readAll s l = some m ∧ ∀ q, (m q).getD 0#32 = if q ∈ l then (s.io q).getD 0#32 else 0#32
  | [], _ => ⟨_, rfl, fun q => by simp⟩
  | a :: l, h => by
    obtain ⟨m, e, g⟩ := readAll_plain hs l (fun b hb => h b (List.mem_cons_of_mem _ hb))
    have ha := h a (List.mem_cons_self ..)
    have er : PhysMem.read s a = some ((s.io a).getD 0#32) := by
      unfold PhysMem.read
      rw [hs]
      simp only [ha.1, isRam_plain ha, Bool.false_eq_true, if_false]
    refine ⟨_, by rw [readAll, er, e]; rfl, fun q => ?_⟩
    by_cases hq : q = a
    · subst hq; simp
    · simp [hq, g q]

theorem isRam_ref (a : BitVec 32) : RefMem.isRam a = isRam a 4#32 := by
  unfold RefMem.isRam isRam
  by_cases h : a.toNat < 0x80000000
  · rw [if_pos h, if_pos (.inr h)]
  · have h4 : ¬ (4#32 = 0#32 ∨ a.toNat < ramBase) := by
      rintro (h' | h')
      · exact absurd h' (by decide)
      · exact h h'
    rw [if_neg h, if_neg h4]
    rfl

theorem load_eq (r : Ref) (a : BitVec 32) : r.load a = if isRam (a &&& ~~~3#32) 4#32 = true then
    r.ram (((a &&& ~~~3#32) - BitVec.ofNat 32 ramBase) >>> 2) else (r.io (a &&& ~~~3#32)).getD 0#32 := by
  have h := isRam_ref (a &&& ~~~3#32)
  unfold Ref.load
  by_cases hc : isRam (a &&& ~~~3#32) 4#32 = true
  · rw [if_pos hc, if_pos (show RefMem.isRam (RefMem.wordOf a) = true from h.trans hc)]
    rfl
  · rw [if_neg hc, if_neg (show ¬ RefMem.isRam (RefMem.wordOf a) = true from fun h' => hc (h.symm.trans h'))]
    rfl

/-- A read of the core's memory and of the reference's, side by side. -/
theorem read_load {s : State} {ram : Nat → BitVec 8} {r : Ref} (hs : s.ram = some ram) {a : BitVec 32}
    (hram : RamAddr a.toNat → ∀ i : Nat, i < 0x10000000 → word ram i = some (r.ram (BitVec.ofNat 32 i)))
    (hio : ¬ RamAddr a.toNat → (s.io (a &&& ~~~3#32)).getD 0#32 = (r.io (a &&& ~~~3#32)).getD 0#32) :
    PhysMem.read s a = some (r.load a) := by
  rw [load_eq]
  unfold PhysMem.read
  rw [hs]
  simp only
  by_cases hi : isRam (a &&& ~~~3#32) 4#32 = true
  · rw [if_pos hi, if_pos hi]
    have hi' := (Verif.Props.isRam_word a).1 hi
    have hin : RamAddr a.toNat := ⟨hi'.1, by have := hi'.2; omega⟩
    rw [hram hin _ (by
      rw [Verif.Props.ram_index a hi'.1]
      have := Verif.Props.off_le a.toNat hi'.1
      have := hin.2
      omega)]
    rw [BitVec.ofNat_toNat, BitVec.setWidth_eq]
  · rw [if_neg hi, if_neg hi]
    have hi' := mt (Verif.Props.isRam_word a).2 hi
    have hin : ¬ RamAddr a.toNat := fun h => hi' ⟨h.1, by have := h.2; omega⟩
    rw [hio hin]

/-! ### Files -/

theorem u32_put (v : BitVec 32) (r : List (BitVec 8)) : u32 (put32 v ++ r) = some (v, r) := by
  simp only [put32, List.cons_append, List.nil_append, u32, Verif.Props.word_bytes]

theorem u16_put (v : BitVec 16) (r : List (BitVec 8)) : u16 (put16 v ++ r) = some (v, r) := by
  have e : (v >>> 8).setWidth 8 ++ v.setWidth 8 = v := by
    apply BitVec.eq_of_getLsbD_eq
    intro i hi
    simp only [BitVec.getLsbD_append, BitVec.getLsbD_setWidth, BitVec.getLsbD_ushiftRight]
    by_cases h : i < 8
    · simp [h]
    · have h2 : i - 8 < 8 := by omega
      simp [h, h2]; congr 1; omega
  simp only [put16, List.cons_append, List.nil_append, u16]
  rw [e]

theorem u64_put (v : BitVec 64) (r : List (BitVec 8)) : u64 (put64 v ++ r) = some (v, r) := by
  have e : (v >>> 32).setWidth 32 ++ v.setWidth 32 = v := by
    apply BitVec.eq_of_getLsbD_eq
    intro i hi
    simp only [BitVec.getLsbD_append, BitVec.getLsbD_setWidth, BitVec.getLsbD_ushiftRight]
    by_cases h : i < 32
    · simp [h]
    · have h2 : i - 32 < 32 := by omega
      simp [h, h2]; congr 1; omega
  simp only [put64, u64, List.append_assoc, u32_put, Option.bind_some, Option.map_some]
  rw [e]

theorem u32s_put : ∀ (l : List (BitVec 32)) (r : List (BitVec 8)) {n : Nat}, l.length = n →
    u32s n (l.flatMap put32 ++ r) = some (l, r)
  | [], r, n, h => by subst h; rfl
  | v :: l, r, n, h => by
    subst h
    simp only [List.length_cons, u32s, List.flatMap_cons, List.append_assoc, u32_put, Option.bind_some]
    rw [u32s_put l r rfl]; rfl

theorem flag_put (b : Bool) (r : List (BitVec 8)) : flag (putFlag b ++ r) = some (b, r) := by
  cases b <;> rfl

theorem exact_put (l r : List (BitVec 8)) {n : Nat} (h : l.length = n) : exact n (l ++ r) = some (l, r) := by
  subst h
  simp [exact]

theorem ioWord_eq (bs : List (BitVec 8)) (k : Nat) : ioWord bs k = wordAt bs k := by
  simp [ioWord, wordAt, List.getD_eq_getElem?_getD]

theorem putWords_spec {base : BitVec 32} {bs : List (BitVec 8)} {ram : Nat → BitVec 8} (hb : base.toNat % 4 = 0) :
    ∀ (n : Nat) {s : State}, base.toNat + 4 * n ≤ 0x80000000 → s.ram = some ram →
      ∃ s', putWords base bs n s = some s' ∧ s'.ram = some ram ∧
        (∀ q : BitVec 32, ¬ (base.toNat ≤ q.toNat ∧ q.toNat < base.toNat + 4 * n) → s'.io q = s.io q) ∧
        ∀ k, k < n → (s.io (base + BitVec.ofNat 32 (4 * k))).getD 0#32 = 0#32 →
          (s'.io (base + BitVec.ofNat 32 (4 * k))).getD 0#32 = wordAt bs k
  | 0, s, _, hs => ⟨s, rfl, hs, fun _ _ => rfl, fun k hk => absurd hk (Nat.not_lt_zero _)⟩
  | n + 1, s, hn, hs => by
    obtain ⟨s1, e1, r1, o1, g1⟩ := putWords_spec hb n (by omega) hs
    have hA : (base + BitVec.ofNat 32 (4 * n)).toNat = base.toNat + 4 * n := toNat_word (by omega)
    have hp : Plain (base + BitVec.ofNat 32 (4 * n)) := ⟨(aligned_iff _).2 (by omega), by omega⟩
    have hne : ∀ k, k < n → base + BitVec.ofNat 32 (4 * k) ≠ base + BitVec.ofNat 32 (4 * n) := by
      intro k hk he
      have := congrArg BitVec.toNat he
      rw [hA, toNat_word (by omega)] at this
      omega
    by_cases hw : ioWord bs n = 0#32
    · refine ⟨s1, by rw [putWords, e1]; simp [hw], r1, fun q hq => o1 q (by omega), fun k hk h0 => ?_⟩
      by_cases hkn : k < n
      · exact g1 k hkn h0
      · obtain rfl : k = n := by omega
        rw [o1 _ (by rw [hA]; omega), h0, ← ioWord_eq, hw]
    · have ew : write s1 (base + BitVec.ofNat 32 (4 * n)) (ioWord bs n) =
          some { s1 with io := fun q => if q = base + BitVec.ofNat 32 (4 * n) then some (ioWord bs n) else s1.io q } := by
        unfold write
        rw [r1]
        simp only [hp.1, isRam_plain hp, Bool.false_eq_true, if_false]
        rw [if_neg hw]
      refine ⟨{ s1 with io := fun q => if q = base + BitVec.ofNat 32 (4 * n) then some (ioWord bs n) else s1.io q },
        by rw [putWords, e1, ← ew]; simp only [Option.bind_some]; rw [if_pos hw], r1, fun q hq => ?_, fun k hk h0 => ?_⟩
      · have : q ≠ base + BitVec.ofNat 32 (4 * n) := by
          rintro rfl
          rw [hA] at hq; omega
        simp only [this, if_false]
        exact o1 q (by omega)
      · by_cases hkn : k < n
        · simp only [hne k hkn, if_false]
          exact g1 k hkn h0
        · obtain rfl : k = n := by omega
          simp only [if_true, Option.getD_some, ioWord_eq]

theorem putRanges_cons {e : BitVec 32 × Nat} {l : List (BitVec 32 × Nat)} {bs rest : List (BitVec 8)} {s : State}
    (hl : bs.length < 2 ^ 32) (he : l = [] ∨ bs.length = e.2) :
    putRanges (e :: l) (putRange e.1 bs ++ rest) s = (putWords e.1 bs (bs.length / 4) s).bind (putRanges l rest) := by
  have hn : (BitVec.ofNat 32 bs.length).toNat = bs.length := by rw [BitVec.toNat_ofNat, Nat.mod_eq_of_lt hl]
  simp only [putRanges, putRange, List.append_assoc, u32_put, Option.bind_some, hn, exact_put bs rest rfl]
  rw [if_pos ⟨trivial, he⟩]

end Verif.Restore

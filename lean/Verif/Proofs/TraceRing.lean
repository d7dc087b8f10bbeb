import Verif.Spec.TraceRing
/- The buffer holds the newest events, each at its number modulo the size. -/
namespace Verif.TraceRingProofs
open Verif.TraceRing

variable {α : Type}

structure Holds (size : Nat) (l : List α) (r : Ring α) : Prop where
  len : r.events.length = size
  next : r.next = l.length % size
  wrapped : r.wrapped = decide (size ≤ l.length)
  at_ : ∀ j, j < l.length → l.length ≤ j + size → r.events[j % size]? = l[j]?

theorem holds_init (size : Nat) (d : α) (hs : 0 < size) : Holds size [] (init size d) :=
  ⟨List.length_replicate, by simp [init], by simp [init]; omega, fun _ h => absurd h (Nat.not_lt_zero _)⟩

theorem mod_inj {size i j : Nat} (h1 : i < j) (h2 : j < i + size) : i % size ≠ j % size := by
  intro h
  have : (j - i) % size = 0 := Nat.sub_mod_eq_zero_of_mod_eq h.symm
  have h3 : j - i < size := by omega
  rw [Nat.mod_eq_of_lt h3] at this
  omega

theorem holds_record {size : Nat} (hs : 0 < size) {l : List α} {r : Ring α} (h : Holds size l r) (e : α) :
    ∃ r', record r e = some r' ∧ Holds size (l ++ [e]) r' := by
  have hn : r.next < r.events.length := by rw [h.next, h.len]; exact Nat.mod_lt _ hs
  have e1 : (r.next + 1) % r.events.length = (l.length + 1) % size := by rw [h.next, h.len, Nat.mod_add_mod]
  refine ⟨_, by rw [record, if_pos hn], ?_, ?_, ?_, ?_⟩
  · rw [List.length_set]; exact h.len
  · rw [List.length_append, List.length_singleton]; exact e1
  · show (if (r.next + 1) % r.events.length = 0 then true else r.wrapped) = _
    rw [e1, h.wrapped, List.length_append, List.length_singleton]
    split
    · rename_i h0
      have := Nat.le_of_dvd (Nat.succ_pos _) (Nat.dvd_of_mod_eq_zero h0)
      exact (decide_eq_true this).symm
    · rename_i h0
      by_cases hc : size ≤ l.length
      · rw [decide_eq_true hc, decide_eq_true (by omega)]
      · rw [decide_eq_false hc, decide_eq_false]
        intro hc'
        have : l.length + 1 = size := by omega
        rw [this, Nat.mod_self] at h0
        exact h0 rfl
  · intro j hj hb
    rw [List.length_append, List.length_singleton] at hj hb
    show (r.events.set r.next e)[j % size]? = _
    by_cases hl : j < l.length
    · rw [List.getElem?_append_left hl, List.getElem?_set_ne, h.at_ j hl (by omega)]
      rw [h.next]
      exact fun he => mod_inj (size := size) hl (by omega) he.symm
    · have hj : j = l.length := by omega
      subst hj
      rw [← h.next, List.getElem?_set_self hn, List.getElem?_append_right (Nat.le_refl _), Nat.sub_self]
      rfl

theorem holds_records {size : Nat} (hs : 0 < size) : ∀ (m l : List α) {r : Ring α}, Holds size l r →
    ∃ r', records r m = some r' ∧ Holds size (l ++ m) r'
  | [], l, r, h => ⟨r, rfl, by rw [List.append_nil]; exact h⟩
  | e :: m, l, r, h => by
    obtain ⟨r1, e1, h1⟩ := holds_record hs h e
    obtain ⟨r2, e2, h2⟩ := holds_records hs m (l ++ [e]) h1
    exact ⟨r2, by rw [records, e1]; exact e2, by rw [List.append_assoc] at h2; exact h2⟩

/-- Where a dump looks. -/
theorem place {size len m i : Nat} (hs : 0 < size) (hm : m ≤ min size len) (hi : i < m) :
    ((if decide (size ≤ len) = true then (len % size + size - m) % size else len % size - m) + i) % size = (len - m + i) % size := by
  by_cases hc : size ≤ len
  · rw [if_pos (decide_eq_true hc), Nat.mod_add_mod]
    have h1 := Nat.mod_add_div len size
    have h2 := Nat.mod_lt len hs
    have hq : 1 ≤ len / size := (Nat.one_le_div_iff hs).2 hc
    obtain ⟨q, hq⟩ : ∃ q, len / size = q + 1 := ⟨len / size - 1, by omega⟩
    rw [hq, Nat.mul_succ] at h1
    have : len - m + i = (len % size + size - m + i) + size * q := by omega
    rw [this, Nat.add_mul_mod_self_left]
  · rw [if_neg (by simpa using hc), Nat.mod_eq_of_lt (by omega : len < size)]

theorem holds_dump {size : Nat} (hs : 0 < size) {l : List α} {r : Ring α} (h : Holds size l r) (c : Nat) :
    dump r c = if l = [] then none else
      some ⟨min c (min size l.length), min size l.length, (latest (min c (min size l.length)) l).map some⟩ := by
  have hcount : (if r.wrapped then r.events.length else r.next) = min size l.length := by
    rw [h.wrapped, h.len, h.next]
    by_cases hc : size ≤ l.length
    · rw [if_pos (decide_eq_true hc)]; omega
    · rw [if_neg (by simpa using hc), Nat.mod_eq_of_lt (by omega)]; omega
  unfold dump
  simp only [hcount]
  have hrec : (if c < min size l.length then c else min size l.length) = min c (min size l.length) := by split <;> omega
  by_cases hl : l = []
  · subst hl
    rw [if_pos (by simp), if_pos rfl]
  · have hpos : 0 < l.length := List.length_pos_iff.2 hl
    rw [if_neg (by omega), if_neg hl, hrec]
    congr 2
    apply List.ext_getElem?
    intro i
    have hM : min c (min size l.length) ≤ min size l.length := Nat.min_le_right _ _
    generalize hm : min c (min size l.length) = m at hM
    rw [List.getElem?_map, List.getElem?_map]
    unfold latest
    rw [List.getElem?_drop]
    by_cases hi : i < m
    · have hj : l.length - m + i < l.length := by omega
      rw [List.getElem?_range hi, Option.map_some]
      have hp := place (len := l.length) hs hM hi
      have hlast : (if r.wrapped = true then (r.next + r.events.length - m) % r.events.length else min size l.length - m) =
          (if decide (size ≤ l.length) = true then (l.length % size + size - m) % size else l.length % size - m) := by
        rw [h.wrapped, h.len, h.next]
        by_cases hc : size ≤ l.length
        · rw [if_pos (decide_eq_true hc), if_pos (decide_eq_true hc)]
        · rw [if_neg (by simpa using hc), if_neg (by simpa using hc), Nat.mod_eq_of_lt (by omega : l.length < size)]
          omega
      rw [hlast, h.len, hp, h.at_ _ hj (by omega), List.getElem?_eq_getElem hj]
      rfl
    · rw [List.getElem?_eq_none (by rw [List.length_range]; omega), List.getElem?_eq_none (by omega)]
      rfl

/-! ### The words around a page-table entry -/

theorem mask_toNat {k : Nat} (hk : k < 32) : (BitVec.ofNat 32 (2 ^ k) - 1#32).toNat = 2 ^ k - 1 := by
  have h1 : 2 ^ k < 2 ^ 32 := Nat.pow_lt_pow_right (by decide) hk
  have h2 := Nat.two_pow_pos k
  rw [BitVec.toNat_sub, BitVec.toNat_ofNat, BitVec.toNat_ofNat, Nat.mod_eq_of_lt h1]
  have : (2 ^ 32 - 1 % 2 ^ 32 + 2 ^ k) = (2 ^ k - 1) + 2 ^ 32 := by omega
  rw [this, Nat.add_mod_right, Nat.mod_eq_of_lt (by omega)]

theorem low_toNat {k : Nat} (hk : k < 32) (x : BitVec 32) : (x &&& (BitVec.ofNat 32 (2 ^ k) - 1#32)).toNat = x.toNat % 2 ^ k := by
  rw [BitVec.toNat_and, mask_toNat hk, Nat.and_two_pow_sub_one_eq_mod]

theorem line_toNat {k : Nat} (hk : k < 32) (x : BitVec 32) : (x &&& ~~~(BitVec.ofNat 32 (2 ^ k) - 1#32)).toNat + x.toNat % 2 ^ k = x.toNat := by
  rw [← low_toNat hk]
  generalize BitVec.ofNat 32 (2 ^ k) - 1#32 = m
  have h0 : (x &&& ~~~m) &&& (x &&& m) = 0#32 := by
    ext i hi
    simp only [BitVec.getElem_and, BitVec.getElem_not, BitVec.getElem_zero]
    cases x[i] <;> cases m[i] <;> rfl
  rw [← BitVec.toNat_add_of_and_eq_zero h0, BitVec.add_eq_or_of_and_eq_zero _ _ h0]
  congr 1
  ext i hi
  simp only [BitVec.getElem_and, BitVec.getElem_or, BitVec.getElem_not]
  cases x[i] <;> cases m[i] <;> rfl

theorem mod4 {k : Nat} (hk : 2 ≤ k) (a : Nat) : a % 2 ^ k % 4 = a % 4 :=
  Nat.mod_mod_of_dvd _ ⟨2 ^ (k - 2), by
    show 2 ^ k = 2 ^ 2 * 2 ^ (k - 2)
    rw [← Nat.pow_add]; congr 1; omega⟩

theorem off_eq {k : Nat} (hk : k ≤ 10) (read) (req pte : BitVec 32) : (walk k read req pte).off = req.toNat % 2 ^ k / 4 := by
  have h1 : 2 ^ k ≤ 2 ^ 10 := Nat.pow_le_pow_right (by decide) hk
  have h2 := Nat.mod_lt req.toNat (Nat.two_pow_pos k)
  unfold walk
  simp only
  rw [BitVec.toNat_setWidth, BitVec.toNat_ushiftRight, low_toNat (by omega), Nat.shiftRight_eq_div_pow]
  exact Nat.mod_eq_of_lt (by omega)

theorem word_at {k : Nat} (h2 : 2 ≤ k) (hk : k ≤ 10) (req : BitVec 32) :
    (req &&& ~~~(BitVec.ofNat 32 (2 ^ k) - 1#32)) + BitVec.ofNat 32 (req.toNat % 2 ^ k / 4 * 4) = req &&& ~~~3#32 := by
  apply BitVec.eq_of_toNat_eq
  have a := line_toNat (by omega : k < 32) req
  have b := line_toNat (by decide : 2 < 32) req
  have e : (BitVec.ofNat 32 (2 ^ 2) - 1#32) = 3#32 := by decide
  rw [e] at b
  have c := mod4 h2 req.toNat
  have d := req.isLt
  rw [BitVec.toNat_add, BitVec.toNat_ofNat]
  generalize req.toNat % 2 ^ k = u at a c ⊢
  generalize (req &&& ~~~(BitVec.ofNat 32 (2 ^ k) - 1#32)).toNat = v at a ⊢
  rw [Nat.mod_eq_of_lt (by omega : u / 4 * 4 < 2 ^ 32), Nat.mod_eq_of_lt (by omega)]
  omega

end Verif.TraceRingProofs

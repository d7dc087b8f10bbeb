import Verif.Model.LsuSys
import Verif.Props.RefMem

/-
Byte-level facts about the address tests of the load/store unit.
-/
namespace Verif.Lsu

open Verif.Lane Verif.Spec.ByteMem Verif.Spec.MemOrder

theorem value_congr (m1 m2 : Mem) (p q : BitVec 32) (n : Nat)
    (h : ∀ i < n, m1 (p + BitVec.ofNat 32 i) = m2 (q + BitVec.ofNat 32 i)) : value m1 p n = value m2 q n := by
  induction n with
  | zero => rfl
  | succ n ih =>
    simp only [value]
    rw [ih (fun i hi => h i (by omega)), h n (by omega)]

theorem load_congr (m1 m2 : Mem) (sz : Size) (sg : Bool) (p q : BitVec 32)
    (h : ∀ i < sz.bytes, m1 (p + BitVec.ofNat 32 i) = m2 (q + BitVec.ofNat 32 i)) :
    Spec.ByteMem.load m1 sz sg p = Spec.ByteMem.load m2 sz sg q := by
  unfold Spec.ByteMem.load
  rw [value_congr m1 m2 p q _ h]

theorem width_store (sz : Size) : memWidth sz.code = sz.bytes := by cases sz <;> decide

theorem width_load {sz : Size} {sg : Bool} {f3 : BitVec 3} (h : loadCode sz sg = some f3) : memWidth f3 = sz.bytes := by
  cases sz <;> cases sg <;> simp [loadCode] at h <;> subst h <;> decide

/-- Two byte ranges do not meet. -/
def Apart (p : BitVec 32) (n : Nat) (q : BitVec 32) (k : Nat) : Prop := p.toNat + n ≤ q.toNat ∨ q.toNat + k ≤ p.toNat

theorem bytes_le (sz : Size) : sz.bytes ≤ 4 := by cases sz <;> decide
theorem bytes_pos (sz : Size) : 0 < sz.bytes := by cases sz <;> decide

theorem store_other (m : Mem) (sz : Size) (s v a : BitVec 32) (hs : s.toNat + sz.bytes ≤ 2 ^ 32)
    (h : a.toNat < s.toNat ∨ s.toNat + sz.bytes ≤ a.toNat) : Spec.ByteMem.store m sz s v a = m a := by
  unfold Spec.ByteMem.store
  rw [if_neg]
  rw [BitVec.toNat_sub]
  have := a.isLt
  have := s.isLt
  omega

theorem load_store_apart (m : Mem) (ssz lsz : Size) (sg : Bool) (s v l : BitVec 32) (hs : s.toNat + ssz.bytes ≤ 2 ^ 32)
    (hl : l.toNat + lsz.bytes ≤ 2 ^ 32) (h : Apart l lsz.bytes s ssz.bytes) :
    Spec.ByteMem.load (Spec.ByteMem.store m ssz s v) lsz sg l = Spec.ByteMem.load m lsz sg l := by
  apply load_congr
  intro i hi
  apply store_other _ _ _ _ _ hs
  rw [BitVec.toNat_add, BitVec.toNat_ofNat]
  unfold Apart at h
  have := bytes_le lsz
  omega

theorem ofNat_bytes (sz : Size) : (BitVec.ofNat 32 sz.bytes).toNat = sz.bytes := by cases sz <;> decide

theorem checkStlf_disjoint {l s : BitVec 32} {lf sf : BitVec 3} {lsz ssz : Size} (hlw : memWidth lf = lsz.bytes)
    (hsw : memWidth sf = ssz.bytes) (hs : s.toNat + ssz.bytes < 2 ^ 32) (hl : l.toNat + lsz.bytes < 2 ^ 32) :
    checkStlf l lf s sf = .disjoint ↔ Apart l lsz.bytes s ssz.bytes := by
  unfold checkStlf Apart
  dsimp only
  rw [hlw, hsw]
  have e1 : (s + BitVec.ofNat 32 ssz.bytes).toNat = s.toNat + ssz.bytes := by
    rw [BitVec.toNat_add, ofNat_bytes]; omega
  have e2 : (l + BitVec.ofNat 32 lsz.bytes).toNat = l.toNat + lsz.bytes := by
    rw [BitVec.toNat_add, ofNat_bytes]; omega
  have := bytes_pos lsz
  have := bytes_pos ssz
  simp only [ge_iff_le, BitVec.le_def, e1, e2]
  constructor
  · intro h
    split at h
    · simp at h
    · split at h
      · omega
      · simp at h
  · intro h
    rw [if_neg (by omega), if_pos (by omega)]

theorem checkStlf_overlap {l s : BitVec 32} {lf sf : BitVec 3} {lsz ssz : Size} (hlw : memWidth lf = lsz.bytes)
    (hsw : memWidth sf = ssz.bytes) (hs : s.toNat + ssz.bytes < 2 ^ 32) (hl : l.toNat + lsz.bytes < 2 ^ 32) :
    checkStlf l lf s sf = .overlap ↔ s.toNat ≤ l.toNat ∧ l.toNat + lsz.bytes ≤ s.toNat + ssz.bytes := by
  unfold checkStlf
  dsimp only
  rw [hlw, hsw]
  have e1 : (s + BitVec.ofNat 32 ssz.bytes).toNat = s.toNat + ssz.bytes := by
    rw [BitVec.toNat_add, ofNat_bytes]; omega
  have e2 : (l + BitVec.ofNat 32 lsz.bytes).toNat = l.toNat + lsz.bytes := by
    rw [BitVec.toNat_add, ofNat_bytes]; omega
  have := bytes_pos lsz
  have := bytes_pos ssz
  simp only [ge_iff_le, BitVec.le_def, e1, e2]
  constructor
  · intro h
    split at h
    · assumption
    · split at h <;> simp at h
  · intro h
    rw [if_pos h]

/-- Memory that holds a word at address 0. -/
def wordMem (v : BitVec 32) : Mem := fun a => byteOf v a.toNat

theorem word_wordMem (v p : BitVec 32) (hp : p.toNat < 4) : word (wordMem v) p = v := by
  unfold word
  have : p - BitVec.ofNat 32 (p.toNat % 4) = 0#32 := by
    apply BitVec.eq_of_toNat_eq
    rw [BitVec.toNat_sub, BitVec.toNat_ofNat]
    have := p.isLt
    simp
    omega
  rw [this]
  apply BitVec.eq_of_toNat_eq
  have hb : ∀ i < 4, (wordMem v (0#32 + BitVec.ofNat 32 i)).toNat = v.toNat / 256 ^ i % 256 := by
    intro i hi
    have : (0#32 + BitVec.ofNat 32 i).toNat = i := by
      rw [BitVec.toNat_add, BitVec.toNat_ofNat]; simp; omega
    simp only [wordMem, byteOf, this, BitVec.toNat_ofNat]
  simp only [value, hb 0 (by omega), hb 1 (by omega), hb 2 (by omega), hb 3 (by omega), BitVec.toNat_ofNat]
  have := v.isLt
  omega

theorem load_store_cover (m : Mem) (ssz lsz : Size) (sg : Bool) (f3 : BitVec 3) (hf : loadCode lsz sg = some f3)
    (s v l : BitVec 32) (has : aligned ssz s) (hal : aligned lsz l) (hs : s.toNat + ssz.bytes ≤ 2 ^ 32)
    (h1 : s.toNat ≤ l.toNat) (h2 : l.toNat + lsz.bytes ≤ s.toNat + ssz.bytes) :
    Spec.ByteMem.load (Spec.ByteMem.store m ssz s v) lsz sg l = extractData v (l - s) f3 := by
  have hd : (l - s).toNat = l.toNat - s.toNat := by
    rw [BitVec.toNat_sub]
    have := l.isLt
    omega
  have hb := bytes_le ssz
  have hp := bytes_pos lsz
  have ha : aligned lsz (l - s) := by
    unfold aligned at *
    rw [hd]
    cases lsz <;> cases ssz <;> simp only [Size.bytes] at * <;> omega
  have hlt : (l - s).toNat < 4 := by omega
  have := Verif.Props.C33_core_load (wordMem v) lsz sg f3 hf (l - s) ha
  rw [word_wordMem v _ hlt] at this
  rw [this]
  apply load_congr
  intro i hi
  have e1 : (l + BitVec.ofNat 32 i).toNat = l.toNat + i := by
    rw [BitVec.toNat_add, BitVec.toNat_ofNat]
    have := bytes_le lsz
    by_cases hw : l.toNat + i < 2 ^ 32 <;> omega
  have e2 : (l - s + BitVec.ofNat 32 i).toNat = l.toNat - s.toNat + i := by
    rw [BitVec.toNat_add, BitVec.toNat_ofNat, hd]
    omega
  have e3 : (l + BitVec.ofNat 32 i - s).toNat = l.toNat - s.toNat + i := by
    rw [BitVec.toNat_sub, e1]
    have := s.isLt
    omega
  unfold Spec.ByteMem.store wordMem
  rw [e3, e2, if_pos (by omega)]

theorem and_not3 (p : BitVec 32) : (p &&& ~~~3#32).toNat = p.toNat - p.toNat % 4 := by
  have : p &&& ~~~3#32 = (p >>> 2) <<< 2 := by
    apply BitVec.eq_of_getLsbD_eq
    intro i hi
    rw [BitVec.getLsbD_and, BitVec.getLsbD_shiftLeft, BitVec.getLsbD_ushiftRight]
    have h3 : (~~~3#32).getLsbD i = decide (2 ≤ i) := by
      have : ∀ i : Fin 32, (~~~3#32).getLsbD i.val = decide (2 ≤ i.val) := by decide
      exact this ⟨i, hi⟩
    rw [h3]
    by_cases h : 2 ≤ i
    · have : 2 + (i - 2) = i := by omega
      simp [h, hi, this, show ¬ i < 2 by omega]
    · simp [h, show i < 2 by omega]
  rw [this, BitVec.toNat_shiftLeft, BitVec.toNat_ushiftRight, Nat.shiftLeft_eq, Nat.shiftRight_eq_div_pow]
  have := p.isLt
  omega

theorem strb_bit (sz : Size) (p : BitVec 32) (ha : aligned sz p) (j : Nat) (hj : j < 4) :
    (storeStrb p sz.code).getLsbD j = decide (p.toNat % 4 ≤ j ∧ j < p.toNat % 4 + sz.bytes) := by
  have hplt : p.toNat % 4 < 4 := Nat.mod_lt _ (by decide)
  have hal : p.toNat % 4 + sz.bytes ≤ 4 := by
    unfold aligned at ha; cases sz <;> simp only [Size.bytes] at * <;> omega
  have key : ∀ (o j : Fin 4), ∀ sz ∈ [Size.byte, Size.half, Size.word], o.val + sz.bytes ≤ 4 →
      (if sz.code &&& 3#3 = 0#3 then 1#8 <<< o.val else if sz.code &&& 3#3 = 1#3 then 3#8 <<< o.val
        else if sz.code &&& 3#3 = 2#3 then 15#8 else 0#8 : BitVec 8).getLsbD j.val =
        decide (o.val ≤ j.val ∧ j.val < o.val + sz.bytes) := by decide
  unfold storeStrb
  dsimp only
  have : (p &&& 3#32).toNat = p.toNat % 4 := Verif.RefMem.off_toNat p
  rw [this]
  exact key ⟨_, hplt⟩ ⟨_, hj⟩ sz (by cases sz <;> simp) hal

/-- Two aligned stores the address check passes touch no common byte. -/
theorem checkAddr_apart {p q : BitVec 32} {a b : Size} (hp : aligned a p) (hq : aligned b q)
    (h : checkAddr p (storeStrb p a.code) q (storeStrb q b.code) = false) : Apart p a.bytes q b.bytes := by
  apply Classical.byContradiction
  intro hn
  have hap : p.toNat % 4 + a.bytes ≤ 4 := by
    unfold aligned at hp; cases a <;> simp only [Size.bytes] at * <;> omega
  have haq : q.toNat % 4 + b.bytes ≤ 4 := by
    unfold aligned at hq; cases b <;> simp only [Size.bytes] at * <;> omega
  unfold Apart at hn
  have hpos := bytes_pos a
  have hposb := bytes_pos b
  -- the common byte
  obtain ⟨x, hx1, hx2, hx3, hx4⟩ : ∃ x, p.toNat ≤ x ∧ x < p.toNat + a.bytes ∧ q.toNat ≤ x ∧ x < q.toNat + b.bytes := by
    by_cases hc : p.toNat ≤ q.toNat
    · exact ⟨q.toNat, by omega, by omega, by omega, by omega⟩
    · exact ⟨p.toNat, by omega, by omega, by omega, by omega⟩
  have hsame : p &&& ~~~3#32 = q &&& ~~~3#32 := by
    apply BitVec.eq_of_toNat_eq
    rw [and_not3, and_not3]
    omega
  have hs1 := strb_bit a p hp (x % 4) (by omega)
  have hs2 := strb_bit b q hq (x % 4) (by omega)
  rw [decide_eq_true (by omega)] at hs1 hs2
  unfold checkAddr at h
  dsimp only at h
  rw [hsame, if_neg (by rw [if_neg (by simp)]; simp)] at h
  rw [if_neg (by simp)] at h
  simp only [BitVec.sub_self, BitVec.toNat_zero, BitVec.shiftLeft_zero, decide_eq_false_iff_not, Decidable.not_not, ne_eq] at h
  have := congrArg (fun z => z.getLsbD (x % 4)) h
  simp only [BitVec.getLsbD_and, BitVec.getLsbD_setWidth, hs1, hs2, BitVec.getLsbD_zero] at this
  simp [show x % 4 < 64 by omega] at this

theorem store_comm (m : Mem) (a b : Size) (p q v w : BitVec 32) (hp : p.toNat + a.bytes ≤ 2 ^ 32)
    (hq : q.toNat + b.bytes ≤ 2 ^ 32) (h : Apart p a.bytes q b.bytes) :
    Spec.ByteMem.store (Spec.ByteMem.store m a p v) b q w = Spec.ByteMem.store (Spec.ByteMem.store m b q w) a p v := by
  funext x
  by_cases h1 : x.toNat < p.toNat ∨ p.toNat + a.bytes ≤ x.toNat
  · rw [store_other (Spec.ByteMem.store m b q w) a p v x hp h1]
    unfold Spec.ByteMem.store
    split
    · rfl
    · exact store_other m a p v x hp h1
  · have h2 : x.toNat < q.toNat ∨ q.toNat + b.bytes ≤ x.toNat := by
      unfold Apart at h; omega
    rw [store_other (Spec.ByteMem.store m a p v) b q w x hq h2]
    unfold Spec.ByteMem.store
    split
    · rfl
    · exact (store_other m b q w x hq h2).symm

theorem same_word {p q : BitVec 32} {a b : Size} (hp : okAddr a p) (hq : okAddr b q)
    (h1 : q.toNat ≤ p.toNat) (h2 : p.toNat + a.bytes ≤ q.toNat + b.bytes) : mmioAddr p = mmioAddr q := by
  rw [hp.2.2, hq.2.2]
  have haq : q.toNat % 4 + b.bytes ≤ 4 := by
    have := hq.1
    unfold aligned at this; cases b <;> simp only [Size.bytes] at * <;> omega
  have hpos := bytes_pos a
  have : p &&& ~~~3#32 = q &&& ~~~3#32 := by
    apply BitVec.eq_of_toNat_eq
    rw [and_not3, and_not3]
    omega
  rw [this]

theorem writeReq_store (m : Mem) (sz : Size) (p v : BitVec 32) (ha : aligned sz p) (idx : Nat) :
    writeReq m { addr := p, data := alignStoreData v p sz.code, strb := storeStrb p sz.code, idx := idx } =
      Spec.ByteMem.store m sz p v := by
  funext a
  exact Verif.Props.C33_core_store m sz p v ha a

end Verif.Lsu

import Verif.Model.PhysMem
import Mathlib.Logic.Relation
/-
C32: physical memory is an array of bytes indexed by 32-bit addresses.
-/
namespace Verif.Props
open Verif.PhysMem

/-- The specification: one byte per 32-bit address. -/
abbrev ByteMem := Nat → BitVec 8

/-- The aligned word containing address `a`, little-endian. -/
def ByteMem.word (m : ByteMem) (a : Nat) : BitVec 32 :=
  m (a / 4 * 4 + 3) ++ m (a / 4 * 4 + 2) ++ m (a / 4 * 4 + 1) ++ m (a / 4 * 4)

/-- The memory after storing `v` in the aligned word containing `a`. -/
def ByteMem.setWord (m : ByteMem) (a : Nat) (v : BitVec 32) : ByteMem :=
  fun k => if k / 4 = a / 4 then (v >>> (8 * (k % 4))).setWidth 8 else m k

/-- The memory after copying `src` to addresses `a`, `a+1`, ... -/
def ByteMem.copy (m : ByteMem) (a : Nat) (src : List (BitVec 8)) : ByteMem :=
  fun k => if a ≤ k then (src[k - a]?).getD (m k) else m k

/-- The bytes from `a` to `a + len - 1` all lie in RAM. -/
def InRam (a len : Nat) : Prop := ∀ k < len, 0x80000000 ≤ a + k ∧ a + k < 0x80000000 + 0x40000000

/-- Offset of an address in RAM. -/
def ramOff (k : Nat) : Nat := k - 0x80000000

/-- The program's state represents the byte memory `m`. -/
def Represents (s : State) (m : ByteMem) : Prop :=
  ∃ ram, s.ram = some ram ∧
    ∀ k < 2 ^ 32, m k = if 0x80000000 ≤ k ∧ k < 0x80000000 + 0x40000000 then ram (ramOff k)
      else (((s.io (BitVec.ofNat 32 (k / 4 * 4))).getD 0#32) >>> (8 * (k % 4))).setWidth 8

/-- C32: the range test accepts exactly the non-empty accesses lying entirely inside RAM, without overflow. -/
theorem C32_range (a size : BitVec 32) : isRam a size = true ↔ size ≠ 0#32 ∧ InRam a.toNat size.toNat := by
  have ha := a.isLt
  have hs := size.isLt
  have h0 : size = 0#32 ↔ size.toNat = 0 := by rw [← BitVec.toNat_inj]; rfl
  unfold isRam InRam
  by_cases h : size = 0#32 ∨ a.toNat < ramBase
  · rw [if_pos h]
    simp only [Bool.false_eq_true, false_iff, not_and, ramBase] at *
    intro hn hk
    rcases h with h | h
    · exact hn h
    · have := hk 0 (by have := mt h0.2 hn; omega)
      omega
  · rw [if_neg h]
    simp only [not_or, ramBase, Nat.not_lt, decide_eq_true_eq, ramSize] at *
    have hn := mt h0.2 h.1
    have e : (a.setWidth 64 + size.setWidth 64 - 1#64).toNat = a.toNat + size.toNat - 1 := by
      rw [BitVec.toNat_sub, BitVec.toNat_add, BitVec.toNat_setWidth, BitVec.toNat_setWidth]
      have e1 : (1#64).toNat = 1 := rfl
      rw [e1, Nat.mod_eq_of_lt (show a.toNat < 2 ^ 64 by omega), Nat.mod_eq_of_lt (show size.toNat < 2 ^ 64 by omega)]
      omega
    rw [e]
    constructor
    · intro h1
      exact ⟨h.1, fun k hk => by omega⟩
    · rintro ⟨_, h1⟩
      have := h1 (size.toNat - 1) (by omega)
      omega

theorem align_toNat (a : BitVec 32) : (a &&& ~~~3#32).toNat = a.toNat / 4 * 4 := by
  have h : a &&& ~~~3#32 = (a >>> 2) <<< 2 := by
    apply BitVec.eq_of_getLsbD_eq
    intro i hi
    have h3 : ∀ j < 32, (3#32).getLsbD j = decide (j < 2) := by decide +kernel
    rw [BitVec.getLsbD_and, BitVec.getLsbD_not, h3 i hi, BitVec.getLsbD_shiftLeft, BitVec.getLsbD_ushiftRight]
    by_cases h2 : i < 2
    · simp [h2]
    · have e : 2 + (i - 2) = i := by omega
      simp [h2, hi, e]
  rw [h, BitVec.toNat_shiftLeft, BitVec.toNat_ushiftRight, Nat.shiftLeft_eq, Nat.shiftRight_eq_div_pow]
  have := a.isLt
  omega

theorem isRam_word (a : BitVec 32) :
    isRam (a &&& ~~~3#32) 4#32 = true ↔ 0x80000000 ≤ a.toNat ∧ a.toNat < 0x80000000 + 0x40000000 := by
  rw [C32_range, align_toNat]
  unfold InRam
  have e : (4#32).toNat = 4 := rfl
  rw [e]
  constructor
  · rintro ⟨_, h⟩
    have := h 0 (by omega)
    have := h 3 (by omega)
    omega
  · intro h
    exact ⟨by decide, fun k hk => by omega⟩

theorem ram_index (a : BitVec 32) (h : 0x80000000 ≤ a.toNat) :
    (((a &&& ~~~3#32) - BitVec.ofNat 32 ramBase) >>> 2).toNat = ramOff a.toNat / 4 := by
  unfold ramOff
  rw [BitVec.toNat_ushiftRight, BitVec.toNat_sub, align_toNat, Nat.shiftRight_eq_div_pow]
  have := a.isLt
  have e : (BitVec.ofNat 32 ramBase).toNat = 0x80000000 := by decide
  rw [e]; omega

theorem offset (a : BitVec 32) (h : 0x80000000 ≤ a.toNat) :
    (a - BitVec.ofNat 32 ramBase).toNat = ramOff a.toNat := by
  unfold ramOff
  rw [BitVec.toNat_sub]
  have := a.isLt
  have e : (BitVec.ofNat 32 ramBase).toNat = 0x80000000 := by decide
  rw [e]; omega

theorem align_ofNat (a : BitVec 32) : a &&& ~~~3#32 = BitVec.ofNat 32 (a.toNat / 4 * 4) := by
  rw [← align_toNat]; simp

theorem word_bytes (v : BitVec 32) :
    (v >>> 24).setWidth 8 ++ (v >>> 16).setWidth 8 ++ (v >>> 8).setWidth 8 ++ (v >>> 0).setWidth 8 = v := by
  apply BitVec.eq_of_getLsbD_eq
  intro i hi
  simp only [BitVec.getLsbD_append, BitVec.getLsbD_setWidth, BitVec.getLsbD_ushiftRight]
  by_cases h1 : i < 8
  · simp [h1]
  · by_cases h2 : i - 8 < 8
    · simp [h1, h2]; congr 1; omega
    · by_cases h3 : i - 8 - 8 < 8
      · simp [h1, h2, h3]; congr 1; omega
      · have h4 : i - 8 - 8 - 8 < 8 := by omega
        simp [h1, h2, h3, h4]; congr 1; omega

theorem word_off' (x B d c : Nat) (hc : B = 4 * c) (h : B ≤ x) : x / 4 * 4 + d - B = 4 * ((x - B) / 4) + d := by
  subst hc; omega

theorem word_off (x d : Nat) (h : 0x80000000 ≤ x) : ramOff (x / 4 * 4 + d) = 4 * (ramOff x / 4) + d :=
  word_off' x 0x80000000 d 0x20000000 (by decide) h

theorem off_add (x k : Nat) (h : 0x80000000 ≤ x) : ramOff (x + k) = ramOff x + k := Nat.sub_add_comm h

theorem off_le (x : Nat) (h : 0x80000000 ≤ x) : ramOff x + 0x80000000 = x := Nat.sub_add_cancel h

/-- C32: a read returns the aligned word of the byte memory and never leaves the RAM block. -/
theorem C32_read {s : State} {m : ByteMem} (h : Represents s m) (a : BitVec 32) :
    PhysMem.read s a = some (m.word a.toNat) := by
  obtain ⟨ram, hr, hm⟩ := h
  have ha := a.isLt
  unfold PhysMem.read
  rw [hr]
  simp only
  by_cases hi : isRam (a &&& ~~~3#32) 4#32 = true
  · rw [if_pos hi]
    have hi' := (isRam_word a).1 hi
    rw [ram_index a hi'.1]
    unfold word ByteMem.word
    rw [if_pos (by have := off_le a.toNat hi'.1; simp only [ramSize]; omega)]
    rw [hm _ (by omega), hm _ (by omega), hm _ (by omega), hm _ (by omega)]
    rw [if_pos (by omega), if_pos (by omega), if_pos (by omega), if_pos (by omega)]
    have e0 := word_off a.toNat 0 hi'.1
    rw [Nat.add_zero, Nat.add_zero] at e0
    rw [e0, word_off _ 1 hi'.1, word_off _ 2 hi'.1, word_off _ 3 hi'.1]
  · rw [if_neg hi]
    have hi' := mt (isRam_word a).2 hi
    unfold ByteMem.word
    rw [hm _ (by omega), hm _ (by omega), hm _ (by omega), hm _ (by omega)]
    rw [if_neg (by omega), if_neg (by omega), if_neg (by omega), if_neg (by omega)]
    have e0 : a.toNat / 4 * 4 / 4 * 4 = a.toNat / 4 * 4 := by omega
    have e1 : (a.toNat / 4 * 4 + 1) / 4 * 4 = a.toNat / 4 * 4 := by omega
    have e2 : (a.toNat / 4 * 4 + 2) / 4 * 4 = a.toNat / 4 * 4 := by omega
    have e3 : (a.toNat / 4 * 4 + 3) / 4 * 4 = a.toNat / 4 * 4 := by omega
    have f0 : 8 * (a.toNat / 4 * 4 % 4) = 0 := by omega
    have f1 : 8 * ((a.toNat / 4 * 4 + 1) % 4) = 8 := by omega
    have f2 : 8 * ((a.toNat / 4 * 4 + 2) % 4) = 16 := by omega
    have f3 : 8 * ((a.toNat / 4 * 4 + 3) % 4) = 24 := by omega
    rw [e0, e1, e2, e3, f0, f1, f2, f3, align_ofNat, word_bytes]

/-- C32: a write sets the aligned word and nothing else. -/
theorem C32_write {s : State} {m : ByteMem} (h : Represents s m) (a v : BitVec 32) :
    ∃ s', write s a v = some s' ∧ Represents s' (m.setWord a.toNat v) := by
  obtain ⟨ram, hr, hm⟩ := h
  have ha := a.isLt
  unfold write
  rw [hr]
  simp only
  by_cases hi : isRam (a &&& ~~~3#32) 4#32 = true
  · rw [if_pos hi]
    have hi' := (isRam_word a).1 hi
    rw [ram_index a hi'.1]
    unfold setWord
    rw [if_pos (by have := off_le a.toNat hi'.1; simp only [ramSize]; omega)]
    refine ⟨_, rfl, _, rfl, ?_⟩
    intro k hk
    unfold ByteMem.setWord
    by_cases hkr : 0x80000000 ≤ k ∧ k < 0x80000000 + 0x40000000
    · rw [if_pos hkr]
      by_cases he : k / 4 = a.toNat / 4
      · have h1 := off_le k hkr.1
        have h2 := off_le a.toNat hi'.1
        rw [if_pos he, if_pos (by omega)]
        have : k % 4 = ramOff k % 4 := by omega
        rw [this]
      · have h1 := off_le k hkr.1
        have h2 := off_le a.toNat hi'.1
        rw [if_neg he, if_neg (by omega), hm k hk, if_pos hkr]
    · rw [if_neg hkr, if_neg (by omega), hm k hk, if_neg hkr]
  · rw [if_neg hi]
    have hi' := mt (isRam_word a).2 hi
    have key : ∀ io' : BitVec 32 → Option (BitVec 32),
        (∀ q, (io' q).getD 0#32 = if q = a &&& ~~~3#32 then v else (s.io q).getD 0#32) →
        Represents ⟨some ram, io'⟩ (m.setWord a.toNat v) := by
      intro io' hio
      refine ⟨ram, rfl, ?_⟩
      intro k hk
      unfold ByteMem.setWord
      by_cases hkr : 0x80000000 ≤ k ∧ k < 0x80000000 + 0x40000000
      · rw [if_pos hkr, if_neg (by omega), hm k hk, if_pos hkr]
      · rw [if_neg hkr]
        show _ = (((io' (BitVec.ofNat 32 (k / 4 * 4))).getD 0#32) >>> (8 * (k % 4))).setWidth 8
        rw [hio]
        by_cases he : k / 4 = a.toNat / 4
        · rw [if_pos he, if_pos (by rw [align_ofNat, he])]
        · rw [if_neg he, if_neg, hm k hk, if_neg hkr]
          intro hc
          rw [align_ofNat, ← BitVec.toNat_inj, BitVec.toNat_ofNat, BitVec.toNat_ofNat] at hc
          omega
    by_cases hv : v = 0#32
    · rw [if_pos hv]
      refine ⟨_, rfl, key _ ?_⟩
      intro q
      by_cases hq : q = a &&& ~~~3#32
      · simp only [hq, if_true, Option.getD_none, hv]
      · simp only [hq, if_false]
    · rw [if_neg hv]
      refine ⟨_, rfl, key _ ?_⟩
      intro q
      by_cases hq : q = a &&& ~~~3#32
      · simp only [hq, if_true, Option.getD_some]
      · simp only [hq, if_false]

/-- C32: a bulk copy into memory succeeds exactly when the destination lies entirely in RAM; it then sets exactly the
destination bytes. -/
theorem C32_copy_to {s : State} {m : ByteMem} (h : Represents s m) (a : BitVec 32) (src : List (BitVec 8)) :
    (InRam a.toNat src.length → ∃ s', copyTo s a src = some s' ∧ Represents s' (m.copy a.toNat src)) ∧
    (¬ InRam a.toNat src.length → copyTo s a src = none) := by
  obtain ⟨ram, hr, hm⟩ := h
  have ha := a.isLt
  have hrange : src.length ≠ 0 → ¬ src.length > ramSize →
      (isRam a (BitVec.ofNat 32 src.length) = true ↔ InRam a.toNat src.length) := by
    intro h1 h2
    rw [C32_range]
    have e : (BitVec.ofNat 32 src.length).toNat = src.length := by
      rw [BitVec.toNat_ofNat]; simp only [ramSize] at h2; omega
    rw [e]
    constructor
    · exact fun h => h.2
    · refine fun h => ⟨?_, h⟩
      intro hc
      rw [← BitVec.toNat_inj, e] at hc
      exact h1 hc
  unfold copyTo
  rw [hr]
  simp only
  by_cases hl : src.length = 0
  · rw [if_pos hl]
    have hsrc : src = [] := List.length_eq_zero_iff.1 hl
    subst hsrc
    refine ⟨fun _ => ⟨s, rfl, ram, hr, ?_⟩, ?_⟩
    · intro k hk
      rw [← hm k hk]
      unfold ByteMem.copy
      simp
    · intro hc
      exact absurd (fun k hk => absurd hk (by simp)) hc
  · rw [if_neg hl]
    by_cases hb : src.length > ramSize
    · rw [if_pos hb]
      refine ⟨fun hi => ?_, fun _ => rfl⟩
      have h1 := hi 0 (by omega)
      have h2 := hi (src.length - 1) (by omega)
      simp only [ramSize] at hb
      omega
    · rw [if_neg hb]
      have hx := hrange hl hb
      by_cases hi : InRam a.toNat src.length
      · rw [if_neg (by rw [hx.2 hi]; simp)]
        have h1 := hi 0 (by omega)
        have h2 := hi (src.length - 1) (by omega)
        have h3 := off_le a.toNat (by omega)
        rw [offset a (by omega), if_pos (by simp only [ramSize]; omega)]
        refine ⟨fun _ => ⟨_, rfl, _, rfl, ?_⟩, fun hc => absurd hi hc⟩
        intro k hk
        unfold ByteMem.copy
        by_cases hkr : 0x80000000 ≤ k ∧ k < 0x80000000 + 0x40000000
        · rw [if_pos hkr]
          have h4 := off_le k hkr.1
          by_cases hak : a.toNat ≤ k
          · rw [if_pos hak, if_pos (by omega), hm k hk, if_pos hkr]
            have e : ramOff k - ramOff a.toNat = k - a.toNat := by omega
            rw [e]
          · rw [if_neg hak, if_neg (by omega), hm k hk, if_pos hkr]
        · rw [if_neg hkr]
          by_cases hak : a.toNat ≤ k
          · rw [if_pos hak, List.getElem?_eq_none (by omega), Option.getD_none, hm k hk, if_neg hkr]
          · rw [if_neg hak, hm k hk, if_neg hkr]
      · refine ⟨fun h => absurd h hi, fun _ => ?_⟩
        rw [if_pos]
        cases hc : isRam a (BitVec.ofNat 32 src.length) with
        | false => rfl
        | true => exact absurd (hx.1 hc) hi

/-- C32: a bulk copy out of memory returns exactly the addressed bytes, or fails if they are not all in RAM. -/
theorem C32_copy_from {s : State} {m : ByteMem} (h : Represents s m) (a : BitVec 32) (len : Nat) :
    (InRam a.toNat len → copyFrom s a len = some ((List.range len).map (fun k => m (a.toNat + k)))) ∧
    (¬ InRam a.toNat len → copyFrom s a len = none) := by
  obtain ⟨ram, hr, hm⟩ := h
  have ha := a.isLt
  unfold copyFrom
  rw [hr]
  simp only
  by_cases hl : len = 0
  · subst hl
    refine ⟨fun _ => by simp, fun hc => absurd (fun k hk => absurd hk (by omega)) hc⟩
  · rw [if_neg hl]
    by_cases hb : len > ramSize
    · rw [if_pos hb]
      refine ⟨fun hi => ?_, fun _ => rfl⟩
      have h1 := hi 0 (by omega)
      have h2 := hi (len - 1) (by omega)
      simp only [ramSize] at hb
      omega
    · rw [if_neg hb]
      have e : (BitVec.ofNat 32 len).toNat = len := by
        rw [BitVec.toNat_ofNat]; simp only [ramSize] at hb; omega
      have hx : isRam a (BitVec.ofNat 32 len) = true ↔ InRam a.toNat len := by
        rw [C32_range, e]
        refine ⟨fun h => h.2, fun h => ⟨?_, h⟩⟩
        intro hc
        rw [← BitVec.toNat_inj, e] at hc
        exact hl hc
      by_cases hi : InRam a.toNat len
      · rw [if_neg (by rw [hx.2 hi]; simp)]
        have h1 := hi 0 (by omega)
        have h2 := hi (len - 1) (by omega)
        have h3 := off_le a.toNat (by omega)
        rw [offset a (by omega), if_pos (by simp only [ramSize]; omega)]
        refine ⟨fun _ => ?_, fun hc => absurd hi hc⟩
        congr 1
        apply List.map_congr_left
        intro k hk
        rw [List.mem_range] at hk
        rw [hm _ (by omega), if_pos (by omega)]
        rw [off_add _ _ (by omega)]
      · refine ⟨fun h => absurd h hi, fun _ => ?_⟩
        rw [if_pos]
        cases hc : isRam a (BitVec.ofNat 32 len) with
        | false => rfl
        | true => exact absurd (hx.1 hc) hi

/-- C32: after initialisation and after a clear everything reads zero. -/
theorem C32_init (s : State) : Represents (init s) (fun _ => 0#8) ∧
    (s.ram.isSome → Represents (clearAll s) (fun _ => 0#8)) := by
  have hz : ∀ k, (((none : Option (BitVec 32)).getD 0#32) >>> (8 * (k % 4))).setWidth 8 = 0#8 := by
    intro k; simp
  have hclr : s.ram.isSome → Represents (clearAll s) (fun _ => 0#8) := by
    intro h
    obtain ⟨r, hr⟩ := Option.isSome_iff_exists.1 h
    refine ⟨fun _ => 0#8, by simp [clearAll, hr], ?_⟩
    intro k _
    split
    · rfl
    · exact (hz k).symm
  refine ⟨?_, hclr⟩
  unfold init
  by_cases h : s.ram.isSome = true
  · rw [if_pos h]; exact hclr h
  · rw [if_neg h]
    refine ⟨fun _ => 0#8, rfl, ?_⟩
    intro k _
    split
    · rfl
    · exact (hz k).symm

/-! ### Histories -/

/-- Operations that change memory. -/
inductive MemOp where
  | write (a v : BitVec 32)
  | copy (a : BitVec 32) (src : List (BitVec 8))
  | clear

/-- The program's effect (`none`: abort). -/
def MemOp.run (s : State) : MemOp → Option State
  | .write a v => PhysMem.write s a v
  | .copy a src => copyTo s a src
  | .clear => some (clearAll s)

/-- The value of byte `k` after a history: the newest operation that touches it decides, zero if there is none. -/
def lastByte (k : Nat) : List MemOp → BitVec 8
  | [] => 0#8
  | .write a v :: older => if k / 4 = a.toNat / 4 then (v >>> (8 * (k % 4))).setWidth 8 else lastByte k older
  | .copy a src :: older =>
    if a.toNat ≤ k ∧ k < a.toNat + src.length then (src[k - a.toNat]?).getD 0#8 else lastByte k older
  | .clear :: _ => 0#8

/-- States reached from a freshly initialised memory, with the history of operations (newest first). -/
inductive Hist : State → List MemOp → Prop
  | init (s : State) : Hist (init s) []
  | step (s s' : State) (op : MemOp) (l : List MemOp) : Hist s l → op.run s = some s' → Hist s' (op :: l)

theorem hist_represents {s : State} {l : List MemOp} (h : Hist s l) : Represents s (fun k => lastByte k l) := by
  induction h with
  | init s => exact (C32_init s).1
  | step s s' op l _ hs ih =>
    cases op with
    | write a v =>
      obtain ⟨s1, h1, h2⟩ := C32_write ih a v
      have e : s1 = s' := by
        have : PhysMem.write s a v = some s' := hs
        rw [h1] at this; injection this
      subst e; exact h2
    | clear =>
      have e : clearAll s = s' := by injection hs
      subst e
      obtain ⟨ram, hr, _⟩ := ih
      exact (C32_init s).2 (by rw [hr]; rfl)
    | copy a src =>
      have hs' : copyTo s a src = some s' := hs
      by_cases hi : InRam a.toNat src.length
      · obtain ⟨s1, h1, h2⟩ := (C32_copy_to ih a src).1 hi
        have e : s1 = s' := by rw [h1] at hs'; injection hs'
        subst e
        have e : (fun k => lastByte k (.copy a src :: l)) = ByteMem.copy (fun k => lastByte k l) a.toNat src := by
          funext k
          unfold ByteMem.copy
          simp only [lastByte]
          by_cases h1 : a.toNat ≤ k
          · by_cases h2 : k < a.toNat + src.length
            · rw [if_pos ⟨h1, h2⟩, if_pos h1]
              have : k - a.toNat < src.length := by omega
              rw [List.getElem?_eq_getElem this]; rfl
            · rw [if_neg (by omega), if_pos h1, List.getElem?_eq_none (by omega)]; rfl
          · rw [if_neg (by omega), if_neg h1]
        rw [e]; exact h2
      · rw [(C32_copy_to ih a src).2 hi] at hs'; exact absurd hs' (by simp)

/-- C32: after any history of writes, bulk copies and clears a read returns, byte by byte, what the newest operation
touching that byte stored, zero if none did. -/
theorem C32_last_value {s : State} {l : List MemOp} (h : Hist s l) (a : BitVec 32) :
    PhysMem.read s a = some (lastByte (a.toNat / 4 * 4 + 3) l ++ lastByte (a.toNat / 4 * 4 + 2) l ++
      lastByte (a.toNat / 4 * 4 + 1) l ++ lastByte (a.toNat / 4 * 4) l) :=
  C32_read (hist_represents h) a

/-- C32, for words: a read of the word just written returns the value, a read of any other word what it returned before. -/
theorem C32_read_after_write {s : State} {m : ByteMem} (h : Represents s m) (a b v : BitVec 32) :
    ∃ s', PhysMem.write s a v = some s' ∧
      PhysMem.read s' b = if b.toNat / 4 = a.toNat / 4 then some v else PhysMem.read s b := by
  obtain ⟨s', h1, h2⟩ := C32_write h a v
  refine ⟨s', h1, ?_⟩
  rw [C32_read h2, C32_read h]
  unfold ByteMem.word ByteMem.setWord
  have e0 : b.toNat / 4 * 4 / 4 = b.toNat / 4 := by omega
  have e1 : (b.toNat / 4 * 4 + 1) / 4 = b.toNat / 4 := by omega
  have e2 : (b.toNat / 4 * 4 + 2) / 4 = b.toNat / 4 := by omega
  have e3 : (b.toNat / 4 * 4 + 3) / 4 = b.toNat / 4 := by omega
  have f0 : 8 * (b.toNat / 4 * 4 % 4) = 0 := by omega
  have f1 : 8 * ((b.toNat / 4 * 4 + 1) % 4) = 8 := by omega
  have f2 : 8 * ((b.toNat / 4 * 4 + 2) % 4) = 16 := by omega
  have f3 : 8 * ((b.toNat / 4 * 4 + 3) % 4) = 24 := by omega
  rw [e0, e1, e2, e3, f0, f1, f2, f3]
  by_cases hc : b.toNat / 4 = a.toNat / 4
  · simp only [hc, if_true, word_bytes]
  · simp only [hc, if_false]

/-- A run: two RAM writes, an I/O write, an unaligned bulk copy over the first word. -/
example : ∃ s, Hist s [.copy 0x80000002#32 [1#8, 2#8, 3#8], .write 0x10000004#32 7#32, .write 0xbffffffd#32 9#32,
      .write 0x80000000#32 0xaabbccdd#32] ∧
    PhysMem.read s 0x80000000#32 = some 0x0201ccdd#32 ∧ PhysMem.read s 0xbffffffc#32 = some 9#32 ∧ PhysMem.read s 0x10000005#32 = some 7#32 ∧
    PhysMem.read s 0x80000004#32 = some 3#32 ∧ PhysMem.read s 0xc0000000#32 = some 0#32 := by
  have h0 : Hist (init State.start) [] := .init _
  obtain ⟨s1, e1, _⟩ := C32_write (hist_represents h0) 0x80000000#32 0xaabbccdd#32
  have h1 : Hist s1 _ := .step _ _ (.write 0x80000000#32 0xaabbccdd#32) _ h0 e1
  obtain ⟨s2, e2, _⟩ := C32_write (hist_represents h1) 0xbffffffd#32 9#32
  have h2 : Hist s2 _ := .step _ _ (.write 0xbffffffd#32 9#32) _ h1 e2
  obtain ⟨s3, e3, _⟩ := C32_write (hist_represents h2) 0x10000004#32 7#32
  have h3 : Hist s3 _ := .step _ _ (.write 0x10000004#32 7#32) _ h2 e3
  obtain ⟨s4, e4, _⟩ := (C32_copy_to (hist_represents h3) 0x80000002#32 [1#8, 2#8, 3#8]).1 (by
    intro k hk; have : [1#8, 2#8, 3#8].length = 3 := rfl; have : (0x80000002#32).toNat = 0x80000002 := rfl; omega)
  have h4 : Hist s4 _ := .step _ _ (.copy 0x80000002#32 [1#8, 2#8, 3#8]) _ h3 e4
  refine ⟨s4, h4, ?_, ?_, ?_, ?_, ?_⟩ <;> rw [C32_last_value h4] <;> decide +kernel

/-- Next to the top of the address space nothing wraps into RAM. -/
example : isRam 0xfffffffc#32 0x80000008#32 = false ∧ isRam 0xbfffffff#32 1#32 = true ∧ isRam 0xbfffffff#32 2#32 = false ∧
    isRam 0x80000000#32 0x40000000#32 = true := by decide +kernel

end Verif.Props

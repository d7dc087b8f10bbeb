import Verif.Model.PtwKernel

/-
Reading and writing packed fields (PtwCompactCoreKernel.h): what was written is what is read, and every bit of the
encoded state is the bit that `stateBit` computes on its own.
-/
namespace Verif.PtwKernel

open Verif.Ptw (Client)
open Verif.PtwBlock (Two MemClient Req Resp WalkClient MemIn WalkIn PortIn Owner Event Feedback)

theorem writeBit_apply (b : Bits) (k : Nat) (v : Bool) (j : Nat) : writeBit b k v j = if j = k then v else b j := rfl

theorem readUint_getLsbD (b : Bits) (lsb w i : Nat) :
    (readUint b lsb w).getLsbD i = (decide (i < w) && decide (i < 32) && b (lsb + i)) := by
  have key : ∀ m, m ≤ 32 → ∀ i, ((List.range m).foldl
      (fun v i => if b (lsb + i) then v ||| (1#32 <<< i) else v) 0#32).getLsbD i = (decide (i < m) && b (lsb + i)) := by
    intro m
    induction m with
    | zero => intro _ i; simp
    | succ m ih =>
      intro hm i
      rw [List.range_succ, List.foldl_append]
      simp only [List.foldl_cons, List.foldl_nil]
      have h1 := ih (by omega) i
      by_cases hb : b (lsb + m) = true
      · simp only [hb, if_true, BitVec.getLsbD_or, h1]
        by_cases e : i = m
        · subst e
          simp [hb, show i < 32 by omega]
        · have e' : (1#32 <<< m).getLsbD i = false := by
            rw [BitVec.getLsbD_shiftLeft]
            simp only [BitVec.getLsbD_one]
            by_cases h2 : i < m
            · simp [h2]
            · have : ¬ i - m = 0 := by omega
              simp [this]
          rw [e', Bool.or_false]
          congr 1
          exact decide_eq_decide.mpr (by omega)
      · simp only [hb, Bool.false_eq_true, if_false, h1]
        by_cases e : i = m
        · subst e
          simp [hb]
        · congr 1
          exact decide_eq_decide.mpr (by omega)
  have := key (min w 32) (by omega) i
  unfold readUint
  rw [this, ← Bool.decide_and]
  congr 1
  exact decide_eq_decide.mpr (by omega)

theorem writeMany_apply (f : Nat → Bool) (lsb w : Nat) (b : Bits) (k : Nat) :
    (List.range w).foldl (fun b i => writeBit b (lsb + i) (f i)) b k =
      if lsb ≤ k ∧ k < lsb + w then f (k - lsb) else b k := by
  induction w with
  | zero => simp; intro h1 h2; omega
  | succ w ih =>
    rw [List.range_succ, List.foldl_append]
    simp only [List.foldl_cons, List.foldl_nil, writeBit_apply, ih]
    by_cases e : k = lsb + w
    · subst e; simp
    · rw [if_neg e]
      by_cases h : lsb ≤ k ∧ k < lsb + w
      · rw [if_pos h, if_pos (by omega)]
      · rw [if_neg h, if_neg (by omega)]

theorem writeUint_apply (b : Bits) (lsb w : Nat) (v : BitVec 32) (k : Nat) :
    writeUint b lsb w v k = if lsb ≤ k ∧ k < lsb + w then v.getLsbD (k - lsb) else b k :=
  writeMany_apply (fun i => v.getLsbD i) lsb w b k

theorem copyBits_apply (b : Bits) (d : Nat) (src : Bits) (s w k : Nat) :
    copyBits b d src s w k = if d ≤ k ∧ k < d + w then src (s + (k - d)) else b k :=
  writeMany_apply (fun i => src (s + i)) d w b k

theorem clearBits_apply (b : Bits) (w k : Nat) : clearBits b w k = if k < w then false else b k := by
  have := writeMany_apply (fun _ => false) 0 w b k
  simp only [Nat.zero_add, Nat.zero_le, true_and] at this
  exact this

theorem readUint_congr {a b : Bits} {l m w : Nat} (h : ∀ i, i < w → a (l + i) = b (m + i)) :
    readUint a l w = readUint b m w := by
  apply BitVec.eq_of_getLsbD_eq
  intro i hi
  rw [readUint_getLsbD, readUint_getLsbD]
  by_cases hw : i < w
  · rw [h i hw]
  · simp [hw]

/-- Reading a field that holds the low bits of a word. -/
theorem readUint_of {b : Bits} {l w : Nat} {v : BitVec 32} (h : ∀ i, i < w → b (l + i) = v.getLsbD i)
    (hv : ∀ i, w ≤ i → v.getLsbD i = false) : readUint b l w = v := by
  apply BitVec.eq_of_getLsbD_eq
  intro i hi
  rw [readUint_getLsbD]
  by_cases hw : i < w
  · rw [h i hw]; simp [hw, hi]
  · rw [hv i (by omega)]; simp [hw]

theorem and_mask (v : BitVec 32) (n : Nat) (m : BitVec 32) (hm : m = BitVec.setWidth 32 (BitVec.allOnes n)) (i : Nat) :
    (v &&& m).getLsbD i = (decide (i < n) && v.getLsbD i) := by
  subst hm
  simp only [BitVec.getLsbD_and, BitVec.getLsbD_setWidth, BitVec.getLsbD_allOnes]
  by_cases hi : i < 32
  · simp [hi, Bool.and_comm]
  · simp [hi, BitVec.getLsbD_of_ge v i (by omega)]

theorem m20 (v : BitVec 32) (i : Nat) : (v &&& 0xFFFFF#32).getLsbD i = (decide (i < 20) && v.getLsbD i) :=
  and_mask v 20 _ (by decide) i
theorem m22 (v : BitVec 32) (i : Nat) : (v &&& 0x3FFFFF#32).getLsbD i = (decide (i < 22) && v.getLsbD i) :=
  and_mask v 22 _ (by decide) i
theorem m8 (v : BitVec 32) (i : Nat) : (v &&& 0xFF#32).getLsbD i = (decide (i < 8) && v.getLsbD i) :=
  and_mask v 8 _ (by decide) i
theorem m10 (v : BitVec 32) (i : Nat) : (v &&& 0x3FF#32).getLsbD i = (decide (i < 10) && v.getLsbD i) :=
  and_mask v 10 _ (by decide) i

theorem packPte_getLsbD (p : BitVec 32) (i : Nat) :
    (packPte p).getLsbD i = if i < 8 then p.getLsbD i else decide (i < 30) && p.getLsbD (i + 2) := by
  unfold packPte
  rw [BitVec.getLsbD_or, BitVec.getLsbD_shiftLeft, m22, m8, BitVec.getLsbD_ushiftRight]
  by_cases h : i < 8
  · simp [h]
  · have e : 10 + (i - 8) = i + 2 := by omega
    rw [e]
    by_cases h2 : i < 30
    · simp [h, h2, show i < 32 by omega, show i - 8 < 22 by omega]
    · simp [h, h2, show ¬ i - 8 < 22 by omega]

theorem unpackPte_getLsbD (p : BitVec 32) (i : Nat) :
    (unpackPte p).getLsbD i = if i < 8 then p.getLsbD i else
      decide (10 ≤ i) && decide (i < 32) && p.getLsbD (i - 2) := by
  unfold unpackPte
  rw [BitVec.getLsbD_or, BitVec.getLsbD_shiftLeft, m22, m8, BitVec.getLsbD_ushiftRight]
  by_cases h : i < 8
  · simp [h, show i < 10 by omega]
  · by_cases h2 : i < 10
    · simp [h, h2]; intro h3; omega
    · have e : 8 + (i - 10) = i - 2 := by omega
      rw [e]
      by_cases h3 : i < 32
      · simp [h, h2, h3, show i - 10 < 22 by omega, show 10 ≤ i by omega]
      · simp [h, h3]

theorem mask_getLsbD (v m : BitVec 32) (i : Nat) : (v &&& m).getLsbD i = (v.getLsbD i && m.getLsbD i) :=
  BitVec.getLsbD_and ..

/-- A page-table entry without its two software bits. -/
theorem unpack_pack (p : BitVec 32) : unpackPte (packPte p) = p &&& 0xFFFFFCFF#32 := by
  apply BitVec.eq_of_getLsbD_eq
  intro i hi
  rw [unpackPte_getLsbD, packPte_getLsbD, packPte_getLsbD, BitVec.getLsbD_and]
  have hm : (0xFFFFFCFF#32).getLsbD i = decide (i < 8 ∨ 10 ≤ i) := by
    revert i; decide
  rw [hm]
  by_cases h : i < 8
  · simp [h]
  · by_cases h2 : i < 10
    · simp [h, show ¬ 10 ≤ i by omega]
    · simp [h, hi, show 10 ≤ i by omega, show ¬ i - 2 < 8 by omega, show i - 2 < 30 by omega,
        show i - 2 + 2 = i by omega]

/-! ### The encoded state, bit by bit -/

theorem encodeMem_apply (b : Bits) (base : Nat) (m : MemClient) (k : Nat) :
    encodeMem b base m k = if base ≤ k ∧ k < base + 63 then memBit m (k - base) else b k := by
  unfold encodeMem memBit
  simp only [writeUint_apply, writeBit_apply, Nat.add_zero]
  by_cases h : base ≤ k ∧ k < base + 63
  · obtain ⟨j, rfl⟩ : ∃ j, k = base + j := ⟨k - base, by omega⟩
    have hj : j < 63 := by omega
    rw [if_pos h, Nat.add_sub_cancel_left]
    rcases Nat.lt_or_ge j 2 with h1 | h1
    · simp (disch := omega) only [if_pos, if_neg, Nat.add_sub_cancel_left]
    · rcases Nat.lt_or_ge j 32 with h2 | h2
      · simp (disch := omega) only [if_pos, if_neg]
        congr 1; omega
      · rcases Nat.eq_or_lt_of_le h2 with h3 | h3
        · subst h3; simp
        · simp (disch := omega) only [if_pos, if_neg]
          congr 1; omega
  · rw [if_neg h]
    simp (disch := omega) only [if_neg]

theorem encodeWalk_apply (b : Bits) (base : Nat) (w : WalkClient) (k : Nat) :
    encodeWalk b base w k = if base ≤ k ∧ k < base + 77 then walkBit w (k - base) else b k := by
  unfold encodeWalk walkBit
  simp only [writeUint_apply, writeBit_apply, Nat.add_zero]
  by_cases h : base ≤ k ∧ k < base + 77
  · obtain ⟨j, rfl⟩ : ∃ j, k = base + j := ⟨k - base, by omega⟩
    have hj : j < 77 := by omega
    rw [if_pos h, Nat.add_sub_cancel_left]
    rcases Nat.lt_or_ge j 2 with h1 | h1
    · simp (disch := omega) only [if_pos, if_neg, Nat.add_sub_cancel_left]
    rcases Nat.lt_or_ge j 22 with h2 | h2
    · simp (disch := omega) only [if_pos, if_neg, Nat.add_sub_add_left]
    rcases Nat.lt_or_ge j 44 with h3 | h3
    · simp (disch := omega) only [if_pos, if_neg, Nat.add_sub_add_left]
    rcases Nat.eq_or_lt_of_le h3 with h4 | h4
    · subst h4; simp
    rcases Nat.eq_or_lt_of_le h4 with h5 | h5
    · subst h5; simp
    rcases Nat.lt_or_ge j 68 with h6 | h6
    · simp (disch := omega) only [if_pos, if_neg, Nat.add_sub_add_left]
    rcases Nat.lt_or_ge j 76 with h7 | h7
    · simp (disch := omega) only [if_pos, if_neg, Nat.add_sub_add_left]
    · obtain rfl : j = 76 := by omega
      simp
  · rw [if_neg h]
    simp (disch := omega) only [if_neg]

theorem encodeState_apply (b : Bits) (s : KState) (k : Nat) :
    encodeState b s k = if k < stateWidth then stateBit s k else b k := by
  unfold encodeState stateBit
  simp only [writeUint_apply, writeBit_apply, encodeMem_apply, encodeWalk_apply, memBase, walkBase, idx, stateWidth,
    Nat.zero_mul, Nat.one_mul, Nat.add_zero, Nat.reduceMul, Nat.reduceAdd]
  rcases Nat.lt_or_ge k 3 with h1 | h1
  · simp (disch := omega) only [if_pos, if_neg, Nat.sub_zero]
  rcases Nat.eq_or_lt_of_le h1 with h2 | h2
  · subst h2; simp
  rcases Nat.lt_or_ge k 26 with h3 | h3
  · simp (disch := omega) only [if_pos, if_neg]
  rcases Nat.lt_or_ge k 28 with h4 | h4
  · simp (disch := omega) only [if_pos, if_neg]
  rcases Nat.lt_or_ge k 91 with h5 | h5
  · simp (disch := omega) only [if_pos, if_neg]
  rcases Nat.lt_or_ge k 154 with h6 | h6
  · simp (disch := omega) only [if_pos, if_neg]
  rcases Nat.lt_or_ge k 231 with h7 | h7
  · simp (disch := omega) only [if_pos, if_neg]
  rcases Nat.lt_or_ge k 308 with h8 | h8
  · simp (disch := omega) only [if_pos, if_neg]
  · simp (disch := omega) only [if_neg]

/-! ### Decoding what was encoded -/

/-- What is left of a memory client in the bits. -/
def canonMem (m : MemClient) : MemClient :=
  { m with addr := m.addr &&& 0xFFFFFFFC#32, respData := m.respData &&& 0xFFFFFCFF#32 }

/-- What is left of a walk client in the bits. -/
def canonWalk (w : WalkClient) : WalkClient :=
  { w with
    req := { vaddr := w.req.vaddr &&& 0xFFFFF000#32, satp := w.req.satp &&& 0x3FFFFF#32 }
    resp := { fault := w.resp.fault, vaddr := w.req.vaddr &&& 0xFFFFF000#32,
              leaf := w.resp.leaf &&& 0xFFFFFCFF#32, level := w.resp.level &&& 1#8 } }

/-- What is left of the state in the bits. -/
def canon (s : KState) : KState :=
  { mem := ⟨canonMem s.mem.d, canonMem s.mem.i⟩
    walk := ⟨canonWalk s.walk.d, canonWalk s.walk.i⟩
    phase := s.phase &&& 7#8
    active := s.phase &&& 7#8 != 0#8
    owner := if (s.phase &&& 7#8 != 0#8) && s.walk.i.inflight then .itlb else .dtlb
    rr := s.rr
    pte1 := s.pte1 &&& 0xFFFFFC00#32
    credit := sat3 s.credit
    idValid := waits (s.phase &&& 7#8)
    id := if waits (s.phase &&& 7#8) then 1#64 else 0#64 }

theorem reqState_0 (p i : Bool) : (reqState p i).getLsbD 0 = p := by cases p <;> cases i <;> rfl
theorem reqState_1 (p i : Bool) : (reqState p i).getLsbD 1 = i := by cases p <;> cases i <;> rfl

theorem readUint_bit (b : Bits) (l w i : Nat) (hw : i < w) (h : i < 32) : (readUint b l w).getLsbD i = b (l + i) := by
  rw [readUint_getLsbD]; simp [hw, h]

theorem mFC (i : Nat) (hi : i < 32) : (0xFFFFFFFC#32).getLsbD i = decide (2 ≤ i) := by revert i; decide
theorem mF000 (i : Nat) (hi : i < 32) : (0xFFFFF000#32).getLsbD i = decide (12 ≤ i) := by revert i; decide
theorem mFC00 (i : Nat) (hi : i < 32) : (0xFFFFFC00#32).getLsbD i = decide (10 ≤ i) := by revert i; decide
theorem mFCFF (i : Nat) (hi : i < 32) : (0xFFFFFCFF#32).getLsbD i = decide (i < 8 ∨ 10 ≤ i) := by revert i; decide

/-- A field that holds the upper bits of a word, put back in its place. -/
theorem readUint_shl {b : Bits} {l w n : Nat} {v m : BitVec 32} (hn : w + n = 32)
    (hm : ∀ i, i < 32 → m.getLsbD i = decide (n ≤ i)) (h : ∀ i, i < w → b (l + i) = v.getLsbD (i + n)) :
    readUint b l w <<< n = v &&& m := by
  apply BitVec.eq_of_getLsbD_eq
  intro i hi
  rw [BitVec.getLsbD_shiftLeft, readUint_getLsbD, BitVec.getLsbD_and, hm i hi]
  by_cases hn' : n ≤ i
  · rw [h (i - n) (by omega)]
    simp [hi, hn', show ¬ i < n by omega, show i - n < w by omega, show i - n < 32 by omega,
      show i - n + n = i by omega]
  · simp [hn', show i < n by omega]

/-- A field that holds a packed entry. -/
theorem readUint_pte {b : Bits} {l : Nat} {v : BitVec 32} (h : ∀ i, i < 30 → b (l + i) = (packPte v).getLsbD i) :
    unpackPte (readUint b l 30) = v &&& 0xFFFFFCFF#32 := by
  rw [← unpack_pack]
  congr 1
  refine readUint_of h fun i hi => ?_
  rw [packPte_getLsbD]
  simp [show ¬ i < 8 by omega, show ¬ i < 30 by omega]

theorem readUint_leaf {b : Bits} {l k : Nat} {v : BitVec 32} (h1 : ∀ i, i < 22 → b (l + i) = v.getLsbD (i + 10))
    (h2 : ∀ i, i < 8 → b (k + i) = v.getLsbD i) :
    (readUint b l 22 <<< 10) ||| readUint b k 8 = v &&& 0xFFFFFCFF#32 := by
  rw [readUint_shl (n := 10) (v := v) (m := 0xFFFFFC00#32) (by omega) mFC00 h1]
  apply BitVec.eq_of_getLsbD_eq
  intro i hi
  rw [BitVec.getLsbD_or, readUint_getLsbD, BitVec.getLsbD_and, BitVec.getLsbD_and, mFC00 i hi, mFCFF i hi]
  by_cases h : i < 8
  · rw [h2 i h]; simp [h, hi]; intro e _; exact e
  · simp [h]

theorem decodeMem_of {b : Bits} {base : Nat} {m : MemClient} (h : ∀ j, j < 63 → b (base + j) = memBit m j) :
    decodeMem b base = canonMem m := by
  unfold decodeMem canonMem
  congr 1
  · rw [Nat.add_zero, readUint_bit _ _ _ _ (by omega) (by omega), h 0 (by omega)]; exact reqState_0 ..
  · rw [Nat.add_zero, readUint_bit _ _ _ _ (by omega) (by omega), h 1 (by omega)]; exact reqState_1 ..
  · refine readUint_shl (by omega) mFC fun i hi => ?_
    rw [Nat.add_assoc, h _ (by omega), memBit, if_neg (by omega), if_pos (by omega), BitVec.getLsbD_ushiftRight]
    congr 1; omega
  · rw [h _ (by omega)]; rfl
  · refine readUint_pte fun i hi => ?_
    rw [Nat.add_assoc, h _ (by omega), memBit, if_neg (by omega), if_neg (by omega), if_neg (by omega)]
    congr 1; omega

theorem decodeWalk_of {b : Bits} {base : Nat} {w : WalkClient} (h : ∀ j, j < 77 → b (base + j) = walkBit w j) :
    decodeWalk b base = canonWalk w := by
  have hv : readUint b (base + 2) 20 <<< 12 = w.req.vaddr &&& 0xFFFFF000#32 := by
    refine readUint_shl (by omega) mF000 fun i hi => ?_
    rw [Nat.add_assoc, h _ (by omega), walkBit, if_neg (by omega), if_pos (by omega), m20,
      BitVec.getLsbD_ushiftRight, show 2 + i - 2 = i by omega, show 12 + i = i + 12 by omega]
    simp [hi]
  have hs : readUint b (base + 22) 22 = w.req.satp &&& 0x3FFFFF#32 := by
    refine readUint_of (fun i hi => ?_) fun i hi => ?_
    · rw [Nat.add_assoc, h _ (by omega), walkBit, if_neg (by omega), if_neg (by omega), if_pos (by omega)]
      congr 1; omega
    · rw [m22]; simp [show ¬ i < 22 by omega]
  have hl : (readUint b (base + 46) 22 <<< 10) ||| readUint b (base + 68) 8 = w.resp.leaf &&& 0xFFFFFCFF#32 := by
    refine readUint_leaf (fun i hi => ?_) fun i hi => ?_
    · rw [Nat.add_assoc, h _ (by omega), walkBit, if_neg (by omega), if_neg (by omega), if_neg (by omega),
        if_neg (by omega), if_neg (by omega), if_pos (by omega), m22, BitVec.getLsbD_ushiftRight,
        show 46 + i - 46 = i by omega, show 10 + i = i + 10 by omega]
      simp [hi]
    · rw [Nat.add_assoc, h _ (by omega), walkBit, if_neg (by omega), if_neg (by omega), if_neg (by omega),
        if_neg (by omega), if_neg (by omega), if_neg (by omega), if_pos (by omega), m8,
        show 68 + i - 68 = i by omega]
      simp [hi]
  have hlev : (if b (base + 76) then 1#8 else 0#8) = w.resp.level &&& 1#8 := by
    rw [h _ (by omega)]
    show (if w.resp.level.getLsbD 0 then 1#8 else 0#8) = _
    generalize w.resp.level = x
    revert x; decide
  unfold decodeWalk canonWalk
  rw [hv, hs, hl, hlev]
  congr 1
  · rw [Nat.add_zero, readUint_bit _ _ _ _ (by omega) (by omega), h 0 (by omega)]; exact reqState_0 ..
  · rw [Nat.add_zero, readUint_bit _ _ _ _ (by omega) (by omega), h 1 (by omega)]; exact reqState_1 ..
  · rw [h _ (by omega)]; rfl
  · congr 1
    rw [h _ (by omega)]; rfl

theorem sat3_high (c : BitVec 32) (i : Nat) (hi : 2 ≤ i) : (sat3 c).getLsbD i = false := by
  unfold sat3
  split
  · next h =>
    by_cases h2 : i < 32
    · have : ∀ i, i < 32 → 2 ≤ i → (3#32).getLsbD i = false := by decide
      exact this i h2 hi
    · exact BitVec.getLsbD_of_ge _ _ (by omega)
  · next h =>
    have h3 : c.toNat ≤ 3 := by
      have := h
      simp only [gt_iff_lt, BitVec.lt_def, BitVec.toNat_ofNat] at this
      omega
    rw [BitVec.getLsbD, Nat.testBit_lt_two_pow]
    have : 2 ^ 2 ≤ 2 ^ i := Nat.pow_le_pow_right (by omega) hi
    omega

/-- Decoding bits that hold a state gives what is left of it. -/
theorem decodeState_of {b : Bits} {s : KState} (h : ∀ k, k < stateWidth → b k = stateBit s k) :
    decodeState b = canon s := by
  have hp : (readUint b 0 3).setWidth 8 = s.phase &&& 7#8 := by
    have e : readUint b 0 3 = (s.phase &&& 7#8).setWidth 32 := by
      have hm : ∀ i, i < 8 → (7#8).getLsbD i = decide (i < 3) := by decide
      refine readUint_of (fun i hi => ?_) fun i hi => ?_
      · rw [Nat.zero_add, h i (by unfold stateWidth; omega), stateBit, if_neg (by unfold stateWidth; omega),
          if_pos (by omega), if_pos hi, BitVec.getLsbD_setWidth, BitVec.getLsbD_setWidth, BitVec.getLsbD_and,
          hm i (by omega)]
        simp [hi]
      · rw [BitVec.getLsbD_setWidth, BitVec.getLsbD_and]
        by_cases h8 : i < 8
        · rw [hm i h8]; simp [show ¬ i < 3 by omega]
        · rw [BitVec.getLsbD_of_ge (7#8) i (by omega)]; simp
    rw [e]
    generalize s.phase = x
    revert x; decide
  have hm0 : decodeMem b (memBase .dtlb) = canonMem s.mem.d := decodeMem_of fun j hj => by
    rw [h _ (by simp only [memBase, idx, stateWidth]; omega), stateBit]
    simp (disch := (simp only [memBase, idx, stateWidth]; omega)) only [if_neg, if_pos, Nat.add_sub_cancel_left]
  have hm1 : decodeMem b (memBase .itlb) = canonMem s.mem.i := decodeMem_of fun j hj => by
    rw [h _ (by simp only [memBase, idx, stateWidth]; omega), stateBit]
    simp (disch := (simp only [memBase, idx, stateWidth]; omega)) only [if_neg, if_pos, Nat.add_sub_cancel_left]
  have hw0 : decodeWalk b (walkBase .dtlb) = canonWalk s.walk.d := decodeWalk_of fun j hj => by
    rw [h _ (by simp only [walkBase, idx, stateWidth]; omega), stateBit]
    simp (disch := (simp only [memBase, walkBase, idx, stateWidth]; omega)) only [if_neg, if_pos,
      Nat.add_sub_cancel_left]
  have hw1 : decodeWalk b (walkBase .itlb) = canonWalk s.walk.i := decodeWalk_of fun j hj => by
    rw [h _ (by simp only [walkBase, idx, stateWidth]; omega), stateBit]
    simp (disch := (simp only [memBase, walkBase, idx, stateWidth]; omega)) only [if_neg, if_pos,
      Nat.add_sub_cancel_left]
  have hpte : readUint b 4 22 <<< 10 = s.pte1 &&& 0xFFFFFC00#32 := by
    refine readUint_shl (by omega) mFC00 fun i hi => ?_
    rw [h _ (by unfold stateWidth; omega), stateBit]
    rw [if_neg (by unfold stateWidth; omega), if_pos (by omega), if_neg (by omega), if_neg (by omega),
      if_pos (by omega)]
    rw [m22, BitVec.getLsbD_ushiftRight, show 4 + i - 4 = i by omega, show 10 + i = i + 10 by omega]
    simp [hi]
  have hc : readUint b 26 2 = sat3 s.credit := by
    refine readUint_of (fun i hi => ?_) fun i hi => sat3_high _ _ hi
    rw [h _ (by unfold stateWidth; omega), stateBit]
    rw [if_neg (by unfold stateWidth; omega), if_pos (by omega), if_neg (by omega), if_neg (by omega),
      if_neg (by omega)]
    congr 1; omega
  have hr : (if b 3 then Client.itlb else .dtlb) = s.rr := by
    rw [h 3 (by unfold stateWidth; omega)]
    show (if (s.rr != .dtlb) then Client.itlb else .dtlb) = s.rr
    cases s.rr <;> rfl
  unfold decodeState canon
  simp only [hp, hm0, hm1, hw0, hw1, hpte, hc, hr]
  rfl

theorem decode_encode (b : Bits) (s : KState) : decodeState (encodeState b s) = canon s :=
  decodeState_of fun k hk => by rw [encodeState_apply, if_pos hk]

theorem decode_eval (pi po : Bits) : decodeState (eval pi po) = canon (evalState pi) := decode_encode ..

theorem decodeState_congr {a b : Bits} (h : ∀ k, k < stateWidth → a k = b k) : decodeState a = decodeState b := by
  have hr : ∀ l w, l + w ≤ stateWidth → readUint a l w = readUint b l w :=
    fun l w hl => readUint_congr fun i hi => h _ (by omega)
  unfold decodeState decodeWalk decodeMem readWordAddr
  simp (disch := (simp only [memBase, walkBase, idx, stateWidth]; omega)) only [hr, h]

end Verif.PtwKernel

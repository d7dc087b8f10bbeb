import Verif.Proofs.PtwGlue

/-
The packed walker against the walker: the relation between the two states and why a cycle keeps it.
-/
namespace Verif.PtwTwin

open Verif.Ptw (Client Phase)
open Verif.PtwKernel
open Verif.PtwBlock (Two Req Resp MemClient WalkClient MemIn WalkIn PortIn Owner Event Feedback In MemOut WalkOut Out State back)

/-! ### Outputs -/

/-- The read the packed walker asks for. -/
def kRead (s : KState) : Option (BitVec 32) :=
  let req := (s.walk.get s.owner).req
  if s.active then
    if s.phase = 1#8 then some (((req.satp &&& 0x3FFFFF#32) <<< 12) + (((req.vaddr >>> 22) &&& 0x3FF#32) <<< 2))
    else if s.phase = 3#8 then
      some ((((s.pte1 >>> 10) &&& 0x3FFFFF#32) <<< 12) + (((req.vaddr >>> 12) &&& 0x3FF#32) <<< 2))
    else none
  else none

/-- The outputs of the packed walker, as values. -/
def kOut (s : KState) : Out :=
  { mem := ⟨s.mem.d.out, s.mem.i.out⟩
    walk := ⟨s.walk.d.out, s.walk.i.out⟩
    issue := (kRead s).isSome
    addr := (kRead s).getD 0#32 }

theorem twinOut_apply (n : Nat) (reg ext junk : Bits) (k : Nat) (hk : k < outWidth) :
    twinOut n reg ext junk k = encodeOut junk (decodeState reg) k := by
  unfold twinOut glued topGlue
  simp only [copyBits_apply]
  rw [if_pos (by omega)]
  unfold join
  rw [if_neg (by omega)]
  unfold visible
  congr 1; omega

theorem readUint_full {b : Bits} {l : Nat} {v : BitVec 32} (h : ∀ i, i < 32 → b (l + i) = v.getLsbD i) :
    readUint b l 32 = v := readUint_of h fun _ hi => BitVec.getLsbD_of_ge _ _ hi

theorem iteApply (c : Prop) [Decidable c] (f g : Bits) (k : Nat) :
    (if c then f else g) k = if c then f k else g k := by split <;> rfl

/-- Work out a bit of the outputs that does not belong to the read. -/
local macro "out_bit" : tactic => `(tactic| (
  unfold encodeOut
  simp only [iteApply, encodeClientOut, writeBit_apply, writeUint_apply, clearBits_apply, memOutBase, walkOutBase, arbOutBase, outWidth, idx,
    Nat.zero_mul, Nat.one_mul, Nat.reduceMul, Nat.reduceAdd, Nat.zero_add, Nat.add_zero, Nat.mul_zero, Nat.mul_one]
  simp (disch := omega) only [if_pos, if_neg, if_true, if_false, ite_self, Nat.add_sub_cancel_left]))

theorem encodeOut_mem (b : Bits) (s : KState) (c : Client) :
    outMem (encodeOut b s) c = (s.mem.get c).out := by
  have h1 : encodeOut b s (memOutBase c + 0) = (!(s.mem.get c).pending && !(s.mem.get c).inflight) := by
    cases c <;> · out_bit; rfl
  have h2 : encodeOut b s (memOutBase c + 1) = (s.mem.get c).respValid := by
    cases c <;> · out_bit; rfl
  have h3 : readUint (encodeOut b s) (memOutBase c + 2) 32 = (s.mem.get c).respData := by
    refine readUint_full fun i hi => ?_
    cases c <;> · out_bit; rfl
  have h4 : encodeOut b s (arbOutBase + 33 + idx c) = (s.mem.get c).pending := by
    cases c <;> · out_bit; rfl
  have h5 : readUint (encodeOut b s) (arbOutBase + 35 + 32 * idx c) 32 = (s.mem.get c).addr := by
    refine readUint_full fun i hi => ?_
    cases c <;> · out_bit; rfl
  unfold outMem
  rw [h1, h2, h3, h4, h5]
  rfl

theorem level_back (l : BitVec 8) (v : BitVec 32) (h : v = l.setWidth 32) : v.setWidth 8 = l := by
  rw [h]; apply BitVec.eq_of_getLsbD_eq; intro i hi
  simp [hi, show i < 32 by omega]

theorem encodeOut_walk (b : Bits) (s : KState) (c : Client) :
    outWalk (encodeOut b s) c = (s.walk.get c).out := by
  have h1 : encodeOut b s (walkOutBase c + 0) = (!(s.walk.get c).pending && !(s.walk.get c).inflight) := by
    cases c <;> · out_bit; rfl
  have h2 : encodeOut b s (walkOutBase c + 1) = (s.walk.get c).respValid := by
    cases c <;> · out_bit; rfl
  have h3 : encodeOut b s (walkOutBase c + 2) = (s.walk.get c).resp.fault := by
    cases c <;> · out_bit; rfl
  have h4 : readUint (encodeOut b s) (walkOutBase c + 3) 32 = (s.walk.get c).resp.vaddr := by
    refine readUint_full fun i hi => ?_
    cases c <;> · out_bit; rfl
  have h5 : readUint (encodeOut b s) (walkOutBase c + 35) 32 = (s.walk.get c).resp.leaf := by
    refine readUint_full fun i hi => ?_
    cases c <;> · out_bit; rfl
  have h6 : readUint (encodeOut b s) (walkOutBase c + 67) 8 = (s.walk.get c).resp.level.setWidth 32 := by
    refine readUint_of (fun i hi => ?_) fun i hi => by
      rw [BitVec.getLsbD_setWidth, BitVec.getLsbD_of_ge _ _ hi, Bool.and_false]
    cases c <;> · out_bit; rfl
  unfold outWalk
  rw [h1, h2, h3, h4, h5, level_back _ _ h6]
  rfl

theorem encodeOut_read (b : Bits) (s : KState) :
    encodeOut b s (arbOutBase + 0) = (kRead s).isSome ∧
      readUint (encodeOut b s) (arbOutBase + 1) 32 = (kRead s).getD 0#32 := by
  refine ⟨?_, readUint_full fun i hi => ?_⟩
  · unfold kRead
    out_bit
    cases s.active
    · simp
    · by_cases h1 : s.phase = 1#8
      · simp [h1]
      · by_cases h3 : s.phase = 3#8
        · simp [h3]
        · simp [h1, h3]
  · unfold kRead
    out_bit
    cases s.active
    · simp
    · by_cases h1 : s.phase = 1#8
      · simp [h1]
      · by_cases h3 : s.phase = 3#8
        · simp [h3]
        · simp [h1, h3]

theorem readUint_lt {a b : Bits} {l w n : Nat} (h : ∀ k, k < n → a k = b k) (hl : l + w ≤ n) :
    readUint a l w = readUint b l w := readUint_congr fun i hi => h _ (by omega)

theorem outOf_congr {a b : Bits} (h : ∀ k, k < outWidth → a k = b k) : outOf a = outOf b := by
  have hm : ∀ c, outMem a c = outMem b c := by
    intro c
    unfold outMem
    have e1 : memOutBase c + 34 ≤ 68 := by cases c <;> decide
    have e2 : idx c ≤ 1 := by cases c <;> decide
    have e3 : outWidth = 317 := rfl
    have e4 : arbOutBase = 218 := rfl
    rw [h _ (by omega), h (memOutBase c + 1) (by omega), readUint_lt h (by omega), h (arbOutBase + 33 + idx c) (by omega),
      readUint_lt (l := arbOutBase + 35 + 32 * idx c) h (by omega)]
  have hw : ∀ c, outWalk a c = outWalk b c := by
    intro c
    unfold outWalk
    have e1 : walkOutBase c + 75 ≤ 218 := by cases c <;> decide
    have e3 : outWidth = 317 := rfl
    rw [h _ (by omega), h (walkOutBase c + 1) (by omega), h (walkOutBase c + 2) (by omega), readUint_lt h (by omega),
      readUint_lt (l := walkOutBase c + 35) h (by omega), readUint_lt (l := walkOutBase c + 67) h (by omega)]
  unfold outOf
  rw [hm, hm, hw, hw, h _ (by decide), readUint_lt h (by decide)]

/-- The outputs of the circuit are those of the state in its register. -/
theorem outOf_twin (n : Nat) (reg ext junk : Bits) : outOf (twinOut n reg ext junk) = kOut (decodeState reg) := by
  rw [outOf_congr (twinOut_apply n reg ext junk)]
  unfold outOf kOut
  rw [encodeOut_mem, encodeOut_mem, encodeOut_walk, encodeOut_walk, (encodeOut_read _ _).1, (encodeOut_read _ _).2]
  rfl

end Verif.PtwTwin

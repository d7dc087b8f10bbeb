import Verif.Spec.ByteMem

/-
What a cache between a processor and a memory must do, in terms of byte-addressed memory.
Nothing here refers to the model.
-/
namespace Verif.Spec.CacheMem

open Verif.Spec.ByteMem

/-- A memory given by 64-byte lines of sixteen words, as a byte-addressed memory. -/
def flat (lines : BitVec 32 → Nat → BitVec 32) : Mem := fun a =>
  byteOf (lines (BitVec.ofNat 32 (a.toNat / 64 * 64)) (a.toNat % 64 / 4)) (a.toNat % 4)

/-- A store of the byte lanes of one word selected by the strobe. -/
def writeLanes (m : Mem) (a data : BitVec 32) (strb : BitVec 8) : Mem := fun p =>
  if p.toNat / 4 = a.toNat / 4 ∧ strb.getLsbD (p.toNat % 4) = true then byteOf data (p.toNat % 4) else m p

end Verif.Spec.CacheMem

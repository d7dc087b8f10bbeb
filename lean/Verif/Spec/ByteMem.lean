/-
Byte-addressed memory as the RISC-V manual describes it: what a load returns and what a store changes.
Nothing here refers to the model.
-/
namespace Verif.Spec.ByteMem

/-- A memory: one byte per 32-bit address. -/
abbrev Mem := BitVec 32 → BitVec 8

/-- Access sizes. -/
inductive Size
  | byte | half | word
  deriving DecidableEq, Repr

def Size.bytes : Size → Nat
  | .byte => 1
  | .half => 2
  | .word => 4

/-- Low two bits of `funct3`. -/
def Size.code : Size → BitVec 3
  | .byte => 0#3
  | .half => 1#3
  | .word => 2#3

def aligned (sz : Size) (p : BitVec 32) : Prop := p.toNat % sz.bytes = 0

instance (sz p) : Decidable (aligned sz p) := inferInstanceAs (Decidable (_ = _))

/-- Byte `i` (little-endian) of a word. -/
def byteOf (v : BitVec 32) (i : Nat) : BitVec 8 := BitVec.ofNat 8 (v.toNat / 256 ^ i)

/-- A store of the low `sz` bytes of `v` at `p` changes exactly the bytes `p, p+1, …`. -/
def store (m : Mem) (sz : Size) (p v : BitVec 32) : Mem :=
  fun a => if (a - p).toNat < sz.bytes then byteOf v (a - p).toNat else m a

/-- The little-endian number held by `n` consecutive bytes. -/
def value (m : Mem) (p : BitVec 32) : Nat → Nat
  | 0 => 0
  | n + 1 => value m p n + (m (p + BitVec.ofNat 32 n)).toNat * 256 ^ n

/-- What a load returns: the bytes, sign- or zero-extended. -/
def load (m : Mem) (sz : Size) (signed : Bool) (p : BitVec 32) : BitVec 32 :=
  if signed then (BitVec.ofNat (8 * sz.bytes) (value m p sz.bytes)).signExtend 32
  else BitVec.ofNat 32 (value m p sz.bytes)

/-- `funct3` of a load; the word load has no unsigned form. -/
def loadCode : Size → Bool → Option (BitVec 3)
  | .byte, true => some 0#3
  | .half, true => some 1#3
  | .word, true => some 2#3
  | .byte, false => some 4#3
  | .half, false => some 5#3
  | .word, false => none

/-- The aligned word around an address. -/
def word (m : Mem) (p : BitVec 32) : BitVec 32 := BitVec.ofNat 32 (value m (p - BitVec.ofNat 32 (p.toNat % 4)) 4)

end Verif.Spec.ByteMem

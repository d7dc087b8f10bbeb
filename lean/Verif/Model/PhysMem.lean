/-
Physical memory (back-end/PhysMemory.cpp, include/PhysMemory.h).

Simplifications: the RAM block is a function from byte offsets to bytes; a 32-bit element of
`p_memory` is four bytes in little-endian order (the host's); accesses outside the allocated block
are undefined behaviour and give `none`.  Allocation never fails.  The hash map of I/O words is a
partial function.
-/
namespace Verif.PhysMem

/-- `PMEM_RAM_BASE`, PhysMemory.h:17; `RAM_SIZE`, config.h:47-49. -/
abbrev ramBase : Nat := 0x80000000
abbrev ramSize : Nat := 256 * 1024 * 1024 * 4

/-- `p_memory` (`none`: null pointer), `g_io_words`, PhysMemory.cpp:9-12. -/
structure State where
  ram : Option (Nat → BitVec 8)
  io : BitVec 32 → Option (BitVec 32)

/-- Static initialisation. -/
def State.start : State := ⟨none, fun _ => none⟩

/-- `pmem_clear_all`, PhysMemory.cpp:53-58. -/
def clearAll (s : State) : State := ⟨s.ram.map (fun _ _ => 0#8), fun _ => none⟩

/-- `pmem_init`, PhysMemory.cpp:31-43. -/
def init (s : State) : State := if s.ram.isSome then clearAll s else ⟨some (fun _ => 0#8), fun _ => none⟩

/-- `pmem_release`, PhysMemory.cpp:45-51. -/
def release (_ : State) : State := ⟨none, fun _ => none⟩

/-- `pmem_is_ram_addr`, PhysMemory.cpp:60-67: the sum is computed in 64 bits. -/
def isRam (paddr size : BitVec 32) : Bool :=
  if size = 0#32 ∨ paddr.toNat < ramBase then false
  else
    let e : BitVec 64 := paddr.setWidth 64 + size.setWidth 64 - 1#64
    decide (e.toNat < ramBase + ramSize)

/-- Element `i` of `p_memory`; `none`: out of bounds. -/
def word (ram : Nat → BitVec 8) (i : Nat) : Option (BitVec 32) :=
  if 4 * i + 3 < ramSize then some (ram (4 * i + 3) ++ ram (4 * i + 2) ++ ram (4 * i + 1) ++ ram (4 * i)) else none

/-- Assignment to element `i` of `p_memory`. -/
def setWord (ram : Nat → BitVec 8) (i : Nat) (v : BitVec 32) : Option (Nat → BitVec 8) :=
  if 4 * i + 3 < ramSize then
    some (fun k => if k / 4 = i then (v >>> (8 * (k % 4))).setWidth 8 else ram k)
  else none

/-- `pmem_read`, PhysMemory.cpp:69-77 (`none`: abort or undefined). -/
def read (s : State) (paddr : BitVec 32) : Option (BitVec 32) :=
  match s.ram with
  | none => none
  | some ram =>
    let a := paddr &&& ~~~3#32
    if isRam a 4#32 then word ram ((a - BitVec.ofNat 32 ramBase) >>> 2).toNat
    else some ((s.io a).getD 0#32)

/-- `pmem_write`, PhysMemory.cpp:79-91. -/
def write (s : State) (paddr data : BitVec 32) : Option State :=
  match s.ram with
  | none => none
  | some ram =>
    let a := paddr &&& ~~~3#32
    if isRam a 4#32 then
      (setWord ram ((a - BitVec.ofNat 32 ramBase) >>> 2).toNat data).map (fun r => { s with ram := some r })
    else if data = 0#32 then some { s with io := fun q => if q = a then none else s.io q }
    else some { s with io := fun q => if q = a then some data else s.io q }

/-- `pmem_memcpy_to_ram`, PhysMemory.cpp:93-106; `src` is the source buffer, `len` a 64-bit `size_t`. -/
def copyTo (s : State) (paddr : BitVec 32) (src : List (BitVec 8)) : Option State :=
  match s.ram with
  | none => none
  | some ram =>
    if src.length = 0 then some s
    else if src.length > ramSize then none
    else if !isRam paddr (BitVec.ofNat 32 src.length) then none
    else
      let off := (paddr - BitVec.ofNat 32 ramBase).toNat
      if off + src.length ≤ ramSize then
        some { s with ram := some (fun k => if off ≤ k then (src[k - off]?).getD (ram k) else ram k) }
      else none

/-- `pmem_memcpy_from_ram`, PhysMemory.cpp:108-121. -/
def copyFrom (s : State) (paddr : BitVec 32) (len : Nat) : Option (List (BitVec 8)) :=
  match s.ram with
  | none => none
  | some ram =>
    if len = 0 then some []
    else if len > ramSize then none
    else if !isRam paddr (BitVec.ofNat 32 len) then none
    else
      let off := (paddr - BitVec.ofNat 32 ramBase).toNat
      if off + len ≤ ramSize then some ((List.range len).map (fun k => ram (off + k))) else none

end Verif.PhysMem

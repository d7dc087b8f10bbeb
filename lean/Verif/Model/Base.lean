/-
Base types and compile-time arithmetic: `WideBits` (back-end/include/base_types.h:16-240),
`bit_width_for_count` (base_types.h:268-276), `clog2`, `is_power_of_two_u64` and
`div_round_u64` (include/config.h:14-27).

Simplifications: the template parameter `T` of the scalar operators is described by its size in bytes
and the value's bit pattern; `T = bool` is size 1 with value 0 or 1 (both branches of
base_types.h:47-58 store the same byte then).
-/
namespace Verif.Base

/-- `kByteCount`, base_types.h:21. -/
abbrev byteCount (n : Nat) : Nat := (n + 7) / 8

/-- `WideBits<n>`, base_types.h:17-23. -/
structure WideBits (n : Nat) where
  bytes : Vector (BitVec 8) (byteCount n)

namespace WideBits

/-- Default construction, base_types.h:23-25, and `clear`, base_types.h:32-36. -/
def zero (n : Nat) : WideBits n := ⟨Vector.replicate _ 0#8⟩

/-- `trim_unused_bits`, base_types.h:38-42. -/
def trim {n : Nat} (a : WideBits n) : WideBits n :=
  if n % 8 ≠ 0 then
    ⟨Vector.ofFn fun i => if i.val = byteCount n - 1 then a.bytes[i] &&& BitVec.ofNat 8 (2 ^ (n % 8) - 1)
      else a.bytes[i]⟩
  else a

/-- `operator=(T)`, base_types.h:44-61, for a `T` of `size` bytes with bit pattern `v`: byte `i` of the value
for `i < kCopyBytes`, zero above. -/
def assign {n : Nat} (size : Nat) (v : BitVec (8 * size)) : WideBits n :=
  trim ⟨Vector.ofFn fun i => if i.val < min (byteCount n) size then (v >>> (i.val * 8)).setWidth 8 else 0#8⟩

/-- `operator|=`, `operator|`, base_types.h:63-69, 200-205. -/
def or {n : Nat} (a b : WideBits n) : WideBits n := trim ⟨Vector.ofFn fun i => a.bytes[i] ||| b.bytes[i]⟩
/-- `operator&=`, `operator&`, base_types.h:71-76, 214-219. -/
def and {n : Nat} (a b : WideBits n) : WideBits n := ⟨Vector.ofFn fun i => a.bytes[i] &&& b.bytes[i]⟩
/-- `operator^=`, `operator^`, base_types.h:85-91, 228-233. -/
def xor {n : Nat} (a b : WideBits n) : WideBits n := trim ⟨Vector.ofFn fun i => a.bytes[i] ^^^ b.bytes[i]⟩
/-- `operator~`, base_types.h:100-107. -/
def not {n : Nat} (a : WideBits n) : WideBits n := trim ⟨Vector.ofFn fun i => ~~~a.bytes[i]⟩

/-- `operator bool`, base_types.h:109-114. -/
def toBool {n : Nat} (a : WideBits n) : Bool := a.bytes.toList.any (· != 0#8)

/-- `operator<<`, base_types.h:116-129.  The shifts of a byte happen in `int` and are cut to 8 bits. -/
def shl {n : Nat} (a : WideBits n) (shift : Int) : WideBits n :=
  if shift < 0 ∨ shift ≥ n then zero n else
    let bs := shift.toNat / 8
    let k := shift.toNat % 8
    trim ⟨Vector.ofFn fun i =>
      if i.val ≥ bs then
        let hi := a.bytes[i.val - bs]'(by have := i.isLt; omega) <<< k
        if k > 0 ∧ i.val - bs ≥ 1 then hi ||| (a.bytes[i.val - bs - 1]'(by have := i.isLt; omega) >>> (8 - k)) else hi
      else 0#8⟩

/-- `operator>>`, base_types.h:136-148. -/
def shr {n : Nat} (a : WideBits n) (shift : Int) : WideBits n :=
  if shift < 0 ∨ shift ≥ n then zero n else
    let bs := shift.toNat / 8
    let k := shift.toNat % 8
    ⟨Vector.ofFn fun i =>
      if h : i.val < byteCount n - bs then
        let lo := a.bytes[i.val + bs]'(by omega) >>> k
        if h2 : k > 0 ∧ i.val + bs + 1 < byteCount n then lo ||| (a.bytes[i.val + bs + 1]'h2.2 <<< (8 - k)) else lo
      else 0#8⟩

/-- `operator==`, base_types.h:162-169. -/
def eq {n : Nat} (a b : WideBits n) : Bool := a.bytes.toList == b.bytes.toList

end WideBits

/-- `bit_width_for_count`, base_types.h:268-276: the do-while loop from `width`. -/
def bitWidthLoop (maxValue width : Nat) : Nat :=
  if maxValue / 2 ≠ 0 then bitWidthLoop (maxValue / 2) (width + 1) else width + 1
  termination_by maxValue
  decreasing_by omega

def bitWidthForCount (count : Nat) : Nat := bitWidthLoop (count - 1) 0

/-- `clog2`, config.h:14-19: the loop from `res`.  `none`: shift of a 64-bit value by 64, undefined. -/
def clog2Loop (n res : Nat) : Option Nat :=
  if res ≥ 64 then none
  else if n > 2 ^ res then clog2Loop n (res + 1) else some res
  termination_by 64 - res

def clog2 (n : Nat) : Option Nat := clog2Loop n 0

/-- `is_power_of_two_u64`, config.h:21-23. -/
def isPowerOfTwo (n : BitVec 64) : Bool := n != 0#64 && (n &&& (n - 1#64)) == 0#64

/-- `div_round_u64`, config.h:25-27 (64-bit wrap-around; `none`: division by zero). -/
def divRound (num den : BitVec 64) : Option (BitVec 64) :=
  if den = 0#64 then none else some ((num + den / 2#64) / den)

end Verif.Base

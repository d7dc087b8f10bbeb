import Verif.Model.Decode
/-
Single-precision arithmetic in integer registers: the floating-point unit `FPUSoftfloat`
(back-end/Exu/include/FPU.h:18-270, instantiated in Exu.cpp:119) and the reference model's `RV32Zfinx` with
its helpers (diff/ref.cpp:108-223, 632-850).

The Berkeley SoftFloat library both call is not part of the repository: its functions are the fields of
`SoftFloat`, each with the rounding mode (a global variable of the library) as first argument where it matters.
The exception flags are left out: neither side stores them anywhere.
-/
namespace Verif.Fp
open Verif.CInt

/-- The library functions used. -/
structure SoftFloat where
  add : Nat → W32 → W32 → W32
  sub : Nat → W32 → W32 → W32
  mul : Nat → W32 → W32 → W32
  div : Nat → W32 → W32 → W32
  sqrt : Nat → W32 → W32
  mulAdd : Nat → W32 → W32 → W32 → W32
  eq : W32 → W32 → Bool
  lt : W32 → W32 → Bool
  le : W32 → W32 → Bool
  toI32 : Nat → W32 → W32
  toU32 : Nat → W32 → W32
  ofI32 : Nat → W32 → W32
  ofU32 : Nat → W32 → W32

abbrev signBit : W32 := 0x80000000#32

/-- `is_nan_u32`, FPU.h:40-42; `is_nan`, ref.cpp:108-111. -/
def isNan (v : W32) : Bool :=
  decide (v &&& 0x7F800000#32 = 0x7F800000#32) && decide (v &&& 0x007FFFFF#32 ≠ 0#32)

/-- `f32_classify`, FPU.h:44-83 and ref.cpp:184-223 (the same computation twice). -/
def classify (v : W32) : W32 :=
  let sign := decide ((v >>> 31) &&& 1#32 ≠ 0#32)
  let exp := (v >>> 23) &&& 0xFF#32
  let mant := v &&& 0x7FFFFF#32
  let isSub := decide (exp = 0#32) && decide (mant ≠ 0#32)
  let isZero := decide (exp = 0#32) && decide (mant = 0#32)
  let isInf := decide (exp = 0xFF#32) && decide (mant = 0#32)
  let nan := decide (exp = 0xFF#32) && decide (mant ≠ 0#32)
  let snan := nan && decide ((mant >>> 22) &&& 1#32 = 0#32)
  let qnan := nan && decide ((mant >>> 22) &&& 1#32 ≠ 0#32)
  let res := if isInf && sign then 1#32
    else if !isInf && !isZero && !nan && !isSub && sign then 2#32
    else if isSub && sign then 4#32
    else if isZero && sign then 8#32
    else if isZero && !sign then 16#32
    else if isSub && !sign then 32#32
    else if !isInf && !isZero && !nan && !isSub && !sign then 64#32
    else if isInf && !sign then 128#32
    else 0#32
  let res := if snan then res ||| 256#32 else res
  if qnan then res ||| 512#32 else res

/-- `f32_min_riscv`, FPU.h:85-109 and ref.cpp:118-151. -/
def fmin (F : SoftFloat) (a b : W32) : W32 :=
  if isNan a && isNan b then 0x7fc00000#32
  else if isNan a then b
  else if isNan b then a
  else if F.lt a b then a
  else if F.lt b a then b
  else a ||| b

/-- `f32_max_riscv`, FPU.h:111-135 and ref.cpp:154-182. -/
def fmax (F : SoftFloat) (a b : W32) : W32 :=
  if isNan a && isNan b then 0x7fc00000#32
  else if isNan a then b
  else if isNan b then a
  else if F.lt a b then b
  else if F.lt b a then a
  else a &&& b

/-- FSGNJ, FSGNJN, FSGNJX: FPU.h:194-204, ref.cpp:716-728. `none`: any other function code. -/
def fsgnj (f3 : BitVec 3) (a b : W32) : Option W32 :=
  if f3 = 0#3 then some ((a &&& ~~~signBit) ||| (b &&& signBit))
  else if f3 = 1#3 then some ((a &&& ~~~signBit) ||| (~~~b &&& signBit))
  else if f3 = 2#3 then some (a ^^^ (b &&& signBit))
  else none

/-- FEQ, FLT, FLE: FPU.h:214-224, ref.cpp:731-740. -/
def fcmp (F : SoftFloat) (f3 : BitVec 3) (a b : W32) : Option W32 :=
  if f3 = 2#3 then some (ofBool (F.eq a b))
  else if f3 = 1#3 then some (ofBool (F.lt a b))
  else if f3 = 0#3 then some (ofBool (F.le a b))
  else none

/-- FMIN, FMAX: FPU.h:205-213, ref.cpp:743-752. -/
def fminmax (F : SoftFloat) (f3 : BitVec 3) (a b : W32) : Option W32 :=
  if f3 = 0#3 then some (fmin F a b)
  else if f3 = 1#3 then some (fmax F a b)
  else none

/-- `FPUSoftfloat::impl_compute`, FPU.h:137-244, for `UOP_FP`: `sel` is `imm & 0x1F` (the encoded rs2), `none` an
`assert`. -/
def unit (F : SoftFloat) (f3 : BitVec 3) (f7 : BitVec 7) (sel : BitVec 5) (a b : W32) : Option W32 :=
  let rm := if f3 = 7#3 then 0 else f3.toNat
  if f7 = 0x60#7 then
    if sel = 0#5 then some (F.toI32 rm a) else if sel = 1#5 then some (F.toU32 rm a) else none
  else if f7 = 0x68#7 then
    if sel = 0#5 then some (F.ofI32 rm a) else if sel = 1#5 then some (F.ofU32 rm a) else none
  else if f7 >>> 2 = 0#7 then some (F.add rm a b)
  else if f7 >>> 2 = 1#7 then some (F.add rm a (b ^^^ signBit))
  else if f7 >>> 2 = 2#7 then some (F.mul rm a b)
  else if f7 >>> 2 = 3#7 then some (F.div rm a b)
  else if f7 = 0x2C#7 then if sel ≠ 0#5 then none else some (F.sqrt rm a)
  else if f7 = 0x10#7 then fsgnj f3 a b
  else if f7 = 0x14#7 then fminmax F f3 a b
  else if f7 = 0x50#7 then fcmp F f3 a b
  else if f7 = 0x70#7 then if sel ≠ 0#5 then none else if f3 = 1#3 then some (classify a) else none
  else none

/-- What `RV32Zfinx` does. -/
inductive Result where
  /-- the value goes to the destination register, execution continues behind the instruction -/
  | value (v : W32)
  /-- `illegal_exception = true; return;`: neither registers nor the program counter change -/
  | stuck
  deriving DecidableEq, Repr

/-- The OP-FP part, ref.cpp:688-801.  Where the code sets `illegal_exception` without returning, the
destination gets the initial value of `i_res`, 0. -/
def refOpFp (F : SoftFloat) (rm : Nat) (f3 : BitVec 3) (f7 : BitVec 7) (sel : BitVec 5) (a b : W32) : Result :=
  if f7 = 0x00#7 then .value (F.add rm a b)
  else if f7 = 0x04#7 then .value (F.sub rm a b)
  else if f7 = 0x08#7 then .value (F.mul rm a b)
  else if f7 = 0x0C#7 then .value (F.div rm a b)
  else if f7 = 0x2C#7 then if sel ≠ 0#5 then .stuck else .value (F.sqrt rm a)
  else if f7 = 0x10#7 then .value ((fsgnj f3 a b).getD 0#32)
  else if f7 = 0x50#7 then .value ((fcmp F f3 a b).getD 0#32)
  else if f7 = 0x14#7 then .value ((fminmax F f3 a b).getD 0#32)
  else if f7 = 0x60#7 then
    .value (if sel = 0#5 then F.toI32 rm a else if sel = 1#5 then F.toU32 rm a else 0#32)
  else if f7 = 0x68#7 then
    if sel = 0#5 then .value (F.ofI32 rm a) else if sel = 1#5 then .value (F.ofU32 rm a) else .stuck
  else if f7 = 0x70#7 then .value (if f3 = 1#3 then classify a else 0#32)
  else .stuck

/-- `RefCpu::RV32Zfinx`, ref.cpp:632-850. -/
def refFp (F : SoftFloat) (op : BitVec 7) (f3 : BitVec 3) (f7 : BitVec 7) (sel : BitVec 5) (a b c : W32) : Result :=
  let rm := if f3 = 7#3 then 0 else f3.toNat
  if 4 < rm then .stuck
  else if op = 0x53#7 then refOpFp F rm f3 f7 sel a b
  else if op = 0x43#7 then .value (F.mulAdd rm a b c)
  else if op = 0x47#7 then .value (F.mulAdd rm a b (c ^^^ signBit))
  else if op = 0x4B#7 then .value (F.mulAdd rm (a ^^^ signBit) b c)
  else if op = 0x4F#7 then .value (F.mulAdd rm (a ^^^ signBit) b (c ^^^ signBit))
  else .stuck

end Verif.Fp

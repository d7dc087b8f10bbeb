/-
C++ integer operations used by several model files.

`none` stands for C++ undefined behaviour (shift count not smaller than the
width of the promoted operand, `__builtin_clz(0)`), so that a theorem about a
`some` result also says that no undefined behaviour happens.
-/
namespace Verif.CInt

abbrev W32 := BitVec 32

/-- C++ `a << n` on `uint32_t`; undefined when `n ≥ 32`. -/
def shl (a : W32) (n : Nat) : Option W32 :=
  if n < 32 then some (a <<< n) else none

/-- C++ `a >> n` on `uint32_t`; undefined when `n ≥ 32`. -/
def shr (a : W32) (n : Nat) : Option W32 :=
  if n < 32 then some (a >>> n) else none

/-- C++ `(int32_t)a >> n`; arithmetic shift, undefined when `n ≥ 32`. -/
def sar (a : W32) (n : Nat) : Option W32 :=
  if n < 32 then some (a.sshiftRight n) else none

/-- `__builtin_clz`: number of leading zero bits, undefined for 0. -/
def builtinClz (a : W32) : Option Nat :=
  if a = 0#32 then none else some (31 - Nat.log2 a.toNat)

/-- Number of trailing zeros found by scanning upwards from bit `i`, giving up
after `fuel` bits. -/
def ctzFrom (a : W32) : Nat → Nat → Nat
  | 0, i => i
  | fuel + 1, i => if a.getLsbD i then i else ctzFrom a fuel (i + 1)

/-- `__builtin_ctz`: number of trailing zero bits, undefined for 0. -/
def builtinCtz (a : W32) : Option Nat :=
  if a = 0#32 then none else some (ctzFrom a 32 0)

/-- `__builtin_popcount`: number of one bits. -/
def builtinPopcount (a : W32) : Nat :=
  ((List.range 32).map (fun i => (a.getLsbD i).toNat)).sum

/-- A C++ `bool` converted to `uint32_t`. -/
def ofBool (b : Bool) : W32 := if b then 1#32 else 0#32

/-- `(uint32_t)(int32_t)(int8_t)x` -/
def sext8 (x : W32) : W32 := (x.setWidth 8).signExtend 32

/-- `(uint32_t)(int32_t)(int16_t)x` -/
def sext16 (x : W32) : W32 := (x.setWidth 16).signExtend 32

end Verif.CInt

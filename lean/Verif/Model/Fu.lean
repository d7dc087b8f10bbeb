import Verif.Model.CInt
/-
Functional units: back-end/Exu/include/Fu.h.
-/
namespace Verif.Fu
open Verif.CInt

/-- Micro-operation kinds (`UOP_*`, back-end/include/types.h). -/
inductive Uop
  | jump | add | br | load | sta | std | csr | ecall | ebreak | sfenceVma | fenceI
  | mret | sret | mul | div | fp | fence | wfi
  deriving DecidableEq, Repr

/-- Fields of `ExuInst` read by the functional units
(back-end/Exu/include/ExuTypes.h).  `result` is the value of the result field
before execution: some C++ paths leave it untouched. -/
structure Inst where
  op : Uop
  func3 : BitVec 3
  func7 : BitVec 7
  src1IsPc : Bool
  src2IsImm : Bool
  src1En : Bool := true
  isAtomic : Bool := false
  pc : W32
  imm : W32
  src1 : W32
  src2 : W32
  predTaken : Bool := false
  predNextPc : W32 := 0#32
  result : W32 := 0#32
  deriving Repr

/-- Fu.h:28-31 -/
def operand1 (u : Inst) : W32 := if u.src1IsPc then u.pc else u.src1

/-- Fu.h:33-39 -/
def operand2 (u : Inst) : W32 :=
  if u.src2IsImm then u.imm else if u.op = .jump then 4#32 else u.src2

/-- Fu.h:64-67, the `clmul` loop. -/
def clmulLoop (a b : W32) : W32 :=
  (List.range 32).foldl (fun out i => if (b >>> i) &&& 1#32 = 1#32 then out ^^^ (a <<< i) else out) 0#32

/-- Fu.h:91-94, the `clmulr` loop. -/
def clmulrLoop (a b : W32) : W32 :=
  (List.range 32).foldl (fun out i => if (b >>> i) &&& 1#32 = 1#32 then out ^^^ (a >>> (31 - i)) else out) 0#32

/-- Fu.h:106-109, the `clmulh` loop (starts at 1). -/
def clmulhLoop (a b : W32) : W32 :=
  (List.range' 1 31).foldl (fun out i => if (b >>> i) &&& 1#32 = 1#32 then out ^^^ (a >>> (32 - i)) else out) 0#32

/-- Fu.h:149-150 -/
def rev8Expr (x : W32) : W32 :=
  ((x &&& 0xFF#32) <<< 24) ||| ((x &&& 0xFF00#32) <<< 8) |||
  ((x &&& 0xFF0000#32) >>> 8) ||| ((x &&& 0xFF000000#32) >>> 24)

/-- Fu.h:154-164 -/
def orcbExpr (x : W32) : W32 :=
  let res := 0#32
  let res := if x &&& 0xFF#32 ≠ 0#32 then res ||| 0xFF#32 else res
  let res := if x &&& 0xFF00#32 ≠ 0#32 then res ||| 0xFF00#32 else res
  let res := if x &&& 0xFF0000#32 ≠ 0#32 then res ||| 0xFF0000#32 else res
  let res := if x &&& 0xFF000000#32 ≠ 0#32 then res ||| 0xFF000000#32 else res
  res

/-- Fu.h:69-81, the OP-IMM unary group (`func7 == 0x30`, immediate). -/
def zbbUnary (a imm stale : W32) : Option W32 :=
  let sub := imm &&& 0x1F#32
  if sub = 0#32 then
    if a = 0#32 then some 32#32 else (builtinClz a).map (BitVec.ofNat 32)
  else if sub = 1#32 then
    if a = 0#32 then some 32#32 else (builtinCtz a).map (BitVec.ofNat 32)
  else if sub = 2#32 then some (BitVec.ofNat 32 (builtinPopcount a))
  else if sub = 4#32 then some (sext8 (a &&& 0xFF#32))
  else if sub = 5#32 then some (sext16 (a &&& 0xFFFF#32))
  else some stale

/-- `AluUnit::impl_compute` for `UOP_ADD`, Fu.h:42-207, as a function of the two
selected operands.  `none` is C++ undefined behaviour; `stale` is the previous
content of the result field, kept when no branch assigns it. -/
def aluAdd (func3 : BitVec 3) (func7 : BitVec 7) (isImm : Bool) (imm a b stale : W32) :
    Option W32 :=
  let shift := (b &&& 0x1F#32).toNat
  match func3 with
  | 0#3 => if func7.getLsbD 5 && !isImm then some (a - b) else some (a + b)
  | 1#3 =>
    if func7 = 0#7 then shl a shift
    else if func7 = 0x30#7 ∧ isImm = false then do
      return (← shl a shift) ||| (← shr a (32 - shift))
    else if func7 = 0x24#7 then do return a &&& ~~~(← shl 1#32 shift)
    else if func7 = 0x14#7 then do return a ||| (← shl 1#32 shift)
    else if func7 = 0x34#7 then do return a ^^^ (← shl 1#32 shift)
    else if func7 = 0x05#7 then some (clmulLoop a b)
    else if func7 = 0x30#7 ∧ isImm = true then zbbUnary a imm stale
    else some stale
  | 2#3 =>
    if func7 = 0#7 then some (ofBool (a.slt b))
    else if func7 = 0x10#7 ∧ isImm = false then some (b + (a <<< 1))
    else if func7 = 0x05#7 ∧ isImm = false then some (clmulrLoop a b)
    else some (ofBool (a.slt b))
  | 3#3 =>
    if func7 = 0#7 then some (ofBool (a.ult b))
    else if func7 = 0x05#7 ∧ isImm = false then some (clmulhLoop a b)
    else some (ofBool (a.ult b))
  | 4#3 =>
    if func7 = 0#7 then some (a ^^^ b)
    else if func7 = 0x20#7 ∧ isImm = false then some (~~~(a ^^^ b))
    else if func7 = 0x10#7 ∧ isImm = false then some (b + (a <<< 2))
    else if func7 = 0x05#7 ∧ isImm = false then some (if a.slt b then a else b)
    else if func7 = 0x04#7 ∧ isImm = false then some ((a &&& 0xFFFF#32) ||| (b <<< 16))
    else some (a ^^^ b)
  | 5#3 =>
    if func7 = 0#7 then shr a shift
    else if func7 = 0x20#7 ∧ isImm = false then sar a shift
    else if func7.getLsbD 5 ∧ isImm = true ∧ func7 ≠ 0x30#7 ∧ func7 ≠ 0x24#7 ∧
        func7 ≠ 0x34#7 ∧ func7 ≠ 0x14#7 then sar a shift
    else if func7 = 0x30#7 then do
      return (← shr a shift) ||| (← shl a (32 - shift))
    else if func7 = 0x24#7 then do return (← shr a shift) &&& 1#32
    else if func7 = 0x34#7 ∧ isImm = true then
      if imm &&& 0x1F#32 = 24#32 then some (rev8Expr a) else some stale
    else if func7 = 0x14#7 ∧ isImm = true then
      if imm &&& 0x1F#32 = 7#32 then some (orcbExpr a) else some stale
    else if func7 = 0x05#7 ∧ isImm = false then some (if a.ult b then a else b)
    else shr a shift
  | 6#3 =>
    if func7 = 0#7 then some (a ||| b)
    else if func7 = 0x20#7 ∧ isImm = false then some (a ||| ~~~b)
    else if func7 = 0x05#7 ∧ isImm = false then some (if b.slt a then a else b)
    else if func7 = 0x10#7 ∧ isImm = false then some (b + (a <<< 3))
    else some (a ||| b)
  | 7#3 =>
    if func7 = 0#7 then some (a &&& b)
    else if func7 = 0x20#7 ∧ isImm = false then some (a &&& ~~~b)
    else if func7 = 0x05#7 ∧ isImm = false then some (if b.ult a then a else b)
    else if func7 = 0x04#7 ∧ isImm = false then
      some ((a &&& 0xFF#32) ||| ((b &&& 0xFF#32) <<< 8))
    else some (a &&& b)

/-- `AluUnit::impl_compute`, Fu.h:26-216. -/
def alu (u : Inst) : Option W32 :=
  match u.op with
  | .add => aluAdd u.func3 u.func7 u.src2IsImm u.imm (operand1 u) (operand2 u) u.result
  | .wfi => some 0#32
  | _ => some (operand1 u + operand2 u)

/-- `AguUnit::impl_compute`, Fu.h:227-233 (the 64-bit temporary is truncated
back to the 32-bit result field). -/
def agu (u : Inst) : W32 := u.src1 + u.imm

/-- `SduUnit::impl_compute`, Fu.h:244-297.  AMO funct5 codes from
back-end/include/types.h:49-62 (`AmoOp`). -/
def sdu (u : Inst) : W32 :=
  if !u.isAtomic then u.src2
  else
    let op := u.func7 >>> 2
    if op = 0x01#7 then u.src2                                   -- SWAP
    else if op = 0x00#7 then u.src1 + u.src2                      -- ADD
    else if op = 0x04#7 then u.src1 ^^^ u.src2                    -- XOR
    else if op = 0x0c#7 then u.src1 &&& u.src2                    -- AND
    else if op = 0x08#7 then u.src1 ||| u.src2                    -- OR
    else if op = 0x10#7 then (if u.src1.slt u.src2 then u.src1 else u.src2) -- MIN
    else if op = 0x14#7 then (if u.src2.slt u.src1 then u.src1 else u.src2) -- MAX
    else if op = 0x18#7 then (if u.src1.ult u.src2 then u.src1 else u.src2) -- MINU
    else if op = 0x1c#7 then (if u.src2.ult u.src1 then u.src1 else u.src2) -- MAXU
    else u.src2

/-- `MulUnit::impl_compute`, Fu.h:309-332.  `none` is `Assert(0)`.  The signed
64-bit products cannot overflow (|s1| ≤ 2^31, |s2|,u2 < 2^32), so wrapping
`BitVec 64` multiplication is exact here; that fact is part of the proofs. -/
def mul (func3 : BitVec 3) (a b : W32) : Option W32 :=
  let s1 : BitVec 64 := a.signExtend 64
  let s2 : BitVec 64 := b.signExtend 64
  let u1 : BitVec 64 := a.setWidth 64
  let u2 : BitVec 64 := b.setWidth 64
  match func3 with
  | 0#3 => some ((u1 * u2).setWidth 32)
  | 1#3 => some (((s1 * s2).sshiftRight 32).setWidth 32)
  | 2#3 => some (((s1 * u2).sshiftRight 32).setWidth 32)
  | 3#3 => some (((u1 * u2) >>> 32).setWidth 32)
  | _ => none

/-- `DivUnit::impl_compute`, Fu.h:433-472.  `none` is `Assert(0)`.  C++ signed
`/` and `%` truncate; `BitVec.sdiv`/`srem` do too.  The only overflowing
quotient (`INT32_MIN / -1`) is excluded by the explicit test. -/
def div (func3 : BitVec 3) (a b : W32) : Option W32 :=
  match func3 with
  | 4#3 => some (if b = 0#32 then -1#32
      else if a = 0x80000000#32 ∧ b = -1#32 then 0x80000000#32
      else a.sdiv b)
  | 5#3 => some (if b = 0#32 then 0xFFFFFFFF#32 else a / b)
  | 6#3 => some (if b = 0#32 then a
      else if a = 0x80000000#32 ∧ b = -1#32 then 0#32
      else a.srem b)
  | 7#3 => some (if b = 0#32 then a else a % b)
  | _ => none

/-- Result of the branch unit: `br_taken`, `diag_val` (next pc), `mispred`. -/
structure BruOut where
  taken : Bool
  nextPc : W32
  mispred : Bool
  deriving DecidableEq, Repr

/-- Direction decision, Fu.h:354-389. -/
def bruTaken (u : Inst) : Bool :=
  match u.op with
  | .br =>
    match u.func3 with
    | 0#3 => u.src1 == u.src2
    | 1#3 => u.src1 != u.src2
    | 5#3 => !(u.src1.slt u.src2)
    | 4#3 => u.src1.slt u.src2
    | 7#3 => !(u.src1.ult u.src2)
    | 6#3 => u.src1.ult u.src2
    | _ => true
  | .jump => true
  | _ => false

/-- Target computation, Fu.h:353 and 384-385. -/
def bruTarget (u : Inst) : W32 :=
  if u.op = .jump ∧ u.src1En = true then (u.src1 + u.imm) &&& ~~~1#32
  else u.pc + u.imm

/-- `BruUnit::impl_compute`, Fu.h:349-418 (the branch without
`CONFIG_ORACLE_STEADY_FETCH_WIDTH`, as in include/config.h). -/
def bru (u : Inst) : BruOut :=
  let taken := bruTaken u
  let pcBr := bruTarget u
  let predTarget := if u.predTaken then u.predNextPc else u.pc + 4#32
  let ok := (taken && u.predTaken && predTarget == pcBr) || (!taken && !u.predTaken)
  { taken := taken, nextPc := if taken then pcBr else u.pc + 4#32, mispred := !ok }

end Verif.Fu

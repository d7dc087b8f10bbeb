import Verif.Model.Decode
/-
The reference simulator's integer instructions: `RefCpu::RV32IM`,
diff/ref.cpp:1111-1607, without the load and store cases (those are in
`Verif.Model.RefMem`), followed by the `gpr[0] = 0` of `RefCpu::RISCV`,
diff/ref.cpp:629.
-/
namespace Verif.Ref
open Verif.CInt Verif.Decode

/-- The part of `CPU_state` (diff/include/ref.h) these instructions touch. -/
structure IState where
  gpr : Nat → W32
  pc : W32

/-- diff/ref.cpp:1325-1341, `funct7 == 0x30` under OP-IMM funct3 1.  The value
`stale` is the old content of rd, kept when no branch assigns it. -/
def refUnary (sub : Nat) (a stale : W32) : Option W32 :=
  if sub = 0 then
    if a = 0#32 then some 32#32 else (builtinClz a).map (BitVec.ofNat 32)
  else if sub = 1 then
    if a = 0#32 then some 32#32 else (builtinCtz a).map (BitVec.ofNat 32)
  else if sub = 2 then some (BitVec.ofNat 32 (builtinPopcount a))
  else if sub = 4 then some (sext8 (a &&& 0xFF#32))
  else if sub = 5 then some (sext16 (a &&& 0xFFFF#32))
  else some stale

/-- diff/ref.cpp:1371-1374 -/
def refRev8 (x : W32) : W32 :=
  ((x &&& 0xFF#32) <<< 24) ||| ((x &&& 0xFF00#32) <<< 8) |||
  ((x &&& 0xFF0000#32) >>> 8) ||| ((x &&& 0xFF000000#32) >>> 24)

/-- diff/ref.cpp:1378-1388 -/
def refOrcb (x : W32) : W32 :=
  let res := 0#32
  let res := if x &&& 0xFF#32 ≠ 0#32 then res ||| 0xFF#32 else res
  let res := if x &&& 0xFF00#32 ≠ 0#32 then res ||| 0xFF00#32 else res
  let res := if x &&& 0xFF0000#32 ≠ 0#32 then res ||| 0xFF0000#32 else res
  let res := if x &&& 0xFF000000#32 ≠ 0#32 then res ||| 0xFF000000#32 else res
  res

/-- diff/ref.cpp:1290-1393: OP-IMM. `none` is an undefined C++ shift. -/
def refOpImm (f3 : BitVec 3) (f7 : BitVec 7) (rs2 : Nat) (imm a stale : W32) : Option W32 :=
  let shamt := (imm &&& 0x1F#32).toNat
  match f3 with
  | 0#3 => some (a + imm)
  | 2#3 => some (ofBool (a.slt imm))
  | 3#3 => some (ofBool (a.ult imm))
  | 4#3 => some (a ^^^ imm)
  | 6#3 => some (a ||| imm)
  | 7#3 => some (a &&& imm)
  | 1#3 =>
    if f7 = 0#7 then shl a shamt
    else if f7 = 0x30#7 then refUnary rs2 a stale
    else if f7 = 0x14#7 then do return a ||| (← shl 1#32 shamt)
    else if f7 = 0x24#7 then do return a &&& ~~~(← shl 1#32 shamt)
    else if f7 = 0x34#7 then do return a ^^^ (← shl 1#32 shamt)
    else some stale
  | 5#3 =>
    if f7 = 0#7 then shr a shamt
    else if f7 = 0x20#7 then sar a shamt
    else if f7 = 0x30#7 then do return (← shr a shamt) ||| (← shl a (32 - shamt))
    else if f7 = 0x24#7 then do return (← shr a shamt) &&& 1#32
    else if f7 = 0x34#7 then (if rs2 = 24 then some (refRev8 a) else some stale)
    else if f7 = 0x14#7 then (if rs2 = 7 then some (refOrcb a) else some stale)
    else some stale

/-- diff/ref.cpp:1397-1465: OP with funct7 = 1. -/
def refMulDiv (f3 : BitVec 3) (a b : W32) : W32 :=
  let s1 : BitVec 64 := a.signExtend 64
  let s2 : BitVec 64 := b.signExtend 64
  let u1 : BitVec 64 := a.setWidth 64
  let u2 : BitVec 64 := b.setWidth 64
  match f3 with
  | 0#3 => (u1 * u2).setWidth 32
  | 1#3 => ((s1 * s2).sshiftRight 32).setWidth 32
  | 2#3 => ((s1 * u2).sshiftRight 32).setWidth 32
  | 3#3 => ((u1 * u2) >>> 32).setWidth 32
  | 4#3 => if b = 0#32 then -1#32
      else if a = 0x80000000#32 ∧ b = -1#32 then 0x80000000#32 else a.sdiv b
  | 5#3 => if b = 0#32 then 0xFFFFFFFF#32 else a / b
  | 6#3 => if b = 0#32 then a
      else if a = 0x80000000#32 ∧ b = -1#32 then 0#32 else a.srem b
  | 7#3 => if b = 0#32 then a else a % b

/-- diff/ref.cpp:1486-1491 -/
def refClmul (a b : W32) : W32 :=
  (List.range 32).foldl (fun out i => if (b >>> i) &&& 1#32 = 1#32 then out ^^^ (a <<< i) else out) 0#32
/-- diff/ref.cpp:1503-1508 -/
def refClmulr (a b : W32) : W32 :=
  (List.range 32).foldl (fun out i => if (b >>> i) &&& 1#32 = 1#32 then out ^^^ (a >>> (31 - i)) else out) 0#32
/-- diff/ref.cpp:1517-1522 -/
def refClmulh (a b : W32) : W32 :=
  (List.range' 1 31).foldl (fun out i => if (b >>> i) &&& 1#32 = 1#32 then out ^^^ (a >>> (32 - i)) else out) 0#32

/-- diff/ref.cpp:1466-1595: OP with funct7 ≠ 1. -/
def refOp (f3 : BitVec 3) (f7 : BitVec 7) (a b stale : W32) : Option W32 :=
  let shift := (b &&& 0x1F#32).toNat
  match f3 with
  | 0#3 => if f7 = 0#7 then some (a + b) else if f7 = 0x20#7 then some (a - b) else some stale
  | 1#3 =>
    if f7 = 0#7 then shl a shift
    else if f7 = 0x30#7 then do return (← shl a shift) ||| (← shr a (32 - shift))
    else if f7 = 0x24#7 then do return a &&& ~~~(← shl 1#32 shift)
    else if f7 = 0x14#7 then do return a ||| (← shl 1#32 shift)
    else if f7 = 0x34#7 then do return a ^^^ (← shl 1#32 shift)
    else if f7 = 0x05#7 then some (refClmul a b)
    else some stale
  | 2#3 =>
    if f7 = 0#7 then some (ofBool (a.slt b))
    else if f7 = 0x10#7 then some (b + (a <<< 1))
    else if f7 = 0x05#7 then some (refClmulr a b)
    else some stale
  | 3#3 =>
    if f7 = 0#7 then some (ofBool (a.ult b))
    else if f7 = 0x05#7 then some (refClmulh a b)
    else some stale
  | 4#3 =>
    if f7 = 0#7 then some (a ^^^ b)
    else if f7 = 0x20#7 then some (~~~(a ^^^ b))
    else if f7 = 0x10#7 then some (b + (a <<< 2))
    else if f7 = 0x05#7 then some (if a.slt b then a else b)
    else if f7 = 0x04#7 then some ((a &&& 0x0000FFFF#32) ||| (b <<< 16))
    else some stale
  | 5#3 =>
    if f7 = 0#7 then shr a shift
    else if f7 = 0x20#7 then sar a shift
    else if f7 = 0x30#7 then do return (← shr a shift) ||| (← shl a (32 - shift))
    else if f7 = 0x24#7 then do return (← shr a shift) &&& 1#32
    else if f7 = 0x05#7 then some (if a.ult b then a else b)
    else some stale
  | 6#3 =>
    if f7 = 0#7 then some (a ||| b)
    else if f7 = 0x20#7 then some (a ||| ~~~b)
    else if f7 = 0x05#7 then some (if b.slt a then a else b)
    else if f7 = 0x10#7 then some (b + (a <<< 3))
    else some stale
  | 7#3 =>
    if f7 = 0#7 then some (a &&& b)
    else if f7 = 0x20#7 then some (a &&& ~~~b)
    else if f7 = 0x05#7 then some (if b.ult a then a else b)
    else if f7 = 0x04#7 then some ((a &&& 0xFF#32) ||| ((b &&& 0xFF#32) <<< 8))
    else some stale

/-- diff/ref.cpp:1150-1193: is the conditional branch taken? -/
def refTaken (f3 : BitVec 3) (a b : W32) : Bool :=
  match f3 with
  | 0#3 => a == b
  | 1#3 => a != b
  | 4#3 => a.slt b
  | 5#3 => !(a.slt b)
  | 6#3 => a.ult b
  | 7#3 => !(a.ult b)
  | _ => false

/-- `state.gpr[rd] = v` followed by `state.gpr[0] = 0` (diff/ref.cpp:629). -/
def wr (g : Nat → W32) (rd : Nat) (v : W32) : Nat → W32 :=
  fun n => if n = 0 then 0#32 else if n = rd then v else g n

/-- `RefCpu::RV32IM`, diff/ref.cpp:1111-1607.  `none`: an undefined C++ shift, or a
load/store (not modelled here). -/
def refIM (i : W32) (s : IState) : Option IState :=
  let f3 : BitVec 3 := i.extractLsb' 12 3
  let f7 : BitVec 7 := i.extractLsb' 25 7
  let rd := (i.extractLsb' 7 5).toNat
  let a := s.gpr (i.extractLsb' 15 5).toNat
  let rs2 := (i.extractLsb' 20 5).toNat
  let b := s.gpr rs2
  let next := s.pc + 4#32
  match i.extractLsb' 0 7 with
  | 0b0110111#7 => some ⟨wr s.gpr rd ((immU i).setWidth 32), next⟩
  | 0b0010111#7 => some ⟨wr s.gpr rd ((immU i + s.pc.setWidth 64).setWidth 32), next⟩
  | 0b1101111#7 => some ⟨wr s.gpr rd (s.pc + 4#32), (s.pc.setWidth 64 + immJ i).setWidth 32⟩
  | 0b1100111#7 => some ⟨wr s.gpr rd (s.pc + 4#32),
      ((a.setWidth 64 + immI i) &&& 0xFFFFFFFE#64).setWidth 32⟩
  | 0b1100011#7 => some ⟨wr s.gpr 0 0#32,
      if refTaken f3 a b then (s.pc.setWidth 64 + immB i).setWidth 32 else next⟩
  | 0b0000011#7 => none
  | 0b0100011#7 => none
  | 0b0010011#7 => do
      let v ← refOpImm f3 f7 rs2 ((immI i).setWidth 32) a (s.gpr rd)
      return ⟨wr s.gpr rd v, next⟩
  | 0b0110011#7 => do
      let v ← if f7 = 1#7 then some (refMulDiv f3 a b) else refOp f3 f7 a b (s.gpr rd)
      return ⟨wr s.gpr rd v, next⟩
  | _ => some ⟨wr s.gpr 0 0#32, next⟩

end Verif.Ref

import Verif.Model.PhysMem
import Verif.Model.RefMem
import Verif.Model.Device
/-
Handing a machine state over: `get_state` and `init_diff_ckpt` (diff/diff.cpp), `restore_from_ref` and `restore_checkpoint`
(back-end/BackTop.cpp).

Simplifications: of `CPU_state` only what instructions can observe is kept (registers, CSRs, program counter, privilege,
reservation), not the report of the last instruction (store, page faults, numbers), which the next step overwrites; the copy
`dut_cpu` for the comparison and the branch oracle are left out.  The interface `refcpu_*` is not part of the repository: its
functions are taken to be the accessors of `RefCpu` (diff/include/ref.h:87-130) their names say, and `refcpu_init` its
constructor.  Decompression is left out: a file is the list of bytes `gzread` delivers.
-/
namespace Verif.Restore

/-- Registers and so on: `CPU_state`, diff/include/ref.h:68-85, and the privilege. -/
structure Arch where
  gpr : Nat → BitVec 32
  csr : Nat → BitVec 32
  pc : BitVec 32
  priv : BitVec 8
  resValid : Bool
  resAddr : BitVec 32

/-- The reference model: `RefCpu`, diff/include/ref.h:87-130, and its timer, diff/ref.cpp:16-17. -/
structure Ref where
  arch : Arch
  ram : BitVec 32 → BitVec 32
  io : BitVec 32 → Option (BitVec 32)
  timerOff : BitVec 64
  timerCmp : BitVec 64

/-- `RefCpu::load_word`, diff/ref.cpp:1609-1617. -/
def Ref.load (r : Ref) (a : BitVec 32) : BitVec 32 :=
  if RefMem.isRam (RefMem.wordOf a) then r.ram (RefMem.ramIndex (RefMem.wordOf a)) else (r.io (RefMem.wordOf a)).getD 0#32

/-- The core as far as it is written: both copies of the registers (Prf.h: `reg_file`, `reg_file_1`), CSRs and privilege
(Csr.h), both copies of the reservation (RealLsu: `cur`, `nxt`), `number_PC`, the outputs `flush` and `redirect_pc`, the
memory, and the peripherals (whose own `mem` is not used: they access `pm`). -/
structure Core where
  reg : Nat → BitVec 32
  reg1 : Nat → BitVec 32
  csr : Nat → BitVec 32
  csr1 : Nat → BitVec 32
  priv : BitVec 8
  priv1 : BitVec 8
  res : Bool × BitVec 32
  res1 : Bool × BitVec 32
  pc : BitVec 32
  flush : Bool
  redirect : BitVec 32
  pm : PhysMem.State
  dev : Device.State

/-- The word addresses of a range: `for (off = 0; off + 4 <= size; off += 4) base + off`. -/
def words (base : BitVec 32) (size : Nat) : List (BitVec 32) := (List.range (size / 4)).map fun i => base + BitVec.ofNat 32 (4 * i)

/-- `kCkptIoRanges`, diff/diff.cpp:24-30, with the values of config.h:630-650. -/
def ioRanges : List (BitVec 32 × Nat) :=
  [(0#32, 0x2000), (0x10000000#32, 0x100), (0x0c000000#32, 0x210000), (0x1fd0e000#32, 0x100), (0x1fd0f000#32, 0x100)]

def ioWords : List (BitVec 32) := ioRanges.flatMap fun r => words r.1 r.2

/-- `pmem_write` for each address of a list. -/
def writeAll (f : BitVec 32 → BitVec 32) : List (BitVec 32) → PhysMem.State → Option PhysMem.State
  | [], s => some s
  | a :: l, s => (PhysMem.write s a (f a)).bind (writeAll f l)

/-- The copying part of `get_state`, diff/diff.cpp:172-186: `memcpy` of the RAM, `refcpu_get_io_word` for each word. -/
def getState (r : Ref) (s : PhysMem.State) : Option PhysMem.State :=
  if s.ram.isSome then
    writeAll (fun a => (r.io a).getD 0#32) ioWords
      { s with ram := some fun k => (r.ram (BitVec.ofNat 32 (k / 4)) >>> (8 * (k % 4))).setWidth 8 }
  else none

/-- The registers, `BackTop.cpp:511-539` and `615-643`: the loops run to `ARF_NUM` = 32 and `CSR_NUM` = 21. -/
def setArch (a : Arch) (c : Core) : Core :=
  { c with
    pc := a.pc, priv := a.priv, priv1 := a.priv,
    reg := fun i => if i < 32 then a.gpr i else c.reg i, reg1 := fun i => if i < 32 then a.gpr i else c.reg1 i,
    csr := fun i => if i < 21 then a.csr i else c.csr i, csr1 := fun i => if i < 21 then a.csr i else c.csr1 i,
    res := (a.resValid, a.resAddr), res1 := (a.resValid, a.resAddr), flush := true, redirect := a.pc }

/-- `BackTop::restore_from_ref`, BackTop.cpp:507-548. -/
def fromRef (r : Ref) (c : Core) : Option Core := (getState r c.pm).map fun pm => setArch r.arch { c with pm := pm }

/-- `pmem_read` for each address of a list, as a map. -/
def readAll (s : PhysMem.State) : List (BitVec 32) → Option (BitVec 32 → Option (BitVec 32))
  | [] => some fun _ => none
  | a :: l => (PhysMem.read s a).bind fun v => (readAll s l).map fun m q => if q = a then some v else m q

/-- `init_diff_ckpt`, diff/diff.cpp:146-170, with `seed_ref_io_from_backing` (94-104).  `none`: no RAM. -/
def initRef (a : Arch) (s : PhysMem.State) : Option Ref :=
  match s.ram with
  | none => none
  | some ram => (readAll s ioWords).map fun io => ⟨a, fun i => (PhysMem.word ram i.toNat).getD 0#32, io, 0#64, 0#64⟩

/-! ### Checkpoint files -/

/-- `gz_read_pod` of a `uint32_t`: little endian; `none`: the file is too short. -/
def u32 : List (BitVec 8) → Option (BitVec 32 × List (BitVec 8))
  | b0 :: b1 :: b2 :: b3 :: r => some (b3 ++ b2 ++ b1 ++ b0, r)
  | _ => none

def u16 : List (BitVec 8) → Option (BitVec 16 × List (BitVec 8))
  | b0 :: b1 :: r => some (b1 ++ b0, r)
  | _ => none

def u64 (f : List (BitVec 8)) : Option (BitVec 64 × List (BitVec 8)) :=
  (u32 f).bind fun lo => (u32 lo.2).map fun hi => (hi.1 ++ lo.1, hi.2)

/-- An array of `n` words. -/
def u32s : Nat → List (BitVec 8) → Option (List (BitVec 32) × List (BitVec 8))
  | 0, f => some ([], f)
  | n + 1, f => (u32 f).bind fun a => (u32s n a.2).map fun l => (a.1 :: l.1, l.2)

/-- A `bool`: reading another byte than 0 or 1 is undefined behaviour (`none`). -/
def flag : List (BitVec 8) → Option (Bool × List (BitVec 8))
  | b :: r => if b = 0#8 then some (false, r) else if b = 1#8 then some (true, r) else none
  | [] => none

/-- `gz_read_exact`, BackTop.cpp:454-469. -/
def exact (n : Nat) (f : List (BitVec 8)) : Option (List (BitVec 8) × List (BitVec 8)) :=
  if n ≤ f.length then some (f.take n, f.drop n) else none

/-- `kExpectedIoLayout`, BackTop.cpp:447-452. -/
def layout : List (BitVec 32 × Nat) :=
  [(0#32, 0x2000), (0x10000000#32, 0x100), (0x0c000000#32, 0x210000), (0x1fd0e000#32, 0x100)]

/-- Word `off / 4` of the bytes of a range, BackTop.cpp:673-677. -/
def ioWord (bs : List (BitVec 8)) (i : Nat) : BitVec 32 :=
  (bs[4 * i + 3]?).getD 0#8 ++ (bs[4 * i + 2]?).getD 0#8 ++ (bs[4 * i + 1]?).getD 0#8 ++ (bs[4 * i]?).getD 0#8

/-- The inner loop, BackTop.cpp:672-681. -/
def putWords (base : BitVec 32) (bs : List (BitVec 8)) : Nat → PhysMem.State → Option PhysMem.State
  | 0, s => some s
  | n + 1, s => (putWords base bs n s).bind fun s =>
      if ioWord bs n ≠ 0#32 then PhysMem.write s (base + BitVec.ofNat 32 (4 * n)) (ioWord bs n) else some s

/-- The loop over the ranges, BackTop.cpp:658-682; the argument is what is left of `kExpectedIoLayout`. -/
def putRanges : List (BitVec 32 × Nat) → List (BitVec 8) → PhysMem.State → Option PhysMem.State
  | [], _, s => some s
  | e :: l, f, s =>
    (u32 f).bind fun base => (u32 base.2).bind fun size =>
      if base.1 = e.1 ∧ (l = [] ∨ size.1.toNat = e.2) then
        (exact size.1.toNat size.2).bind fun bs =>
          (putWords base.1 bs.1 (size.1.toNat / 4) s).bind (putRanges l bs.2)
      else none

/-- `Ckpt_CPU_state`, BackTop.cpp:565-576, read as one object of 236 bytes: two bytes of padding follow the flags. -/
def cpuState (f : List (BitVec 8)) : Option (Arch × List (BitVec 8)) :=
  (u32s 32 f).bind fun gpr => (u32s 21 gpr.2).bind fun csr => (u32 csr.2).bind fun pc => (u32s 3 pc.2).bind fun st =>
    (flag st.2).bind fun store => (flag store.2).bind fun rv => (exact 2 rv.2).bind fun pad => (u32 pad.2).map fun ra =>
      (⟨fun i => gpr.1.getD i 0#32, fun i => csr.1.getD i 0#32, pc.1, 0#8, rv.1, ra.1⟩, ra.2)

/-- `BackTop::restore_checkpoint`, BackTop.cpp:550-695: the core, the reference, `ckpt_interval_inst_count`. -/
def fromFile (f : List (BitVec 8)) (c : Core) : Option (Core × Ref × BitVec 64) :=
  (u32 f).bind fun magic => (u16 magic.2).bind fun ver => (u16 ver.2).bind fun priv => (u32 priv.2).bind fun size =>
    (u32 size.2).bind fun count =>
      if magic.1 = 0x006d6552#32 ∧ ver.1 = 2#16 ∧ size.1.toNat = PhysMem.ramSize ∧ count.1 = 4#32 then
        (cpuState count.2).bind fun st => (u64 st.2).bind fun interval =>
          if c.pm.ram.isSome then
            (exact PhysMem.ramSize interval.2).bind fun ram =>
              (putRanges layout ram.2 { PhysMem.clearAll c.pm with ram := some fun k => (ram.1[k]?).getD 0#8 }).bind fun pm =>
                let a := { st.1 with priv := (priv.1 &&& 3#16).setWidth 8 }
                (initRef a pm).map fun r => (setArch a { c with pm := pm }, r, interval.1)
          else none
      else none

end Verif.Restore

import Verif.Model.RefMem
/-
The devices of the simulator (MemSubSystem/include/PeripheralModel.h): timer, UART, interrupt controller, DMA engine.

Simplifications: physical memory (back-end/PhysMemory.cpp), RAM array and hash map of I/O words alike, is a function on
word addresses (0 where nothing was written); `csr_interrupt_inject` and `memory` are bound; `sim_time` enters
as the argument `now` (never negative); the hook for the reference's RAM is left out.  `out` lists the characters
printed (newest first).
-/
namespace Verif.Device
open Verif.RefMem (wordOf uartBase uartIer plicClaim timerLow timerHigh timerCmpLow timerCmpHigh)

abbrev dmaSrcAddr : BitVec 32 := 0x1fd0f000#32
abbrev dmaDstAddr : BitVec 32 := 0x1fd0f004#32
abbrev dmaLenAddr : BitVec 32 := 0x1fd0f008#32
abbrev dmaCtrlAddr : BitVec 32 := 0x1fd0f00c#32
abbrev dmaStatusAddr : BitVec 32 := 0x1fd0f010#32

/-- The members of `PeripheralModel` (PeripheralModel.h:20-31), the memory, and the lines it drives: `none` until first
driven. -/
structure State where
  mem : BitVec 32 → BitVec 32
  timerOff : BitVec 64
  timerCmp : BitVec 64
  dmaSrc : BitVec 32
  dmaDst : BitVec 32
  dmaLen : BitVec 32
  dmaCtrl : BitVec 32
  dmaStatus : BitVec 32
  uartIrq : Bool
  dmaIrq : Bool
  extLine : Option Bool
  timerLine : Option Bool
  out : List (BitVec 8)

/-- PeripheralModel.h:20-31: the initial values. -/
def State.init (mem : BitVec 32 → BitVec 32) : State :=
  ⟨mem, 0#64, 0#64, 0#32, 0#32, 0#32, 0#32, 0#32, false, false, none, none, []⟩

/-- `in_range`, PeripheralModel.h:44-49. -/
def inRange (a base : BitVec 32) (size : Nat) : Bool :=
  if a.toNat < base.toNat then false else decide ((a - base).toNat < size)

/-- `is_modeled_mmio`, PeripheralModel.h:43-54, with the sizes of config.h:630-654. -/
def modeled (a : BitVec 32) : Bool :=
  inRange a uartBase 0x100 || inRange a 0x0c000000#32 0x210000 || inRange a dmaSrcAddr 0x100 || inRange a timerLow 0x100

/-- `pmem_read`, PhysMemory.cpp:70-78. -/
def pmemRead (m : BitVec 32 → BitVec 32) (a : BitVec 32) : BitVec 32 := m (wordOf a)

/-- `pmem_write`, PhysMemory.cpp:80-92. -/
def pmemWrite (m : BitVec 32 → BitVec 32) (a d : BitVec 32) : BitVec 32 → BitVec 32 :=
  fun w => if w = wordOf a then d else m w

/-- `pmem_is_ram_addr`, PhysMemory.cpp:60-67; the sum is in 64 bits. -/
def isRam (a len : BitVec 32) : Bool :=
  if len = 0#32 ∨ a.toNat < 0x80000000 then false
  else decide ((a.setWidth 64 + len.setWidth 64 - 1#64 : BitVec 64).toNat < 0xC0000000)

/-- Byte `a` of the memory array. -/
def byteAt (m : BitVec 32 → BitVec 32) (a : BitVec 32) : BitVec 8 := (m (wordOf a) >>> (8 * (a.toNat % 4))).setWidth 8

def setByte (m : BitVec 32 → BitVec 32) (a : BitVec 32) (b : BitVec 8) : BitVec 32 → BitVec 32 :=
  pmemWrite m a ((m (wordOf a) &&& ~~~(0xFF#32 <<< (8 * (a.toNat % 4)))) ||| (b.setWidth 32 <<< (8 * (a.toNat % 4))))

/-- `pmem_memcpy_from_ram` into a buffer, then `pmem_memcpy_to_ram`, PhysMemory.cpp:94-121, PeripheralModel.h:236-238. -/
def copy (m : BitVec 32 → BitVec 32) (src dst : BitVec 32) (n : Nat) : BitVec 32 → BitVec 32 :=
  (List.range n).foldl (fun k i => setByte k (dst + BitVec.ofNat 32 i) (byteAt m (src + BitVec.ofNat 32 i))) m

/-- `effective_timer_value`, PeripheralModel.h:221-223. -/
def timerNow (s : State) (now : BitVec 64) : BitVec 64 := now + s.timerOff

/-- `update_timer_irq`, PeripheralModel.h:251-258. -/
def updTimer (now : BitVec 64) (s : State) : State :=
  { s with timerLine := some (decide (s.timerCmp.toNat ≤ (timerNow s now).toNat)) }

/-- `update_external_irq`, PeripheralModel.h:260-273. -/
def updExt (s : State) : State :=
  let id : BitVec 32 := if s.dmaIrq then 11#32 else if s.uartIrq then 10#32 else 0#32
  { s with mem := pmemWrite s.mem plicClaim id, extLine := some (decide (id ≠ 0#32)) }

/-- `start_dma_transfer`, PeripheralModel.h:225-249. -/
def startDma (s : State) : State :=
  if s.dmaLen ≠ 0#32 ∧ isRam s.dmaSrc s.dmaLen = true ∧ isRam s.dmaDst s.dmaLen = true then
    let s := { s with mem := copy s.mem s.dmaSrc s.dmaDst s.dmaLen.toNat, dmaStatus := 2#32 }
    if s.dmaCtrl &&& 2#32 ≠ 0#32 then updExt { s with dmaIrq := true } else s
  else { s with dmaStatus := 4#32 }

/-- `mask_store_data`, `mask_store_mask`, PeripheralModel.h:275-293. -/
def maskData (d : BitVec 32) (f3 : BitVec 3) : BitVec 32 :=
  if f3 &&& 3#3 = 0#3 then d &&& 0xFF#32 else if f3 &&& 3#3 = 1#3 then d &&& 0xFFFF#32 else d

def maskOf (f3 : BitVec 3) : BitVec 32 :=
  if f3 &&& 3#3 = 0#3 then 0xFF#32 else if f3 &&& 3#3 = 1#3 then 0xFFFF#32 else 0xFFFFFFFF#32

/-- The general part of `on_commit_store`, PeripheralModel.h:174-206. -/
def storePlain (p d : BitVec 32) (f3 : BitVec 3) (s : State) : State :=
  let sh := (p &&& 3#32).toNat * 8
  let v := maskData d f3
  let mask := maskOf f3 <<< sh
  let m := pmemWrite s.mem p ((pmemRead s.mem p &&& ~~~mask) ||| ((v <<< sh) &&& mask))
  let s := { s with mem := m }
  if p = uartBase then
    { s with mem := pmemWrite m uartBase (pmemRead m uartBase &&& 0xFFFFFF00#32), out := d.setWidth 8 :: s.out }
  else if p = uartIer then
    if v &&& 0xFF#32 = 7#32 then
      updExt { s with mem := pmemWrite m uartBase (pmemRead m uartBase &&& 0xFFF0FFFF#32), uartIrq := true }
    else if v &&& 0xFF#32 = 5#32 then
      { s with mem := pmemWrite m uartBase ((pmemRead m uartBase &&& 0xFFF0FFFF#32) ||| 0x00030000#32) }
    else s
  else if p = plicClaim then
    updExt (if v &&& 0xFF#32 = 10#32 then { s with uartIrq := false }
      else if v &&& 0xFF#32 = 11#32 then { s with dmaIrq := false } else s)
  else s

/-- `on_commit_store`, PeripheralModel.h:113-208. -/
def store (now : BitVec 64) (p d : BitVec 32) (f3 : BitVec 3) (s : State) : State :=
  if modeled p = false then s
  else if p = timerLow then
    updTimer now { s with timerOff := ((timerNow s now &&& 0xFFFFFFFF00000000#64) ||| d.setWidth 64) - now }
  else if p = timerHigh then
    updTimer now { s with timerOff := ((d.setWidth 64 <<< 32) ||| (timerNow s now &&& 0x00000000FFFFFFFF#64)) - now }
  else if p = timerCmpLow then
    updTimer now { s with timerCmp := (s.timerCmp &&& 0xFFFFFFFF00000000#64) ||| d.setWidth 64 }
  else if p = timerCmpHigh then
    updTimer now { s with timerCmp := (d.setWidth 64 <<< 32) ||| (s.timerCmp &&& 0x00000000FFFFFFFF#64) }
  else if p = dmaSrcAddr then { s with dmaSrc := d }
  else if p = dmaDstAddr then { s with dmaDst := d }
  else if p = dmaLenAddr then { s with dmaLen := d }
  else if p = dmaCtrlAddr then
    let s := { s with dmaCtrl := d &&& 2#32 }
    if d &&& 1#32 ≠ 0#32 then startDma s else s
  else if p = dmaStatusAddr then { s with dmaStatus := s.dmaStatus &&& ~~~d }
  else storePlain p d f3 s

/-- `tick`, PeripheralModel.h:210-213. -/
def tick (now : BitVec 64) (s : State) : State := updExt (updTimer now s)

/-- The lane part of `read_load`, PeripheralModel.h:88-110. -/
def readLanes (m : BitVec 32 → BitVec 32) (p : BitVec 32) (f3 : BitVec 3) : BitVec 32 :=
  let data := pmemRead m p >>> ((p &&& 3#32).toNat * 8)
  let size := f3 &&& 3#3
  let sign : BitVec 32 :=
    if size = 0#3 then (if data &&& 0x80#32 ≠ 0#32 then 0xFFFFFF00#32 else 0#32)
    else if size = 1#3 then (if data &&& 0x8000#32 ≠ 0#32 then 0xFFFF0000#32 else 0#32) else 0#32
  let data := data &&& maskOf f3
  if f3 &&& 4#3 = 0#3 then data ||| sign else data

/-- `read_load`, PeripheralModel.h:56-111. -/
def read (now : BitVec 64) (s : State) (p : BitVec 32) (f3 : BitVec 3) : BitVec 32 :=
  if modeled p = false then 0#32
  else if p = timerLow then (timerNow s now).setWidth 32
  else if p = timerHigh then (timerNow s now >>> 32).setWidth 32
  else if p = timerCmpLow then s.timerCmp.setWidth 32
  else if p = timerCmpHigh then (s.timerCmp >>> 32).setWidth 32
  else if p = dmaSrcAddr then s.dmaSrc
  else if p = dmaDstAddr then s.dmaDst
  else if p = dmaLenAddr then s.dmaLen
  else if p = dmaCtrlAddr then s.dmaCtrl
  else if p = dmaStatusAddr then s.dmaStatus
  else readLanes s.mem p f3

/-- What the devices see: committed stores (rv_simu_mmu_v2.cpp:767-776) and the end of a cycle
(MemSubsystem.cpp:1189), each with the simulation time; and RAM written by the caches. -/
inductive Ev where
  | store (now : BitVec 64) (p d : BitVec 32) (f3 : BitVec 3)
  | tick (now : BitVec 64)
  | ram (a d : BitVec 32)
  deriving DecidableEq, Repr

def step (s : State) : Ev → State
  | .store now p d f3 => store now p d f3 s
  | .tick now => tick now s
  | .ram a d => if isRam (wordOf a) 4#32 then { s with mem := pmemWrite s.mem a d } else s

/-- A run. -/
def run (l : List Ev) (s : State) : State := l.foldl step s

end Verif.Device

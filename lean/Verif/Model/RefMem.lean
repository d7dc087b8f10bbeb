/-
Loads, stores and atomics of the reference model (diff/ref.cpp) and the byte-lane helpers of the
load/store unit (back-end/Lsu/include/MemUtils.h).

Simplifications: addresses are physical (translation is `Model.RefMmu`); `memory` is a function on
32-bit element numbers (every number used is below 2^28, `ramIndex_lt`); the hash map of I/O words is
a partial function; the registers and the program counter are not part of the state: operands are
arguments and the value written to the destination register is a result.  `Assert` failures and
`exit` give `none`.  `out` lists the characters handed to the console (newest first); whether they are
printed depends on `uart_print`.  The simulation time enters as the argument `now`.
-/
namespace Verif.RefMem

/-- The parts of `RefCpu` and of the globals of ref.cpp that memory instructions touch:
`memory`, `io_words` (ref.h), `g_ref_timer_offset`, `g_ref_timer_cmp` (ref.cpp:12-14),
`CPU_state` (ref.h:66-85). -/
structure State where
  ram : BitVec 32 → BitVec 32
  io : BitVec 32 → Option (BitVec 32)
  timerOff : BitVec 64
  timerCmp : BitVec 64
  mip : BitVec 32
  sip : BitVec 32
  out : List (BitVec 8)
  store : Bool
  storeAddr : BitVec 32
  storeData : BitVec 32
  storeStrb : BitVec 32
  resValid : Bool
  resAddr : BitVec 32

/-- Device addresses, config.h:630-648. -/
abbrev uartBase : BitVec 32 := 0x10000000#32
abbrev uartIer : BitVec 32 := 0x10000001#32
abbrev plicClaim : BitVec 32 := 0x0c201004#32
abbrev timerLow : BitVec 32 := 0x1fd0e000#32
abbrev timerHigh : BitVec 32 := 0x1fd0e004#32
abbrev timerCmpLow : BitVec 32 := 0x1fd0e008#32
abbrev timerCmpHigh : BitVec 32 := 0x1fd0e00c#32

/-- `MIP_MEIP`, RISCV.h. -/
abbrev meip : BitVec 32 := 0x800#32

/-- `addr & ~0x3u`. -/
def wordOf (a : BitVec 32) : BitVec 32 := a &&& ~~~3#32

/-- `is_ram_range(addr, 4)`, ref.cpp:53-60 (`kRamBase`, `kRamUpperBound`); sum in 64 bits. -/
def isRam (a : BitVec 32) : Bool :=
  if a.toNat < 0x80000000 then false
  else decide ((a.setWidth 64 + 4#64 - 1#64 : BitVec 64).toNat < 0xC0000000)

/-- `(word_addr - kRamBase) >> 2`, the element of `memory`. -/
def ramIndex (a : BitVec 32) : BitVec 32 := (a - 0x80000000#32) >>> 2

/-- `RefCpu::load_word`, ref.cpp:1609-1617.  `check_mem_range_or_die` (41-51) cannot fail: an aligned
word ends at or below 2^32. -/
def loadWord (s : State) (addr : BitVec 32) : BitVec 32 :=
  if isRam (wordOf addr) then s.ram (ramIndex (wordOf addr)) else (s.io (wordOf addr)).getD 0#32

/-- `ref_timer_now`, ref.cpp:89-92. -/
def timerNow (s : State) (now : BitVec 64) : BitVec 64 := now + s.timerOff

/-- `ref_write_timer_value`, ref.cpp:94-97. -/
def writeTimer (s : State) (now v : BitVec 64) : State := { s with timerOff := v - now }

/-- `RefCpu::store_word`, ref.cpp:1619-1653. -/
def storeWord (now : BitVec 64) (s : State) (addr data : BitVec 32) : State :=
  let w := wordOf addr
  if w = timerLow then
    writeTimer s now ((timerNow s now &&& 0xFFFFFFFF00000000#64) ||| data.setWidth 64)
  else if w = timerHigh then
    writeTimer s now ((data.setWidth 64 <<< 32) ||| (timerNow s now &&& 0x00000000FFFFFFFF#64))
  else if w = timerCmpLow then
    { s with timerCmp := (s.timerCmp &&& 0xFFFFFFFF00000000#64) ||| data.setWidth 64 }
  else if w = timerCmpHigh then
    { s with timerCmp := (data.setWidth 64 <<< 32) ||| (s.timerCmp &&& 0x00000000FFFFFFFF#64) }
  else if isRam w then
    { s with ram := fun i => if i = ramIndex w then data else s.ram i }
  else if data = 0#32 then
    { s with io := fun q => if q = w then none else s.io q }
  else
    { s with io := fun q => if q = w then some data else s.io q }

/-- The byte mask of a strobe, ref.cpp:1666-1675. -/
def strbMask (wstrb : BitVec 32) : BitVec 32 :=
  (if wstrb.getLsbD 0 then 0xFF#32 else 0#32) ||| (if wstrb.getLsbD 1 then 0xFF00#32 else 0#32) |||
  (if wstrb.getLsbD 2 then 0xFF0000#32 else 0#32) ||| (if wstrb.getLsbD 3 then 0xFF000000#32 else 0#32)

/-- The reservation check at the head of `RefCpu::store_data`, ref.cpp:1657-1661. -/
def dropReservation (s : State) : State :=
  if s.store && s.resValid && decide (s.resAddr = s.storeAddr) then { s with resValid := false } else s

/-- The masked write of `RefCpu::store_data`, ref.cpp:1662-1680. -/
def maskedWrite (now : BitVec 64) (s : State) : State :=
  let p := s.storeAddr
  let offset := (p &&& 3#32).toNat
  let wstrb := s.storeStrb <<< offset
  let wdata := s.storeData <<< (offset * 8)
  let old := loadWord s p
  let mask := strbMask wstrb
  if s.store then storeWord now s p ((mask &&& wdata) ||| (~~~mask &&& old)) else s

/-- The UART transmit side effect, ref.cpp:1682-1688. -/
def uartTx (now : BitVec 64) (s : State) : State :=
  let wdata := s.storeData <<< ((s.storeAddr &&& 3#32).toNat * 8)
  if s.storeAddr = uartBase then
    { storeWord now s uartBase (loadWord s uartBase &&& 0xffffff00#32) with
      out := wdata.setWidth 8 :: s.out }
  else s

/-- The UART interrupt-enable side effect, first case, ref.cpp:1690-1696. -/
def uartIer7 (now : BitVec 64) (s : State) : State :=
  if s.storeAddr = uartIer ∧ s.storeData &&& 0xff#32 = 7#32 then
    let s1 := storeWord now s plicClaim 0x0000000A#32
    let s2 := storeWord now s1 uartBase (loadWord s1 uartBase &&& 0xfff0ffff#32)
    { s2 with mip := s.mip ||| meip, sip := (s.mip ||| meip) &&& 0x00000333#32 }
  else s

/-- Second case, ref.cpp:1698-1701. -/
def uartIer5 (now : BitVec 64) (s : State) : State :=
  if s.storeAddr = uartIer ∧ s.storeData &&& 0xff#32 = 5#32 then
    storeWord now s uartBase ((loadWord s uartBase &&& 0xfff0ffff#32) ||| 0x00030000#32)
  else s

/-- The PLIC completion side effect, ref.cpp:1703-1707. -/
def plicDone (now : BitVec 64) (s : State) : State :=
  if s.storeAddr = plicClaim ∧ s.storeData &&& 0xff#32 = 0xa#32 then
    let s1 := storeWord now s plicClaim 0#32
    { s1 with mip := s.mip &&& ~~~meip, sip := (s.mip &&& ~~~meip) &&& 0x00000333#32 }
  else s

/-- The final shifts, ref.cpp:1709-1710. -/
def shiftFields (s : State) : State :=
  let offset := (s.storeAddr &&& 3#32).toNat
  { s with storeData := s.storeData <<< (offset * 8), storeStrb := s.storeStrb <<< (offset * 8) }

/-- `RefCpu::store_data`, ref.cpp:1655-1711.  The local variable `p_addr` and the fields `store_data`
and `store_addr` do not change before the final shifts, so each step may read them from the state. -/
def storeData (now : BitVec 64) (s : State) : State :=
  shiftFields (plicDone now (uartIer5 now (uartIer7 now (uartTx now (maskedWrite now (dropReservation s))))))

/-- `alignment_mask`, ref.cpp:1206-1208 and 1269-1271. -/
def alignMask (f3 : BitVec 3) : BitVec 32 :=
  if f3 &&& 3#3 = 0#3 then 0#32 else if f3 &&& 3#3 = 1#3 then 1#32 else 3#32

/-- A load instruction after translation, ref.cpp:1203-1253: the value for the destination register,
`none` if the alignment assertion fails. -/
def load (now : BitVec 64) (s : State) (f3 : BitVec 3) (p : BitVec 32) : Option (BitVec 32) :=
  if p &&& alignMask f3 ≠ 0#32 then none
  else
    let dataL : BitVec 64 := (loadWord s (p &&& ~~~3#32)).setWidth 64
    let dataH : BitVec 64 := (loadWord s ((p &&& ~~~3#32) + 4#32)).setWidth 64
    let data64 := (dataH <<< 32) ||| dataL
    let data : BitVec 32 :=
      if p = timerLow then (timerNow s now).setWidth 32
      else if p = timerHigh then (timerNow s now >>> 32).setWidth 32
      else if p = timerCmpLow then s.timerCmp.setWidth 32
      else if p = timerCmpHigh then (s.timerCmp >>> 32).setWidth 32
      else (data64 >>> ((p &&& 3#32).toNat * 8)).setWidth 32
    let size := f3 &&& 3#3
    let sign : BitVec 32 :=
      if size = 0#3 then (if data &&& 0x80#32 ≠ 0#32 then 0xFFFFFF00#32 else 0#32)
      else if size = 1#3 then (if data &&& 0x8000#32 ≠ 0#32 then 0xFFFF0000#32 else 0#32)
      else 0#32
    let mask : BitVec 32 :=
      if size = 0#3 then 0xFF#32 else if size = 1#3 then 0xFFFF#32 else 0xFFFFFFFF#32
    let data := data &&& mask
    some (if f3 &&& 4#3 = 0#3 then data ||| sign else data)

/-- `exec` clears `state.store`, ref.cpp:271. -/
def begin (s : State) : State := { s with store := false }

/-- A store instruction after translation, ref.cpp:1268-1290. -/
def storeInst (now : BitVec 64) (s : State) (f3 : BitVec 3) (p rs2 : BitVec 32) : Option State :=
  if p &&& alignMask f3 ≠ 0#32 then none
  else
    let strb : BitVec 32 := if f3 = 0#3 then 1#32 else if f3 = 1#3 then 3#32 else 15#32
    let data := if f3 = 0#3 then rs2 &&& 0xFF#32 else if f3 = 1#3 then rs2 &&& 0xFFFF#32 else rs2
    some (storeData now { begin s with store := true, storeAddr := p, storeData := data, storeStrb := strb })

/-- An instruction of the A extension after translation, `RefCpu::RV32A`, ref.cpp:1018-1108: the value
for the destination register (`none` inside: not written) and the state; `none`: misaligned, `exit`. -/
def amo (now : BitVec 64) (s0 : State) (f5 : BitVec 5) (p rs2 : BitVec 32) :
    Option (Option (BitVec 32) × State) :=
  if p.toNat % 4 ≠ 0 then none
  else
    let s := if f5 ≠ 2#5 then { begin s0 with store := true, storeAddr := p, storeStrb := 15#32 } else begin s0
    let old := loadWord s p
    let r : Option (BitVec 32) × State :=
      if f5 = 0#5 then (some old, { s with storeData := old + rs2 })
      else if f5 = 1#5 then (some old, { s with storeData := rs2 })
      else if f5 = 2#5 then (some old, { s with resValid := true, resAddr := p })
      else if f5 = 3#5 then
        if s.resValid && decide (s.resAddr = p) then
          (some 0#32, { s with storeData := rs2, resValid := false })
        else (some 1#32, { s with store := false, resValid := false })
      else if f5 = 4#5 then (some old, { s with storeData := old ^^^ rs2 })
      else if f5 = 8#5 then (some old, { s with storeData := old ||| rs2 })
      else if f5 = 12#5 then (some old, { s with storeData := old &&& rs2 })
      else if f5 = 16#5 then (some old, { s with storeData := if rs2.slt old then rs2 else old })
      else if f5 = 20#5 then (some old, { s with storeData := if rs2.slt old then old else rs2 })
      else if f5 = 24#5 then (some old, { s with storeData := if old.ult rs2 then old else rs2 })
      else if f5 = 28#5 then (some old, { s with storeData := if rs2.ult old then old else rs2 })
      else (none, s)
    some (r.1, storeData now r.2)

end Verif.RefMem

/-! The byte-lane helpers of the load/store unit. -/
namespace Verif.Lane

/-- `mem_mask_for_width`, MemUtils.h:15-17. -/
def maskForWidth (width : Nat) : BitVec 32 :=
  if width ≥ 4 then 0xFFFFFFFF#32 else (1#32 <<< (width * 8)) - 1#32

/-- `get_mem_width`, MemUtils.h:19-29. -/
def memWidth (f3 : BitVec 3) : Nat :=
  if f3 &&& 3#3 = 0#3 then 1 else if f3 &&& 3#3 = 1#3 then 2 else 4

/-- `extract_data`, MemUtils.h:31-45. -/
def extractData (raw addr : BitVec 32) (f3 : BitVec 3) : BitVec 32 :=
  let bitOffset := (addr &&& 3#32).toNat * 8
  let width := memWidth f3
  let mask := maskForWidth width
  let result := (raw >>> bitOffset) &&& mask
  if f3 &&& 4#3 = 0#3 ∧ width < 4 then
    let signBit := 1#32 <<< (width * 8 - 1)
    if result &&& signBit ≠ 0#32 then result ||| ~~~mask else result
  else result

/-- `get_store_strb`, MemUtils.h:47-59 (result truncated to `uint8_t`). -/
def storeStrb (addr : BitVec 32) (f3 : BitVec 3) : BitVec 8 :=
  let off := (addr &&& 3#32).toNat
  if f3 &&& 3#3 = 0#3 then 1#8 <<< off
  else if f3 &&& 3#3 = 1#3 then 3#8 <<< off
  else if f3 &&& 3#3 = 2#3 then 15#8
  else 0#8

/-- `align_store_data`, MemUtils.h:61-74. -/
def alignStoreData (data addr : BitVec 32) (f3 : BitVec 3) : BitVec 32 :=
  let off := (addr &&& 3#32).toNat
  if f3 &&& 3#3 = 0#3 then (data &&& 0xFF#32) <<< (off * 8)
  else if f3 &&& 3#3 = 1#3 then (data &&& 0xFFFF#32) <<< (off * 8)
  else if f3 &&& 3#3 = 2#3 then data
  else 0#32

end Verif.Lane

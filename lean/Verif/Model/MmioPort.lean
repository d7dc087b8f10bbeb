import Verif.Model.Device
/-
The path of a device access: the LSU's uncached unit (back-end/Lsu/RealLsu.cpp `comb_mmio_in`, `comb_mmio_out`) and
MemSubSystem/PeripheralAxi.cpp, cycle by cycle.

The order within a cycle is that of BackTop.cpp:302-379 and rv_simu_mmu_v2.cpp:1050-1085: the LSU looks at what
`PeripheralAxi` showed in the cycle before, starts or drops an access, shows its request; then `PeripheralAxi` shows its
registers and computes the next ones.  Simplifications: the LSU's reasons to start an access are an input
(`Model.Lsu` has them), so are flushes and mispredictions that remove the load of the access (a started store is
committed and stays, RealLsu.cpp:1136-1144, 1200); the finish queue has room; the value of a device register in the
cycle (`Device.read`) is an input.
-/
namespace Verif.Mmio
open Verif.Device (modeled)

/-- `UncachedUnit` (RealLsu.h:99-109) while valid. -/
structure Acc where
  load : Bool
  addr : BitVec 32
  wdata : BitVec 32
  f3 : BitVec 3
  idx : Nat
  deriving DecidableEq, Repr

/-- `PeripheralAxiState`, PeripheralAxi.h:53-63 (`req_id` is always 0). -/
structure Port where
  busy : Bool
  write : Bool
  accepted : Bool
  resp : Bool
  addr : BitVec 32
  wdata : BitVec 32
  f3 : BitVec 3
  rdata : BitVec 32
  deriving DecidableEq, Repr

/-- `PeripheralRespIO` as the LSU sees it. -/
structure Seen where
  ready : Bool
  mmio : Bool
  rdata : BitVec 32
  deriving DecidableEq, Repr

structure Sys where
  unc : Option Acc
  seen : Seen
  port : Port
  deriving DecidableEq, Repr

/-- `PeripheralAxi::init`, PeripheralAxi.cpp:5-13. -/
def Sys.init : Sys := ⟨none, ⟨false, false, 0#32⟩, ⟨false, false, false, false, 0#32, 0#32, 0#3, 0#32⟩⟩

/-- What the cycle brings: an access the LSU wants to start, whether its load is flushed, the device registers, and the
interconnect's side of the AXI ports. -/
structure Cyc where
  start : Option Acc
  kill : Bool
  dev : BitVec 32 → BitVec 3 → BitVec 32
  rAcc : Bool
  rResp : Option (BitVec 32)
  wAcc : Bool
  wResp : Bool

/-- `extract_read_data`, PeripheralAxi.cpp:48-65. -/
def extract (raw : BitVec 32) (f3 : BitVec 3) : BitVec 32 :=
  if f3 = 0#3 then (let v := raw &&& 0xFF#32; if v &&& 0x80#32 ≠ 0#32 then v ||| 0xFFFFFF00#32 else v)
  else if f3 = 1#3 then (let v := raw &&& 0xFFFF#32; if v &&& 0x8000#32 ≠ 0#32 then v ||| 0xFFFF0000#32 else v)
  else if f3 = 4#3 then raw &&& 0xFF#32
  else if f3 = 5#3 then raw &&& 0xFFFF#32
  else raw

/-- `access_size_bytes`, `pack_write_data`, `pack_write_strb`, PeripheralAxi.cpp:15-46. -/
def sizeOf (f3 : BitVec 3) : Nat := if f3 &&& 3#3 = 0#3 then 1 else if f3 &&& 3#3 = 1#3 then 2 else 4
def packData (d : BitVec 32) (f3 : BitVec 3) : BitVec 32 :=
  if f3 &&& 3#3 = 0#3 then d &&& 0xFF#32 else if f3 &&& 3#3 = 1#3 then d &&& 0xFFFF#32 else d
def packStrb (f3 : BitVec 3) : BitVec 64 := if f3 &&& 3#3 = 0#3 then 1#64 else if f3 &&& 3#3 = 1#3 then 3#64 else 15#64

/-- A request on the AXI ports. -/
inductive Req where
  | read (addr : BitVec 32) (size : Nat)
  | write (addr : BitVec 32) (size : Nat) (data : BitVec 32) (strb : BitVec 64)
  deriving DecidableEq, Repr

/-- `out` of `comb_outputs`, PeripheralAxi.cpp:79-106: the request shown. -/
def Port.req (p : Port) : Option Req :=
  if !p.busy || p.accepted then none
  else if p.write then some (.write p.addr (sizeOf p.f3) (packData p.wdata p.f3) (packStrb p.f3))
  else some (.read p.addr (sizeOf p.f3))

/-- `comb_inputs`, PeripheralAxi.cpp:108-176: the next registers, and whether the last lines (173-175) run, which overwrite
`ready`. -/
def Port.next (p : Port) (req : Option Acc) (c : Cyc) : Port × Bool :=
  let n := { p with resp := false }
  if !p.busy then
    match req with
    | none => (n, false)
    | some a =>
      if modeled a.addr then
        ({ busy := false, write := !a.load, accepted := false, resp := true, addr := a.addr, wdata := a.wdata, f3 := a.f3,
           rdata := if a.load then c.dev a.addr a.f3 else 0#32 }, false)
      else
        ({ busy := true, write := !a.load, accepted := false, resp := false, addr := a.addr, wdata := a.wdata, f3 := a.f3,
           rdata := 0#32 }, false)
  else if !p.accepted then
    (if (p.write && c.wAcc) || (!p.write && c.rAcc) then { n with accepted := true } else n, false)
  else if p.write then
    (if c.wResp then { n with busy := false, write := false, accepted := false, resp := true, rdata := 0#32 } else n, false)
  else
    (match c.rResp with
     | some raw => { n with busy := false, write := false, accepted := false, resp := true, rdata := extract raw p.f3 }
     | none => n, true)

/-- `comb_mmio_in`, RealLsu.cpp:298-321: the access that completes, with the value a load gets. -/
def done (s : Sys) : Option (Acc × BitVec 32) :=
  if s.seen.mmio then s.unc.map fun a => (a, s.seen.rdata) else none

/-- The uncached unit after starting and flushing: RealLsu.cpp:547-556, 863-870, 1136-1144, 1196-1202. -/
def unit (s : Sys) (c : Cyc) : Option Acc :=
  let u := if s.seen.mmio then none else s.unc
  let u := if u.isNone then c.start else u
  if c.kill then u.filter fun a => !a.load else u

/-- A cycle. -/
def step (s : Sys) (c : Cyc) : Sys :=
  let u := unit s c
  let req := if s.seen.ready then u else none
  let (p, over) := s.port.next req c
  { unc := u
    seen := { ready := if over then !p.busy else !s.port.busy, mmio := s.port.resp,
              rdata := if s.port.resp then s.port.rdata else 0#32 }
    port := p }

/-- What can be seen of a cycle: what it brought, the access it completed and the request shown on the AXI ports. -/
structure Obs where
  c : Cyc
  done : Option (Acc × BitVec 32)
  req : Option Req

/-- A run, cycle by cycle. -/
def trace : Sys → List Cyc → List Obs
  | _, [] => []
  | s, c :: cs => ⟨c, done s, s.port.req⟩ :: trace (step s c) cs

/-- The state after a run. -/
def run : Sys → List Cyc → Sys := List.foldl step

end Verif.Mmio

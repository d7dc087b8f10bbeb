import Verif.Model.Table
/-
The lookup of the instruction cache for every value of `ICACHE_LOOKUP_LATENCY`: the compile-time `GenericTable` (front-end/icache/GenericTable.h:265-429)
with both policies, the three tables built from it (front-end/icache/icache.cpp:31-67, 147-175, 209-236, 259-360), the request slot and the lookup
registers (`ICache::lookup`, icache_module.cpp:860-950) and the state `IDLE` of `eval_state_machine` (icache_module.cpp:1167-1317).

Simplifications:
* The other states of `eval_state_machine` are inputs of a cycle (`idle`, `free`, `ready`, `fill`, `inval`): the theorems hold for whatever they do.
* `refetch` is `cancel_pending_req` of ICacheTop.cpp:895, which contains `fence_i`, so that `io.in.flush` never comes without `io.in.refetch`.
* A line is a list of words, a row is a function from ways; set indices are masked (icache.cpp:290-292), so no row is out of range.
* The passes of `TrueICacheTopT::comb` (ICacheTop.cpp:925-946) are one: the last pass decides, with the data requested by the pass before it.
-/
namespace Verif.LatLookup
open Verif.Table (Timing chooseLatency)

abbrev Line := List (BitVec 32)

/-! ### The compile-time table -/

/-- `GenericTableWriteReq` with `enable`, GenericTable.h:283-288. -/
structure Wr (α : Type) where
  addr : Nat
  payload : Nat → α
  en : Nat → Bool

/-- The registers of `GenericTable<…, SramTablePolicy>`, GenericTable.h:396-401; the register-file policy has only `st` (334). -/
structure Tab (α : Type) where
  st : Nat → Nat → α
  pend : Bool := false
  addr : Nat := 0
  delay : Nat := 0
  seed : BitVec 32 := 1#32

/-- `reset`, GenericTable.h:303-309 and 350-360; `z` is the zero word. -/
def Tab.reset {α : Type} (z : α) : Tab α := { st := fun _ _ => z }

/-- The writing half of `seq`, GenericTable.h:320-330 and 371-378. -/
def put {α : Type} (st : Nat → Nat → α) : Option (Wr α) → Nat → Nat → α
  | none => st
  | some w => fun a k => if a = w.addr ∧ w.en k = true then w.payload k else st a k

/-- `comb` of the register-file policy, GenericTable.h:311-318 (`rd = none` is `enable == false`). -/
def Tab.regComb {α : Type} (t : Tab α) (rd : Option Nat) : Option (Nat → α) := rd.map t.st

/-- `comb` of the SRAM policy, GenericTable.h:362-368: the request is not looked at. -/
def Tab.sramComb {α : Type} (t : Tab α) : Option (Nat → α) := if t.pend = true ∧ t.delay = 0 then some (t.st t.addr) else none

/-- `seq` of the register-file policy, GenericTable.h:320-330. -/
def Tab.regSeq {α : Type} (t : Tab α) (w : Option (Wr α)) : Tab α := { t with st := put t.st w }

/-- `seq` of the SRAM policy, GenericTable.h:370-391. -/
def Tab.sramSeq {α : Type} (tm : Timing) (t : Tab α) (rd : Option Nat) (w : Option (Wr α)) : Tab α :=
  match rd, t.pend with
  | some a, false => { st := put t.st w, pend := true, addr := a, delay := (chooseLatency tm t.seed).1 - 1, seed := (chooseLatency tm t.seed).2 }
  | none, true =>
    if t.delay = 0 then { st := put t.st w, pend := false, addr := 0, delay := 0, seed := t.seed }
    else { t with st := put t.st w, delay := t.delay - 1 }
  | some _, true => { t with st := put t.st w, delay := t.delay - 1 }
  | none, false => { t with st := put t.st w }

/-! ### The cache -/

/-- The build options, icache_module.h:37-67, and the geometry, icache.cpp:39-47. -/
structure Cfg where
  lat : Nat
  random : Bool := false
  rmin : Nat := 1
  rmax : Nat := 4
  off : Nat
  setBits : Nat
  ways : Nat

/-- `make_lookup_timing_config`, icache.cpp:53-67. -/
def Cfg.timing (c : Cfg) : Timing :=
  { fixed := if 0 < c.lat then c.lat else 1, random := c.random, min := if c.random then c.rmin else 1, max := if c.random then c.rmax else 1 }

/-- The set of an address, icache.cpp:290-292 and icache_module.cpp:783. -/
def Cfg.idx (c : Cfg) (pc : Nat) : Nat := pc / 2 ^ c.off % 2 ^ c.setBits

structure St where
  data : Tab Line := Tab.reset []
  tag : Tab (BitVec 20) := Tab.reset 0#20
  valid : Tab Bool := Tab.reset false
  reqValid : Bool := false
  reqPc : Nat := 0
  reqIdx : Nat := 0
  lookPend : Bool := false
  lookPc : Nat := 0
  lookIdx : Nat := 0

/-- `io.table_write` with `we`, set at icache_module.cpp:1142-1151. -/
structure Fill where
  index : Nat
  way : Nat
  tag : BitVec 20
  valid : Bool
  line : Line

/-- One cycle as seen by the lookup. -/
structure In where
  reset : Bool := false
  refetch : Bool := false
  /-- `icache_read_valid` and `fetch_address`, front_top.cpp:1441-1452. -/
  want : Bool := false
  pc : Nat := 0
  ppnValid : Bool := false
  pageFault : Bool := false
  ppn : BitVec 20 := 0#20
  /-- `state == IDLE`. -/
  idle : Bool := true
  /-- `mem_axi_state == AXI_IDLE && !miss_txid_valid_r`. -/
  free : Bool := true
  /-- `req_ready_w` as the states other than `IDLE` leave it. -/
  ready : Bool := false
  fill : Option Fill := none
  /-- `table_write.invalidate_all`. -/
  inval : Bool := false

variable (c : Cfg)

/-- `lookup_pc`, icache.cpp:284-289. -/
def lookupPc (s : St) (i : In) : Nat := if s.reqValid then s.reqPc else if s.lookPend then s.lookPc else i.pc

/-- The read requests of the combinational half, icache.cpp:294-309. -/
def readReq (s : St) (i : In) : Option Nat :=
  if !i.reset && !i.refetch && (if c.lat = 0 then i.want || s.reqValid || s.lookPend else s.lookPend) then some (c.idx (lookupPc s i)) else none

/-- `comb` under the policy chosen by the latency, icache.cpp:32-37. -/
def comb {α : Type} (t : Tab α) (rd : Option Nat) : Option (Nat → α) := if c.lat = 0 then t.regComb rd else t.sramComb

/-- `seq` under the policy chosen by the latency. -/
def seq {α : Type} (t : Tab α) (rd : Option Nat) (w : Option (Wr α)) : Tab α := if c.lat = 0 then t.regSeq w else t.sramSeq c.timing rd w

/-- `meta_resp_valid` with the tags and the valid bits, icache.cpp:161-175, 209-220. -/
def metaResp (s : St) (i : In) : Option ((Nat → BitVec 20) × (Nat → Bool)) :=
  match comb c s.tag (readReq c s i), comb c s.valid (readReq c s i) with
  | some t, some v => some (t, v)
  | _, _ => none

/-- `capture_lookup_meta_result`: the first valid way with the tag, icache_module.cpp:788-837. -/
def findWay (tv : (Nat → BitVec 20) × (Nat → Bool)) (ppn : BitVec 20) : Option Nat :=
  (List.range c.ways).find? fun w => tv.2 w && tv.1 w == ppn

/-- The request is compared in the cycle in which it comes, icache_module.cpp:1177-1178 (latency 0 only). -/
def fast (s : St) (i : In) : Bool := decide (c.lat = 0) && !s.reqValid && i.want && i.ppnValid

/-- The request in the slot is compared, icache_module.cpp:1224. -/
def slot (s : St) (i : In) : Bool := s.reqValid && i.ppnValid

/-- The way found by the comparison, icache_module.cpp:1197 and 1247. -/
def hitWay (s : St) (i : In) : Option Nat :=
  if !i.reset && !i.refetch && i.idle && (fast c s i || slot s i) && !i.pageFault then (metaResp c s i).bind fun tv => findWay c tv i.ppn else none

/-- `lookup_data_req_index`, icache_module.cpp:1196, 1214, 1263. -/
def dataIdx (s : St) (i : In) : Nat := if fast c s i then c.idx i.pc else s.reqIdx

/-- The line given to the front end on a hit: `icache_fill_lookup_data_input`, icache.cpp:222-236, and `capture_lookup_data_result`,
icache_module.cpp:839-853; 1198-1210, 1248-1259. -/
def hitLine (s : St) (i : In) : Option Line :=
  (hitWay c s i).bind fun w =>
    (comb c s.data (readReq c s i)).bind fun row =>
      if c.idx (lookupPc s i) = dataIdx c s i ∧ w < c.ways then some (row w) else none

/-- `req_ready_w` after `eval_state_machine`, icache_module.cpp:1167-1317. -/
def ready (s : St) (i : In) : Bool :=
  if !i.idle then i.ready
  else if i.refetch then true
  else if fast c s i && i.pageFault then true
  else if fast c s i && (hitWay c s i).isSome then (hitLine c s i).isSome
  else if s.reqValid then i.ppnValid && (i.pageFault || (hitLine c s i).isSome)
  else true

/-- `fast_bypass_fire`, icache_module.cpp:1189, 1212. -/
def bypass (s : St) (i : In) : Bool := i.idle && !i.refetch && fast c s i && (i.pageFault || (hitLine c s i).isSome)

/-- `icache_req_slot_idle`, icache_module.cpp:119-124. -/
def slotIdle (s : St) (i : In) : Bool := !s.reqValid && i.idle && i.free

/-- `can_accept`, icache_module.cpp:896-897. -/
def canAccept (s : St) (i : In) : Bool := i.want && ready c s i && !s.lookPend && slotIdle s i

/-- `sram_load_fire`, icache_module.cpp:898-916. -/
def load (s : St) (i : In) : Bool :=
  if c.lat = 0 then canAccept c s i else (canAccept c s i || (s.lookPend && slotIdle s i)) && (metaResp c s i).isSome

/-- `ICache::lookup` and `ICache::seq`, icache_module.cpp:860-948, 855-858.  The set of the slot is that of the address on the input
(`load_index = index`, 869), its address is that of the lookup that was waiting (`load_pc`, 868). -/
def regs (s : St) (i : In) : St :=
  if i.refetch then { s with reqValid := false, lookPend := false, lookPc := 0, lookIdx := 0 }
  else if bypass c s i then { s with reqValid := false, lookPend := false, lookPc := 0, lookIdx := 0 }
  else
    { s with
      reqValid := if load c s i then true else if ready c s i then false else s.reqValid
      reqPc := if load c s i then (if s.lookPend then s.lookPc else i.pc) else s.reqPc
      reqIdx := if load c s i then c.idx i.pc else s.reqIdx
      lookPend := if c.lat = 0 then false else (canAccept c s i || s.lookPend) && !load c s i
      lookPc := if c.lat = 0 then 0 else if canAccept c s i then i.pc else s.lookPc
      lookIdx := if c.lat = 0 then 0 else if canAccept c s i then c.idx i.pc else s.lookIdx }

/-- The write of one way, icache.cpp:328-348. -/
def wr {α : Type} (i : In) (f : Fill → α) : Option (Wr α) :=
  i.fill.map fun x => { addr := x.index, payload := fun _ => f x, en := fun k => k == x.way }

/-- The read requests of the clocked half come from the new registers, icache.cpp:320-326. -/
def seqReq (s : St) : Option Nat := if s.lookPend then some s.lookIdx else none

/-- The clocked half of the tables, icache.cpp:350-357; an invalidation resets the valid table first. -/
def tables (s : St) (i : In) : St :=
  { s with
    data := seq c s.data (seqReq s) (wr i Fill.line)
    tag := seq c s.tag (seqReq s) (wr i Fill.tag)
    valid := seq c (if i.inval then Tab.reset false else s.valid) (seqReq s) (wr i Fill.valid) }

/-- `icache_comb_calc`, icache.cpp:259-360.  On a reset the tables and the registers are cleared (270-277, ICacheTop.cpp:873-886, icache_module.cpp:672-705)
and the write request left from the cycle before is still carried out (328). -/
def step (s : St) (i : In) : St :=
  if i.reset then tables c {} i else tables c (regs c s i) i

/-- A run from power-on: the statics of icache.cpp:268-270 are zero. -/
def run (is : List In) : St := is.foldl (step c) {}

/-- `mem_req_addr` of the miss, icache_module.cpp:1393-1394. -/
def memAddr (s : St) (ppn : BitVec 20) : Nat := ppn.toNat <<< 12 ||| s.reqIdx <<< c.off

end Verif.LatLookup

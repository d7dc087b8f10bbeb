/-
The ideal instruction cache, `SimpleICacheTop` (front-end/icache/ICacheTop.cpp:1038-1299), chosen by `FRONTEND_ICACHE_MODE == 1`
(frontend_feature_config.h:306-312, ICacheTop.cpp:1306-1307), and how the front end asks it and takes its answers
(front_top.cpp:1144-1147, 1441-1452, 1507-1510).

Simplifications: what the MMU says of an address in a cycle, after the repeated attempts of ICacheTop.cpp:1172-1177, is an input (`xl`); the second
request slot is off (`ENABLE_FRONTEND_IDEAL_ICACHE_DUAL_REQ`); performance outputs are left out.
-/
namespace Verif.IdealIc

abbrev Addr := BitVec 32

/-- `TlbMmu::Result` with the physical address. -/
inductive Xl
  | ok (p : Addr)
  | fault
  | retry
deriving DecidableEq

/-- One entry of `fetch_group`, `page_fault_inst`, `inst_valid`. -/
structure Slot where
  inst : BitVec 32
  fault : Bool
  valid : Bool
deriving DecidableEq

/-- `INST_NOP`, not valid: ICacheTop.cpp:1114-1118, 1157-1162. -/
def blank : Slot := ⟨0x13#32, false, false⟩

/-- The build constants `FETCH_WIDTH` and `ICACHE_LINE_SIZE`. -/
structure Cfg where
  width : Nat
  line : Nat

/-- The runtime registers, ICacheTop.cpp:555-561; `pend` is `pending_req_valid` with `pending_fetch_addr`. -/
structure St where
  pend : Option Addr := none
  satpSeen : Bool := false
  lastSatp : Addr := 0#32
deriving DecidableEq

/-- The inputs of a cycle, front_top.cpp:1434-1452 (`invalidate_req` is never set, 1438); `mem` is `pmem_read`. -/
structure In where
  reset : Bool := false
  refetch : Bool := false
  itlbFlush : Bool := false
  fenceI : Bool := false
  satp : Addr := 0#32
  want : Bool := false
  addr : Addr := 0#32
  xl : Addr → Xl := fun a => .ok a
  mem : Addr → BitVec 32 := fun _ => 0#32

/-- The `v_addr` of slot `k`, ICacheTop.cpp:1154. -/
def va (a : Addr) (k : Nat) : Addr := a + BitVec.ofNat 32 (k * 4)

/-- The loop over the slots, ICacheTop.cpp:1153-1237: `n` slots from number `k` on, and whether the answer is complete. -/
def fill (c : Cfg) (i : In) (a : Addr) : Nat → Nat → List Slot × Bool
  | 0, _ => ([], true)
  | n + 1, k =>
    if (va a k).toNat / c.line ≠ a.toNat / c.line then (blank :: (fill c i a n (k + 1)).1, (fill c i a n (k + 1)).2)
    else match i.xl (va a k) with
      | .retry => (List.replicate (n + 1) blank, false)
      | .fault => (⟨0x13#32, true, true⟩ :: List.replicate n blank, true)
      | .ok p => (⟨i.mem p, false, true⟩ :: (fill c i a n (k + 1)).1, (fill c i a n (k + 1)).2)

/-- The part of `comb` before the answer: a new translation context or `fence.i` drops the waiting request, ICacheTop.cpp:1120-1143. -/
def drop (s : St) (i : In) : St :=
  let s := if !s.satpSeen || decide (i.satp ≠ s.lastSatp) || i.itlbFlush then { pend := none, satpSeen := true, lastSatp := i.satp } else s
  if i.fenceI then { s with pend := none } else s

/-- The address worked on in a cycle, ICacheTop.cpp:1145-1150. -/
def work (s : St) (i : In) : Option Addr :=
  match (drop s i).pend with
  | some a => some a
  | none => if i.want then some i.addr else none

/-- The answer of a cycle, `icache_read_complete` with `fetch_pc` and the group, ICacheTop.cpp:1083-1098, 1145-1237. -/
def answer (c : Cfg) (s : St) (i : In) : Option (Addr × List Slot) :=
  if i.reset then none
  else match work s i with
    | none => none
    | some a => if (fill c i a c.width 0).2 then some (a, (fill c i a c.width 0).1) else none

/-- `comb` and `seq`, ICacheTop.cpp:1067-1247, 1262-1298: a request that could not be answered waits. -/
def step (c : Cfg) (s : St) (i : In) : St :=
  if i.reset then {}
  else if i.refetch then { drop s i with pend := none }
  else if (answer c s i).isSome then { drop s i with pend := none }
  else { drop s i with pend := work s i }

/-- `icache_ready`: with the ideal cache the front end takes it to be ready in every cycle (front_top.cpp:1144-1145); the cache itself says
(`peek_ready`, ICacheTop.cpp:1056-1065). -/
def saysReady (s : St) (i : In) : Bool := i.reset || i.refetch || i.fenceI || s.pend.isNone

/-- The groups the front end takes: those that come in a cycle in which it asks (`icache_slot0_data_valid`, front_top.cpp:1507-1510). -/
def taken (c : Cfg) : St → List In → List (Addr × List Slot)
  | _, [] => []
  | s, i :: is =>
    (match answer c s i with
      | some g => if i.want then [g] else []
      | none => []) ++ taken c (step c s i) is

/-- All groups given, whether they are taken or not. -/
def given (c : Cfg) : St → List In → List (Addr × List Slot)
  | _, [] => []
  | s, i :: is => (answer c s i).toList ++ given c (step c s i) is

end Verif.IdealIc

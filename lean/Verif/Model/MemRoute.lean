import Verif.Model.Dcache

/-
The block between the load/store unit, the instruction cache, the page-table walker and the data cache
(MemSubSystem/MemRouteBlock.cpp, MemSubSystem/include/MemRouteBlock.h).

Simplifications: the number of load ports is `n + 1`, for every `n` (`LSU_LDU_COUNT` in the code); a port
with its `valid` flag clear is `none`; the store ports, which the block copies, and the `replay` flag used
for statistics are left out.
-/
namespace Verif.MemRoute
open Verif.Dcache (Replay)

/-- `Owner`, MemRouteBlock.h:23-30; `LSU` is never assigned. -/
inductive Owner
  | none | icache | dtlb | itlb | walk
  deriving DecidableEq, Repr

/-- A load port request: address and `req_id`. -/
structure Req where
  addr : BitVec 32
  id : BitVec 32
  deriving DecidableEq, Repr

/-- A load answer of the data cache. -/
structure Resp where
  id : BitVec 32
  data : BitVec 32
  replay : Replay
  deriving DecidableEq, Repr

/-- `ReplayWakeup`, MemRouteBlock.h:48-52. -/
structure Wake where
  dtlb : Bool := false
  itlb : Bool := false
  walk : Bool := false
  deriving DecidableEq, Repr

/-- `MemRouteBlockState`, MemRouteBlock.h:77-85 (`issued_tags` flattened). -/
structure State where
  owner : Owner := .none
  addr : BitVec 32 := 0#32
  id : BitVec 32 := 0#32
  wait : Wake := {}
  replayValid : Bool := false
  replayId : BitVec 32 := 0#32
  nextId : BitVec 32 := 0x80000000#32
  deriving DecidableEq, Repr

/-- `MemRouteBlock::init`, MemRouteBlock.cpp:13-19. -/
def State.init : State := {}

/-- `dcache_req_id_is_route`, MemRouteBlock.h:14-16. -/
def isRoute (id : BitVec 32) : Bool := decide (id &&& 0x80000000#32 ≠ 0#32)

/-- `next_route_req_id`, MemRouteBlock.h:18-21. -/
def nextReqId (id : BitVec 32) : BitVec 32 :=
  if isRoute (id + 1#32) then id + 1#32 else 0x80000000#32

/-- `ICacheMemPortResp`: data, or a miss. -/
inductive IResp
  | hit (data : BitVec 32)
  | miss
  deriving DecidableEq, Repr

/-- `PtwEvent` (`replay` is always 0). -/
structure Event where
  owner : Owner
  data : BitVec 32
  addr : BitVec 32
  id : BitVec 32
  deriving DecidableEq, Repr

/-- What `comb_response` produces. -/
structure RespOut (n : Nat) where
  lsu : Fin (n + 1) → Option Resp
  icache : Option IResp := .none
  event : Option Event := .none
  wake : Wake := {}

/-- The assignments `x.dtlb = (owner == PTW_DTLB)` etc., MemRouteBlock.cpp:66-68, 73-75 and 77-79. -/
def wakeOf (o : Owner) : Wake :=
  { dtlb := o == .dtlb, itlb := o == .itlb, walk := o == .walk }

/-- `|=`, MemRouteBlock.cpp:84-86. -/
def Wake.or (a b : Wake) : Wake :=
  { dtlb := a.dtlb || b.dtlb, itlb := a.itlb || b.itlb, walk := a.walk || b.walk }

/-- Lines 29-34: answers to identifiers of this block do not reach the load/store unit. -/
def filterLsu {n : Nat} (ans : Fin (n + 1) → Option Resp) (i : Fin (n + 1)) : Option Resp :=
  match ans i with
  | some r => if isRoute r.id then .none else some r
  | .none => .none

/-- The condition of line 36: the answer of the last load port, if it is for the read this block issued. -/
def ownAnswer {n : Nat} (s : State) (ans : Fin (n + 1) → Option Resp) : Option Resp :=
  match ans (Fin.last n) with
  | some r => if s.owner ≠ .none ∧ r.id = s.id then some r else .none
  | .none => .none

/-- Lines 37-40: the answer given to the load whose port was taken. -/
def replayed (s : State) : Option Resp :=
  if s.replayValid then some { id := s.replayId, data := 0#32, replay := .conflict } else .none

/-- Line 63-64 and 70-71: the instruction cache is told of a miss. -/
def iMiss (o : Owner) : Option IResp := if o = .icache then some .miss else .none

/-- `MemRouteBlock::comb_response`, MemRouteBlock.cpp:20-89; `ans`: the cache's answers, `fill`: its
`mshr_fill`.  The state changes only in `ptw_wait`. -/
def combResponse {n : Nat} (s : State) (ans : Fin (n + 1) → Option Resp) (fill : Bool) : State × RespOut n :=
  match ownAnswer s ans with
  | .none =>
    let o : RespOut n := { lsu := filterLsu ans }
    if fill then ({ s with wait := {} }, { o with wake := s.wait }) else (s, o)
  | some r =>
    let o : RespOut n := { lsu := fun i => if i = Fin.last n then replayed s else filterLsu ans i }
    match r.replay with
    | .hit =>
      let o := if s.owner = .icache then { o with icache := some (.hit r.data) }
        else { o with event := some { owner := s.owner, data := r.data, addr := s.addr, id := s.id } }
      if fill then ({ s with wait := {} }, { o with wake := s.wait }) else (s, o)
    | .conflict =>
      let o := { o with icache := iMiss s.owner, wake := wakeOf s.owner }
      if fill then ({ s with wait := {} }, { o with wake := (wakeOf s.owner).or s.wait }) else (s, o)
    | _ =>
      let o := { o with icache := iMiss s.owner }
      if fill then ({ s with wait := {} }, { o with wake := (wakeOf s.owner).or s.wait })
      else ({ s with wait := wakeOf s.owner }, o)

/-- The inputs of `comb_request`: load ports of the load/store unit, and the four other requesters. -/
structure ReqIn (n : Nat) where
  lsu : Fin (n + 1) → Option Req
  icache : Option (BitVec 32) := .none
  walk : Option (BitVec 32) := .none
  dtlb : Option (BitVec 32) := .none
  itlb : Option (BitVec 32) := .none

/-- Lines 97-111: who gets the last load port, and the address. -/
def arbitrate (s : State) (ic wk dt it : Option (BitVec 32)) : Owner × BitVec 32 :=
  match (if s.owner = .icache then .none else ic) with
  | some a => (.icache, a)
  | .none =>
    match (if s.owner = .walk then .none else wk) with
    | some a => (.walk, a)
    | .none =>
      match (if s.owner = .dtlb then .none else dt) with
      | some a => (.dtlb, a)
      | .none =>
        match (if s.owner = .itlb then .none else it) with
        | some a => (.itlb, a)
        | .none => (.none, 0#32)

/-- What `comb_request` produces: the cache's load ports, which of them is a look-up of the instruction cache
(`icache_req`), and the grant to the walker. -/
structure ReqOut (n : Nat) where
  ports : Fin (n + 1) → Option Req
  probe : Option (Fin (n + 1)) := .none
  grant : Option (Owner × BitVec 32) := .none

/-- `MemRouteBlock::comb_request`, MemRouteBlock.cpp:91-131, followed by `seq` (133-136). -/
def combRequest {n : Nat} (s : State) (e : ReqIn n) : State × ReqOut n :=
  let (o, a) := arbitrate s e.icache e.walk e.dtlb e.itlb
  let s' := { s with owner := o, addr := a, id := s.nextId }
  if o = .none then (s', { ports := e.lsu })
  else
    ({ s' with
        replayValid := (e.lsu (Fin.last n)).isSome
        replayId := match e.lsu (Fin.last n) with | some q => q.id | .none => 0#32
        nextId := nextReqId s.nextId },
     { ports := fun i => if i = Fin.last n then some { addr := a, id := s.nextId } else e.lsu i
       probe := if o = .icache then some (Fin.last n) else .none
       grant := if o = .icache then .none else some (o, s.nextId) })

/-! ## The block with its surroundings

One cycle is `comb_response`, then `comb_request` and `seq`, in the order of MemSubsystem.cpp:1003, 1057 and
1191.  `ports` and `probe` are what the cache was given in the last cycle; `last` (the inputs of the last
cycle) and `open_` (reads of the walker ports granted and not yet answered or woken) are bookkeeping that no
step looks at. -/

/-- The block, the requests the cache is about to answer, and bookkeeping. -/
structure Sys (n : Nat) where
  route : State := .init
  ports : Fin (n + 1) → Option Req := fun _ => .none
  probe : Option (Fin (n + 1)) := .none
  last : ReqIn n := { lsu := fun _ => .none }
  open_ : Owner → Bool := fun _ => false

/-- What happens in a cycle: answers of the cache, its `mshr_fill`, requests. -/
structure Cyc (n : Nat) where
  ans : Fin (n + 1) → Option Resp
  fill : Bool
  req : ReqIn n

/-- What the surroundings do.  The cache answers every request of the last cycle on its port under its
identifier and nothing else (this is C57); a look-up of the instruction cache is answered with a hit or
a conflict (RealDcache.cpp:437-444).  The load/store unit uses identifiers with bit 31 clear (`make_lsu_load_req_id`, MemUtils.h:158-161). -/
structure Sys.Valid {n : Nat} (s : Sys n) (c : Cyc n) : Prop where
  ans : ∀ i, (c.ans i).map (·.id) = (s.ports i).map (·.id)
  probe : ∀ i, s.probe = some i → ∀ r, c.ans i = some r → r.replay = .hit ∨ r.replay = .conflict
  ids : ∀ i q, c.req.lsu i = some q → q.id.toNat < 2 ^ 31

/-- Has the port been answered or woken in this cycle? -/
def answered {n : Nat} (o : RespOut n) (w : Owner) : Bool :=
  (match o.event with | some ev => decide (ev.owner = w) | .none => false) ||
  (match w with | .dtlb => o.wake.dtlb | .itlb => o.wake.itlb | .walk => o.wake.walk | _ => false)

/-- Reads outstanding after the cycle. -/
def openAfter {n : Nat} (op : Owner → Bool) (o : RespOut n) (q : ReqOut n) (w : Owner) : Bool :=
  (op w && !answered o w) || (match q.grant with | some (w', _) => decide (w' = w) | .none => false)

/-- A cycle. -/
def Sys.step {n : Nat} (s : Sys n) (c : Cyc n) : Sys n × RespOut n × ReqOut n :=
  let a := combResponse s.route c.ans c.fill
  let b := combRequest a.1 c.req
  ({ route := b.1, ports := b.2.ports, probe := b.2.probe, last := c.req
     open_ := openAfter s.open_ a.2 b.2 }, a.2, b.2)

/-- States reached from the initial one. -/
inductive Reach {n : Nat} : Sys n → Prop
  | init : Reach {}
  | step {s : Sys n} {c : Cyc n} (h : Reach s) (hv : s.Valid c) : Reach (s.step c).1

/-- States reached when the two TLBs use the shared walker only, as they do whenever it is connected
(TlbMmu.cpp:1358): their own ports are idle. -/
inductive ReachW {n : Nat} : Sys n → Prop
  | init : ReachW {}
  | step {s : Sys n} {c : Cyc n} (h : ReachW s) (hv : s.Valid c)
      (hd : c.req.dtlb = .none) (hi : c.req.itlb = .none) : ReachW (s.step c).1

end Verif.MemRoute

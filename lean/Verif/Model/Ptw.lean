/-
The shared page-table walker (MemSubSystem/include/MemPtwBlock.h, `class MemPtwBlock`).

Simplifications: the two memory ports (`mem_clients`), which the TLBs do not use when the walker is connected
(TlbMmu.cpp:1358), statistics, the `access_type` of a request (stored, never read) and the bit-packed
interfaces (lines 297-780) are left out.  A response with its `valid` flag clear is `none`, likewise the
identifier of the outstanding read.  Events with `replay != 0` are not modelled: the sender always sets 0
(MemRouteBlock.cpp:58).
-/
namespace Verif.Ptw

/-- `MemPtwBlock::Client`, MemPtwBlock.h:18-22. -/
inductive Client
  | dtlb | itlb
  deriving DecidableEq, Repr

/-- `PtwWalkReq`. -/
structure Req where
  vaddr : BitVec 32
  satp : BitVec 32
  deriving DecidableEq, Repr

/-- `PtwWalkResp`; `super`: `leaf_level` is 1. -/
structure Resp where
  fault : Bool
  vaddr : BitVec 32
  pte : BitVec 32
  super : Bool
  deriving DecidableEq, Repr

/-- `WalkClientState`, MemPtwBlock.h:328-334. -/
structure Port where
  pending : Bool := false
  inflight : Bool := false
  req : Req := ⟨0#32, 0#32⟩
  resp : Option Resp := none
  deriving DecidableEq, Repr

/-- `WalkState`, MemPtwBlock.h:336-342. -/
inductive Phase
  | idle | req1 | wait1 | req2 | wait2
  deriving DecidableEq, Repr

/-- `State`, MemPtwBlock.h:347-357. -/
structure State where
  port : Client → Port := fun _ => {}
  phase : Phase := .idle
  active : Bool := false
  owner : Client := .dtlb
  rr : Client := .dtlb
  pte1 : BitVec 32 := 0#32
  credit : BitVec 32 := 0#32
  reqId : Option (BitVec 32) := none

/-- `reset_state`, MemPtwBlock.h:362-367. -/
def State.init : State := {}

/-- Change one port. -/
def State.setPort (s : State) (c : Client) (p : Port) : State :=
  { s with port := fun c' => if c' = c then p else s.port c' }

/-- What a client does in a cycle: `WalkClientIn`. -/
structure In where
  req : Option Req := none
  consumed : Bool := false
  flush : Bool := false
  deriving DecidableEq, Repr

/-- `send_walk_req`, MemPtwBlock.h:978-1000. -/
def Port.send (p : Port) (r : Req) : Port :=
  let p := { p with resp := none }
  if p.pending ∨ p.inflight then p else { p with pending := true, req := r }

/-- One client's part of `apply_port_inputs`, MemPtwBlock.h:791-798. -/
def Port.apply (p : Port) (i : In) : Port :=
  let p := if i.consumed then { p with resp := none } else p
  match i.req with
  | some r => p.send r
  | none => p

/-- `apply_port_inputs`, MemPtwBlock.h:780-800. -/
def State.inputs (s : State) (i : Client → In) : State :=
  { s with port := fun c => (s.port c).apply (i c) }

/-- The other client. -/
def Client.other : Client → Client
  | .dtlb => .itlb
  | .itlb => .dtlb

/-- `grant_walk_owner`, MemPtwBlock.h:832-842. -/
def State.start (s : State) (c : Client) : State :=
  { s.setPort c { s.port c with pending := false, inflight := true } with
    owner := c, active := true, phase := .req1, pte1 := 0#32, rr := c.other }

/-- `select_walk_owner`, MemPtwBlock.h:827-852. -/
def State.select (s : State) : State :=
  if s.active ∨ s.phase ≠ .idle then s
  else if (s.port s.rr).pending then s.start s.rr
  else if (s.port s.rr.other).pending then s.start s.rr.other
  else s

/-- `(root_ppn << 12) + (vpn1 << 2)`, MemPtwBlock.h:878-881. -/
def addr1 (r : Req) : BitVec 32 :=
  ((r.satp &&& 0x3FFFFF#32) <<< 12) + (((r.vaddr >>> 22) &&& 0x3FF#32) <<< 2)

/-- `(ppn << 12) + (vpn0 << 2)`, MemPtwBlock.h:883-886. -/
def addr2 (pte1 vaddr : BitVec 32) : BitVec 32 :=
  (((pte1 >>> 10) &&& 0x3FFFFF#32) <<< 12) + (((vaddr >>> 12) &&& 0x3FF#32) <<< 2)

/-- `issue_walk_read`/`walk_read_addr` of `project_outputs_from_state`, MemPtwBlock.h:873-888. -/
def State.issue (s : State) : Option (BitVec 32) :=
  if s.active then
    match s.phase with
    | .req1 => some (addr1 (s.port s.owner).req)
    | .req2 => some (addr2 s.pte1 (s.port s.owner).req.vaddr)
    | _ => none
  else none

/-- `on_walk_read_granted`, MemPtwBlock.h:1029-1044. -/
def State.granted (s : State) (id : BitVec 32) : State :=
  { s with
    phase := match s.phase with
      | .req1 => .wait1
      | .req2 => .wait2
      | p => p
    reqId := some id }

/-- `publish_fault` and `publish_leaf`, MemPtwBlock.h:1064-1087; `super?`: the level of the leaf. -/
def State.publish (s : State) (fault : Bool) (pte : BitVec 32) (sup : Bool) : State :=
  let p := s.port s.owner
  { s.setPort s.owner { p with
      inflight := false, resp := some { fault := fault, vaddr := p.req.vaddr, pte := pte, super := sup } } with
    active := false, phase := .idle, reqId := none }

/-- `!v || (!r && w)`, MemPtwBlock.h:1090 and 1104. -/
def bad (pte : BitVec 32) : Bool := !pte.getLsbD 0 || (!pte.getLsbD 1 && pte.getLsbD 2)

/-- `r || x`, MemPtwBlock.h:1092. -/
def isLeaf (pte : BitVec 32) : Bool := pte.getLsbD 1 || pte.getLsbD 3

/-- `on_walk_mem_resp`, MemPtwBlock.h:1046-1121. -/
def State.memResp (s : State) (id pte : BitVec 32) : State :=
  if s.active = true ∧ s.reqId = some id then
    match s.phase with
    | .wait1 =>
      if bad pte then s.publish true 0#32 false
      else if isLeaf pte then
        if (pte >>> 10) &&& 0x3FF#32 ≠ 0#32 then s.publish true 0#32 false else s.publish false pte true
      else { s with pte1 := pte, phase := .req2, reqId := none }
    | .wait2 =>
      if bad pte || !isLeaf pte then s.publish true 0#32 false else s.publish false pte false
    | _ => s.publish true 0#32 false
  else if s.credit ≠ 0#32 then { s with credit := s.credit - 1#32 }
  else s

/-- `retry_active_walk`, MemPtwBlock.h:1163-1174. -/
def State.retry (s : State) : State :=
  if s.active then
    { s with
      phase := match s.phase with
        | .wait1 => .req1
        | .wait2 => .req2
        | p => p
      reqId := none }
  else s

/-- `flush_walk_client_state`, MemPtwBlock.h:1176-1194. -/
def State.flush (s : State) (c : Client) : State :=
  let s := s.setPort c { s.port c with pending := false, inflight := false, resp := none }
  if s.active = true ∧ s.owner = c then
    { s with
      credit := if s.phase = .wait1 ∨ s.phase = .wait2 then s.credit + 1#32 else s.credit
      active := false, phase := .idle, pte1 := 0#32, reqId := none }
  else s

/-- `comb_begin`, MemPtwBlock.h:240-247. -/
def State.begin_ (s : State) (i : Client → In) : State := (s.inputs i).select

/-- `comb_finish`, MemPtwBlock.h:249-254: the grant, the data of a read, the wake-up. -/
def State.finish (s : State) (grant : Option (BitVec 32)) (data : Option (BitVec 32 × BitVec 32)) (wake : Bool) : State :=
  let s := match grant with
    | some id => s.granted id
    | none => s
  let s := match data with
    | some (id, pte) => s.memResp id pte
    | none => s
  if wake then s.retry else s

/-- `seq`, MemPtwBlock.h:261-266 and 801-807: flushes take effect, the data TLB's first. -/
def State.seq (s : State) (i : Client → In) : State :=
  let s := if (i .dtlb).flush then s.flush .dtlb else s
  if (i .itlb).flush then s.flush .itlb else s

/-- What a client sees of the walker (`WalkClientOut`, MemPtwBlock.h:866-870). -/
structure View where
  ready : Bool
  resp : Option Resp
  deriving DecidableEq, Repr

def State.view (s : State) (c : Client) : View :=
  { ready := !(s.port c).pending && !(s.port c).inflight, resp := (s.port c).resp }

end Verif.Ptw

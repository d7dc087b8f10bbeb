import Verif.Model.Ptw

/-
The shared page-table walker in full (MemSubSystem/include/MemPtwBlock.h, `class MemPtwBlock`): unlike `Verif.Ptw`
with the two memory ports, with replays, with any number of events in a cycle and with the flags kept apart from the
values they guard, so that it can be compared bit for bit with its packed twin (`Verif.PtwKernel`).

Left out: statistics, debug output, the `access_type` of a request and the `req_addr` of an event (stored or passed
along, never read).
-/
namespace Verif.PtwBlock

open Verif.Ptw (Client Phase)

/-- An array indexed by the two clients (`std::array<_, kClientCount>`, MemPtwBlock.h:344-345). -/
structure Two (α : Type) where
  d : α
  i : α
  deriving DecidableEq, Repr

/-- Element of the array. -/
def Two.get {α : Type} (x : Two α) : Client → α
  | .dtlb => x.d
  | .itlb => x.i

/-- Assignment to an element of the array. -/
def Two.set {α : Type} (x : Two α) (c : Client) (v : α) : Two α :=
  match c with
  | .dtlb => { x with d := v }
  | .itlb => { x with i := v }

/-- `PtwClientState`, MemPtwBlock.h:320-326. -/
structure MemClient where
  pending : Bool := false
  inflight : Bool := false
  addr : BitVec 32 := 0#32
  respValid : Bool := false
  respData : BitVec 32 := 0#32
  deriving DecidableEq, Repr

/-- `PtwWalkReq` without `access_type`. -/
structure Req where
  vaddr : BitVec 32 := 0#32
  satp : BitVec 32 := 0#32
  deriving DecidableEq, Repr

/-- `PtwWalkResp`. -/
structure Resp where
  fault : Bool := false
  vaddr : BitVec 32 := 0#32
  leaf : BitVec 32 := 0#32
  level : BitVec 8 := 0#8
  deriving DecidableEq, Repr

/-- `WalkClientState`, MemPtwBlock.h:328-334. -/
structure WalkClient where
  pending : Bool := false
  inflight : Bool := false
  req : Req := {}
  respValid : Bool := false
  resp : Resp := {}
  deriving DecidableEq, Repr

/-- `State`, MemPtwBlock.h:347-358. -/
structure State where
  mem : Two MemClient := ⟨{}, {}⟩
  walk : Two WalkClient := ⟨{}, {}⟩
  phase : Phase := .idle
  active : Bool := false
  owner : Client := .dtlb
  rr : Client := .dtlb
  pte1 : BitVec 32 := 0#32
  credit : BitVec 32 := 0#32
  idValid : Bool := false
  id : BitVec 64 := 0#64
  deriving DecidableEq, Repr

/-- `MemClientIn`, MemPtwBlock.h:44-48. -/
structure MemIn where
  valid : Bool := false
  addr : BitVec 32 := 0#32
  consumed : Bool := false
  deriving DecidableEq, Repr

/-- `WalkClientIn`, MemPtwBlock.h:56-61; its `flush` is not read there, see `SeqIn`. -/
structure WalkIn where
  valid : Bool := false
  req : Req := {}
  consumed : Bool := false
  deriving DecidableEq, Repr

/-- `PortIn`, MemPtwBlock.h:69-74. -/
structure PortIn where
  mem : Two MemIn := ⟨{}, {}⟩
  walk : Two WalkIn := ⟨{}, {}⟩
  deriving DecidableEq, Repr

/-- `GrantOwner` and `RoutedEventOwner`, MemPtwBlock.h:30-42: whom a grant or an event is for. -/
inductive Owner
  | none | dtlb | itlb | walk
  deriving DecidableEq, Repr

/-- `RoutedEvent`, MemPtwBlock.h:81-91. -/
structure Event where
  valid : Bool := false
  owner : Owner := .none
  data : BitVec 32 := 0#32
  replay : BitVec 8 := 0#8
  id : BitVec 64 := 0#64
  deriving DecidableEq, Repr

/-- `FeedbackIn`, MemPtwBlock.h:93-102; `events`: the first `event_count` slots. -/
structure Feedback where
  grantValid : Bool := false
  grantOwner : Owner := .none
  grantId : BitVec 64 := 0#64
  events : List Event := []
  wakeD : Bool := false
  wakeI : Bool := false
  wakeW : Bool := false
  deriving DecidableEq, Repr

/-- All the inputs of a cycle: `PortIn`, `FeedbackIn` and `SeqIn`, MemPtwBlock.h:69-102. -/
structure In where
  port : PortIn := {}
  fb : Feedback := {}
  flush : Two Bool := ⟨false, false⟩
  deriving DecidableEq, Repr

/-- The other client. -/
def other : Client → Client
  | .dtlb => .itlb
  | .itlb => .dtlb

/-- One memory port in `apply_port_inputs`, MemPtwBlock.h:784-789, with `send_mem_req`, MemPtwBlock.h:954-976. -/
def MemClient.inputs (m : MemClient) (i : MemIn) : MemClient :=
  let m := if i.consumed then { m with respValid := false } else m
  if i.valid then
    let m := { m with respValid := false }
    if m.pending || m.inflight then m else { m with pending := true, addr := i.addr }
  else m

/-- One walk port in `apply_port_inputs`, MemPtwBlock.h:791-798, with `send_walk_req`, MemPtwBlock.h:978-1000. -/
def WalkClient.inputs (w : WalkClient) (i : WalkIn) : WalkClient :=
  let w := if i.consumed then { w with respValid := false } else w
  if i.valid then
    let w := { w with respValid := false }
    if w.pending || w.inflight then w else { w with pending := true, req := i.req }
  else w

/-- `apply_port_inputs`, MemPtwBlock.h:780-800; no client's part depends on another's. -/
def State.inputs (s : State) (i : PortIn) : State :=
  { s with
    mem := ⟨s.mem.d.inputs i.mem.d, s.mem.i.inputs i.mem.i⟩
    walk := ⟨s.walk.d.inputs i.walk.d, s.walk.i.inputs i.walk.i⟩ }

/-- `grant_walk_owner`, MemPtwBlock.h:832-842. -/
def State.start (s : State) (c : Client) : State :=
  { s with
    walk := s.walk.set c { s.walk.get c with pending := false, inflight := true }
    owner := c, active := true, phase := .req1, pte1 := 0#32, rr := other c }

/-- `select_walk_owner`, MemPtwBlock.h:827-852. -/
def State.select (s : State) : State :=
  if s.active || decide (s.phase ≠ .idle) then s
  else if (s.walk.get s.rr).pending then s.start s.rr
  else if (s.walk.get (other s.rr)).pending then s.start (other s.rr)
  else s

/-- `comb_begin`, MemPtwBlock.h:240-247. -/
def State.begin_ (s : State) (i : PortIn) : State := (s.inputs i).select

/-- `on_mem_read_granted`, MemPtwBlock.h:1002-1013. -/
def State.memGranted (s : State) (c : Client) : State :=
  { s with mem := s.mem.set c { s.mem.get c with pending := false, inflight := true } }

/-- `on_walk_read_granted`, MemPtwBlock.h:1029-1044. -/
def State.walkGranted (s : State) (id : BitVec 64) : State :=
  { s with
    phase := match s.phase with
      | .req1 => .wait1
      | .req2 => .wait2
      | p => p
    idValid := true, id := id }

/-- `apply_grant`, MemPtwBlock.h:892-910. -/
def State.grant (s : State) (fb : Feedback) : State :=
  if fb.grantValid then
    match fb.grantOwner with
    | .dtlb => s.memGranted .dtlb
    | .itlb => s.memGranted .itlb
    | .walk => s.walkGranted fb.grantId
    | .none => s
  else s

/-- `on_mem_resp_client`, MemPtwBlock.h:1015-1027. -/
def State.memResp (s : State) (c : Client) (data : BitVec 32) : State :=
  { s with mem := s.mem.set c { s.mem.get c with respValid := true, respData := data, inflight := false } }

/-- `publish_fault` and `publish_leaf`, MemPtwBlock.h:1063-1087. -/
def State.publish (s : State) (fault : Bool) (leaf : BitVec 32) (level : BitVec 8) : State :=
  let w := s.walk.get s.owner
  { s with
    walk := s.walk.set s.owner { w with
      inflight := false, respValid := true
      resp := { fault := fault, vaddr := w.req.vaddr, leaf := leaf, level := level } }
    active := false, phase := .idle, idValid := false, id := 0#64 }

/-- `is_active_req`, MemPtwBlock.h:1047-1048. -/
def State.isActiveReq (s : State) (id : BitVec 64) : Bool := s.active && s.idValid && s.id == id

/-- `on_walk_mem_resp`, MemPtwBlock.h:1046-1121. -/
def State.walkResp (s : State) (id : BitVec 64) (pte : BitVec 32) : State :=
  if s.credit ≠ 0#32 ∧ s.isActiveReq id = false then { s with credit := s.credit - 1#32 }
  else if s.isActiveReq id = false then s
  else
    let v := pte.getLsbD 0
    let r := pte.getLsbD 1
    let w := pte.getLsbD 2
    let x := pte.getLsbD 3
    match s.phase with
    | .wait1 =>
      if !v || (!r && w) then s.publish true 0#32 0#8
      else if r || x then
        if (pte >>> 10) &&& 0x3FF#32 ≠ 0#32 then s.publish true 0#32 0#8 else s.publish false pte 1#8
      else { s with pte1 := pte, phase := .req2, idValid := false, id := 0#64 }
    | .wait2 =>
      if !v || (!r && w) || !(r || x) then s.publish true 0#32 0#8 else s.publish false pte 0#8
    | _ => s.publish true 0#32 0#8

/-- `L1_WAIT_RESP` back to `L1_REQ` and `L2_WAIT_RESP` back to `L2_REQ`, MemPtwBlock.h:1138-1142 and 1167-1171. -/
def back : Phase → Phase
  | .wait1 => .req1
  | .wait2 => .req2
  | p => p

/-- `on_walk_mem_replay`, MemPtwBlock.h:1123-1152; reason 2 is `kReplayWaitFill`. -/
def State.walkReplay (s : State) (id : BitVec 64) (reason : BitVec 8) : State :=
  if s.credit ≠ 0#32 ∧ s.isActiveReq id = false then { s with credit := s.credit - 1#32 }
  else if s.isActiveReq id = false then s
  else
    { s with
      walk := s.walk.set s.owner { s.walk.get s.owner with inflight := false }
      phase := if reason = 2#8 then back s.phase else s.phase
      idValid := false, id := 0#64 }

/-- The body of the loop in `apply_events`, MemPtwBlock.h:914-939. -/
def State.event (s : State) (e : Event) : State :=
  if e.valid then
    match e.owner with
    | .dtlb => if e.replay = 0#8 then s.memResp .dtlb e.data else s
    | .itlb => if e.replay = 0#8 then s.memResp .itlb e.data else s
    | .walk => if e.replay = 0#8 then s.walkResp e.id e.data else s.walkReplay e.id e.replay
    | .none => s
  else s

/-- `apply_events`, MemPtwBlock.h:912-940. -/
def State.events (s : State) (es : List Event) : State := es.foldl State.event s

/-- `retry_mem_req`, MemPtwBlock.h:1154-1161. -/
def State.retryMem (s : State) (c : Client) : State :=
  if (s.mem.get c).inflight then
    { s with mem := s.mem.set c { s.mem.get c with inflight := false, pending := true } }
  else s

/-- `retry_active_walk`, MemPtwBlock.h:1163-1174. -/
def State.retryWalk (s : State) : State :=
  if s.active then { s with phase := back s.phase, idValid := false, id := 0#64 } else s

/-- `apply_wakeups`, MemPtwBlock.h:942-952. -/
def State.wakeups (s : State) (fb : Feedback) : State :=
  let s := if fb.wakeD then s.retryMem .dtlb else s
  let s := if fb.wakeI then s.retryMem .itlb else s
  if fb.wakeW then s.retryWalk else s

/-- `comb_finish`, MemPtwBlock.h:249-254. -/
def State.finish (s : State) (fb : Feedback) : State := ((s.grant fb).events fb.events).wakeups fb

/-- `flush_walk_client_state`, MemPtwBlock.h:1176-1194. -/
def State.flushWalk (s : State) (c : Client) : State :=
  let s := { s with
    walk := s.walk.set c { s.walk.get c with pending := false, inflight := false, respValid := false } }
  if s.active && s.owner == c then
    { s with
      credit := if s.phase = .wait1 ∨ s.phase = .wait2 then s.credit + 1#32 else s.credit
      active := false, phase := .idle, pte1 := 0#32, idValid := false, id := 0#64 }
  else s

/-- `apply_seq_inputs`, MemPtwBlock.h:801-807, as called by `seq`, MemPtwBlock.h:261-266. -/
def State.seq (s : State) (f : Two Bool) : State :=
  let s := if f.d then s.flushWalk .dtlb else s
  if f.i then s.flushWalk .itlb else s

/-- A cycle: `comb_begin`, `comb_finish` and `seq` (MemSubsystem.cpp:1041, 1119 and 1187). -/
def State.step (s : State) (i : In) : State := ((s.begin_ i.port).finish i.fb).seq i.flush

/-- `MemClientOut`, MemPtwBlock.h:50-54, with `mem_req_pending` and `mem_req_addr`. -/
structure MemOut where
  ready : Bool := false
  respValid : Bool := false
  respData : BitVec 32 := 0#32
  pending : Bool := false
  addr : BitVec 32 := 0#32
  deriving DecidableEq, Repr

/-- `WalkClientOut`, MemPtwBlock.h:63-67. -/
structure WalkOut where
  ready : Bool := false
  respValid : Bool := false
  resp : Resp := {}
  deriving DecidableEq, Repr

/-- `CombOut`, MemPtwBlock.h:104-113. -/
structure Out where
  mem : Two MemOut
  walk : Two WalkOut
  issue : Bool
  addr : BitVec 32
  deriving DecidableEq, Repr

/-- One memory port in `project_outputs_from_state`, MemPtwBlock.h:857-863. -/
def MemClient.out (m : MemClient) : MemOut :=
  { ready := !m.pending && !m.inflight, respValid := m.respValid, respData := m.respData, pending := m.pending,
    addr := m.addr }

/-- One walk port in `project_outputs_from_state`, MemPtwBlock.h:865-869. -/
def WalkClient.out (w : WalkClient) : WalkOut :=
  { ready := !w.pending && !w.inflight, respValid := w.respValid, resp := w.resp }

/-- The read request in `project_outputs_from_state`, MemPtwBlock.h:872-888. -/
def State.read (s : State) : Option (BitVec 32) :=
  let req := (s.walk.get s.owner).req
  if s.active then
    match s.phase with
    | .req1 => some (((req.satp &&& 0x3FFFFF#32) <<< 12) + (((req.vaddr >>> 22) &&& 0x3FF#32) <<< 2))
    | .req2 => some ((((s.pte1 >>> 10) &&& 0x3FFFFF#32) <<< 12) + (((req.vaddr >>> 12) &&& 0x3FF#32) <<< 2))
    | _ => none
  else none

/-- `project_outputs_from_state`, MemPtwBlock.h:854-889. -/
def State.out (s : State) : Out :=
  { mem := ⟨s.mem.d.out, s.mem.i.out⟩
    walk := ⟨s.walk.d.out, s.walk.i.out⟩
    issue := s.read.isSome
    addr := s.read.getD 0#32 }

end Verif.PtwBlock

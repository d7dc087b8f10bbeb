import Verif.Model.PtwBlock

/-
The packed twin of the page-table walker (MemSubSystem/include/PtwCompactCoreKernel.h), which `MemPtwBlock` hands out
as `compact_core_io_generator`, `compact_core_visible_io_generator` and `top_glue_io_generator`: a step function, an
output function and input wiring, all from bits to bits.

A `bool *` is a function from positions to bits.  The kernel keeps its clients and owners as the numbers 0 and 1;
here they are a `Client`.  Its other fields have the widths of the C types.  `access_type` is left out: it is always 0.
-/
namespace Verif.PtwKernel

open Verif.Ptw (Client)
open Verif.PtwBlock (Two MemClient Req Resp WalkClient MemIn WalkIn PortIn Owner Event Feedback)

/-- `bool *`. -/
abbrev Bits := Nat → Bool

/-- `ptw_kernel_read_uint`, PtwCompactCoreKernel.h:217-226. -/
def readUint (b : Bits) (lsb width : Nat) : BitVec 32 :=
  (List.range (min width 32)).foldl (fun v i => if b (lsb + i) then v ||| (1#32 <<< i) else v) 0#32

/-- Assignment to one bit: `ptw_kernel_write_bit`, PtwCompactCoreKernel.h:239-241. -/
def writeBit (b : Bits) (k : Nat) (v : Bool) : Bits := fun j => if j = k then v else b j

/-- `ptw_kernel_write_uint`, PtwCompactCoreKernel.h:232-237; no width is above 32. -/
def writeUint (b : Bits) (lsb width : Nat) (v : BitVec 32) : Bits :=
  (List.range width).foldl (fun b i => writeBit b (lsb + i) (v.getLsbD i)) b

/-- `ptw_kernel_clear_bits`, PtwCompactCoreKernel.h:243-247. -/
def clearBits (b : Bits) (width : Nat) : Bits := (List.range width).foldl (fun b i => writeBit b i false) b

/-- `ptw_kernel_copy_bits`, PtwCompactCoreKernel.h:249-255. -/
def copyBits (dst : Bits) (dlsb : Nat) (src : Bits) (slsb width : Nat) : Bits :=
  (List.range width).foldl (fun b i => writeBit b (dlsb + i) (src (slsb + i))) dst

/-- The number of a client, PtwCompactCoreKernel.h:114-118. -/
def idx : Client → Nat
  | .dtlb => 0
  | .itlb => 1

/-- `ptw_kernel_state_mem_base`, PtwCompactCoreKernel.h:257-260. -/
def memBase (c : Client) : Nat := 28 + idx c * 63
/-- `ptw_kernel_state_walk_base`, PtwCompactCoreKernel.h:262-266. -/
def walkBase (c : Client) : Nat := 28 + 2 * 63 + idx c * 77
/-- `PTW_COMPACT_CORE_KERNEL_STATE_WIDTH`, PtwCompactCoreKernel.h:32-35. -/
def stateWidth : Nat := 28 + 2 * 63 + 2 * 77
/-- `ptw_kernel_pi_mem_in_base`, PtwCompactCoreKernel.h:268-271. -/
def memInBase (c : Client) : Nat := stateWidth + idx c * 32
/-- `ptw_kernel_pi_walk_in_base`, PtwCompactCoreKernel.h:273-277. -/
def walkInBase (c : Client) : Nat := stateWidth + 2 * 32 + idx c * 45
/-- `ptw_kernel_pi_grant_base`, PtwCompactCoreKernel.h:279-283. -/
def grantBase : Nat := stateWidth + 2 * 32 + 2 * 45
/-- `ptw_kernel_pi_event_base`, PtwCompactCoreKernel.h:285-289, for the only slot. -/
def eventBase : Nat := grantBase + 3
/-- `ptw_kernel_pi_wakeup_base`, PtwCompactCoreKernel.h:291-296. -/
def wakeBase : Nat := grantBase + 3 + 36

/-- `PtwCompactKernelState`, PtwCompactCoreKernel.h:164-175. -/
structure KState where
  mem : Two MemClient := ⟨{}, {}⟩
  walk : Two WalkClient := ⟨{}, {}⟩
  phase : BitVec 8 := 0#8
  active : Bool := false
  owner : Client := .dtlb
  rr : Client := .dtlb
  pte1 : BitVec 32 := 0#32
  credit : BitVec 32 := 0#32
  idValid : Bool := false
  id : BitVec 64 := 0#64
  deriving DecidableEq, Repr

/-- `ptw_kernel_walk_state_waits`, PtwCompactCoreKernel.h:371-374. -/
def waits (p : BitVec 8) : Bool := p == 2#8 || p == 4#8

/-- `ptw_kernel_read_word_addr`, PtwCompactCoreKernel.h:376-378. -/
def readWordAddr (b : Bits) (lsb : Nat) : BitVec 32 := readUint b lsb 30 <<< 2

/-- `ptw_kernel_pack_pte_payload`, PtwCompactCoreKernel.h:385-387. -/
def packPte (pte : BitVec 32) : BitVec 32 := (((pte >>> 10) &&& 0x3FFFFF#32) <<< 8) ||| (pte &&& 0xFF#32)

/-- `ptw_kernel_unpack_pte_payload`, PtwCompactCoreKernel.h:389-393. -/
def unpackPte (p : BitVec 32) : BitVec 32 := (((p >>> 8) &&& 0x3FFFFF#32) <<< 10) ||| (p &&& 0xFF#32)

/-- A memory client in `ptw_kernel_decode_state`, PtwCompactCoreKernel.h:418-427. -/
def decodeMem (b : Bits) (base : Nat) : MemClient :=
  { pending := (readUint b (base + 0) 2).getLsbD 0
    inflight := (readUint b (base + 0) 2).getLsbD 1
    addr := readWordAddr b (base + 2)
    respValid := b (base + 32)
    respData := unpackPte (readUint b (base + 33) 30) }

/-- A walk client in `ptw_kernel_decode_state`, PtwCompactCoreKernel.h:429-451. -/
def decodeWalk (b : Bits) (base : Nat) : WalkClient :=
  { pending := (readUint b (base + 0) 2).getLsbD 0
    inflight := (readUint b (base + 0) 2).getLsbD 1
    req := { vaddr := readUint b (base + 2) 20 <<< 12, satp := readUint b (base + 22) 22 }
    respValid := b (base + 44)
    resp := { fault := b (base + 45)
              vaddr := readUint b (base + 2) 20 <<< 12
              leaf := (readUint b (base + 46) 22 <<< 10) ||| readUint b (base + 68) 8
              level := if b (base + 76) then 1#8 else 0#8 } }

/-- `ptw_kernel_decode_state`, PtwCompactCoreKernel.h:402-460: the owner of the walk and the identifier of its read
are not in the bits; they are made up from the other fields. -/
def decodeState (b : Bits) : KState :=
  let phase := (readUint b 0 3).setWidth 8
  let active := phase != 0#8
  let walk : Two WalkClient := ⟨decodeWalk b (walkBase .dtlb), decodeWalk b (walkBase .itlb)⟩
  { mem := ⟨decodeMem b (memBase .dtlb), decodeMem b (memBase .itlb)⟩
    walk := walk
    phase := phase
    active := active
    owner := if active && walk.i.inflight then .itlb else .dtlb
    rr := if b 3 then .itlb else .dtlb
    pte1 := readUint b 4 22 <<< 10
    credit := readUint b 26 2
    idValid := waits phase
    id := if waits phase then 1#64 else 0#64 }

/-- `(pending ? 1 : 0) | (inflight ? 2 : 0)`, PtwCompactCoreKernel.h:478-479 and 488-489. -/
def reqState (pending inflight : Bool) : BitVec 32 :=
  (if pending then 1#32 else 0#32) ||| (if inflight then 2#32 else 0#32)

/-- A memory client in `ptw_kernel_encode_state`, PtwCompactCoreKernel.h:476-484. -/
def encodeMem (b : Bits) (base : Nat) (m : MemClient) : Bits :=
  let b := writeUint b (base + 0) 2 (reqState m.pending m.inflight)
  let b := writeUint b (base + 2) 30 (m.addr >>> 2)
  let b := writeBit b (base + 32) m.respValid
  writeUint b (base + 33) 30 (packPte m.respData)

/-- A walk client in `ptw_kernel_encode_state`, PtwCompactCoreKernel.h:486-502. -/
def encodeWalk (b : Bits) (base : Nat) (w : WalkClient) : Bits :=
  let b := writeUint b (base + 0) 2 (reqState w.pending w.inflight)
  let b := writeUint b (base + 2) 20 ((w.req.vaddr >>> 12) &&& 0xFFFFF#32)
  let b := writeUint b (base + 22) 22 (w.req.satp &&& 0x3FFFFF#32)
  let b := writeBit b (base + 44) w.respValid
  let b := writeBit b (base + 45) w.resp.fault
  let b := writeUint b (base + 46) 22 ((w.resp.leaf >>> 10) &&& 0x3FFFFF#32)
  let b := writeUint b (base + 68) 8 (w.resp.leaf &&& 0xFF#32)
  writeBit b (base + 76) (w.resp.level.getLsbD 0)

/-- `credit > 3 ? 3 : credit`, PtwCompactCoreKernel.h:471-473. -/
def sat3 (c : BitVec 32) : BitVec 32 := if c > 3#32 then 3#32 else c

/-- `ptw_kernel_encode_state`, PtwCompactCoreKernel.h:462-504. -/
def encodeState (b : Bits) (s : KState) : Bits :=
  let b := writeUint b 0 3 (s.phase.setWidth 32)
  let b := writeBit b 3 (s.rr != .dtlb)
  let b := writeUint b 4 22 ((s.pte1 >>> 10) &&& 0x3FFFFF#32)
  let b := writeUint b 26 2 (sat3 s.credit)
  let b := encodeMem b (memBase .dtlb) s.mem.d
  let b := encodeWalk b (walkBase .dtlb) s.walk.d
  let b := encodeMem b (memBase .itlb) s.mem.i
  encodeWalk b (walkBase .itlb) s.walk.i

/-- Two bits as an owner, PtwCompactCoreKernel.h:128-133. -/
def ownerOf (v : BitVec 32) : Owner :=
  if v = 1#32 then .dtlb else if v = 2#32 then .itlb else if v = 3#32 then .walk else .none

/-- A memory client in `ptw_kernel_decode_input`, PtwCompactCoreKernel.h:517-522. -/
def decodeMemIn (b : Bits) (base : Nat) : MemIn :=
  { valid := b (base + 0), addr := readWordAddr b (base + 1), consumed := b (base + 31) }

/-- A walk client in `ptw_kernel_decode_input`, PtwCompactCoreKernel.h:524-533. -/
def decodeWalkIn (b : Bits) (base : Nat) : WalkIn :=
  { valid := b (base + 0)
    req := { vaddr := readUint b (base + 1) 20 <<< 12, satp := readUint b (base + 21) 22 }
    consumed := b (base + 43) }

/-- The ports in `ptw_kernel_decode_input`, PtwCompactCoreKernel.h:516-536. -/
def decodePort (b : Bits) : PortIn :=
  { mem := ⟨decodeMemIn b (memInBase .dtlb), decodeMemIn b (memInBase .itlb)⟩
    walk := ⟨decodeWalkIn b (walkInBase .dtlb), decodeWalkIn b (walkInBase .itlb)⟩ }

/-- The flushes in `ptw_kernel_decode_input`, PtwCompactCoreKernel.h:534-535. -/
def decodeFlush (b : Bits) : Two Bool := ⟨b (walkInBase .dtlb + 44), b (walkInBase .itlb + 44)⟩

/-- The event in `ptw_kernel_decode_input`, PtwCompactCoreKernel.h:543-557: `id` is the identifier decoded from the
state, and the identifier of the event is that one or another, by the match bit. -/
def decodeEvent (b : Bits) (id : BitVec 64) : Event :=
  { valid := b (eventBase + 0)
    owner := ownerOf (readUint b (eventBase + 1) 2)
    data := unpackPte (readUint b (eventBase + 3) 30)
    replay := (readUint b (eventBase + 33) 2).setWidth 8
    id := if b (eventBase + 35) then id else id ^^^ 1#64 }

/-- The feedback in `ptw_kernel_decode_input`, PtwCompactCoreKernel.h:538-562; `event_count` is 1 if the event is
valid and 0 otherwise. -/
def decodeFeedback (b : Bits) (id : BitVec 64) : Feedback :=
  { grantValid := b (grantBase + 0)
    grantOwner := ownerOf (readUint b (grantBase + 1) 2)
    grantId := 1#64
    events := if (decodeEvent b id).valid then [decodeEvent b id] else []
    wakeD := b (wakeBase + 0)
    wakeI := b (wakeBase + 1)
    wakeW := b (wakeBase + 2) }

/-- A memory client in `ptw_kernel_apply_port_inputs`, PtwCompactCoreKernel.h:591-596, with `ptw_kernel_send_mem_req`,
PtwCompactCoreKernel.h:565-574. -/
def kMemInputs (m : MemClient) (i : MemIn) : MemClient :=
  let m := if i.consumed then { m with respValid := false } else m
  if i.valid then
    let m := { m with respValid := false }
    if m.pending || m.inflight then m else { m with pending := true, addr := i.addr }
  else m

/-- A walk client in `ptw_kernel_apply_port_inputs`, PtwCompactCoreKernel.h:597-602, with `ptw_kernel_send_walk_req`,
PtwCompactCoreKernel.h:576-586. -/
def kWalkInputs (w : WalkClient) (i : WalkIn) : WalkClient :=
  let w := if i.consumed then { w with respValid := false } else w
  if i.valid then
    let w := { w with respValid := false }
    if w.pending || w.inflight then w else { w with pending := true, req := i.req }
  else w

/-- `ptw_kernel_apply_port_inputs`, PtwCompactCoreKernel.h:588-604. -/
def KState.inputs (s : KState) (i : PortIn) : KState :=
  { s with
    mem := ⟨kMemInputs s.mem.d i.mem.d, kMemInputs s.mem.i i.mem.i⟩
    walk := ⟨kWalkInputs s.walk.d i.walk.d, kWalkInputs s.walk.i i.walk.i⟩ }

/-- The other client, PtwCompactCoreKernel.h:613-615 and 632-634. -/
def kOther (c : Client) : Client := if c = .dtlb then .itlb else .dtlb

/-- `ptw_kernel_select_walk_owner`, PtwCompactCoreKernel.h:606-635. -/
def KState.select (s : KState) : KState :=
  if s.active || s.phase != 0#8 then s
  else
    let pick : Option Client :=
      if (s.walk.get s.rr).pending then some s.rr
      else if (s.walk.get (kOther s.rr)).pending then some (kOther s.rr)
      else none
    match pick with
    | none => s
    | some o =>
      { s with
        walk := s.walk.set o { s.walk.get o with pending := false, inflight := true }
        owner := o, active := true, phase := 1#8, pte1 := 0#32, rr := kOther o }

/-- `ptw_kernel_on_mem_read_granted`, PtwCompactCoreKernel.h:637-642. -/
def KState.memGranted (s : KState) (c : Client) : KState :=
  { s with mem := s.mem.set c { s.mem.get c with pending := false, inflight := true } }

/-- `ptw_kernel_on_walk_read_granted`, PtwCompactCoreKernel.h:644-653. -/
def KState.walkGranted (s : KState) (id : BitVec 64) : KState :=
  { s with
    phase := if s.phase = 1#8 then 2#8 else if s.phase = 3#8 then 4#8 else s.phase
    idValid := true, id := id }

/-- `ptw_kernel_apply_grant`, PtwCompactCoreKernel.h:655-673. -/
def KState.grant (s : KState) (fb : Feedback) : KState :=
  if fb.grantValid then
    match fb.grantOwner with
    | .dtlb => s.memGranted .dtlb
    | .itlb => s.memGranted .itlb
    | .walk => s.walkGranted fb.grantId
    | .none => s
  else s

/-- `ptw_kernel_on_mem_resp_client`, PtwCompactCoreKernel.h:675-681. -/
def KState.memResp (s : KState) (c : Client) (data : BitVec 32) : KState :=
  { s with mem := s.mem.set c { s.mem.get c with respValid := true, respData := data, inflight := false } }

/-- `ptw_kernel_publish_walk_fault`, PtwCompactCoreKernel.h:683-696. -/
def KState.publishFault (s : KState) : KState :=
  let w := s.walk.get s.owner
  { s with
    walk := s.walk.set s.owner { w with
      inflight := false, respValid := true
      resp := { fault := true, vaddr := w.req.vaddr, leaf := 0#32, level := 0#8 } }
    active := false, phase := 0#8, idValid := false, id := 0#64 }

/-- `ptw_kernel_publish_walk_leaf`, PtwCompactCoreKernel.h:698-713. -/
def KState.publishLeaf (s : KState) (pte : BitVec 32) (level : BitVec 8) : KState :=
  let w := s.walk.get s.owner
  { s with
    walk := s.walk.set s.owner { w with
      inflight := false, respValid := true
      resp := { fault := false, vaddr := w.req.vaddr, leaf := pte, level := level } }
    active := false, phase := 0#8, idValid := false, id := 0#64 }

/-- `is_active_req`, PtwCompactCoreKernel.h:717-719 and 763-765. -/
def KState.isActiveReq (s : KState) (id : BitVec 64) : Bool := s.active && s.idValid && s.id == id

/-- `ptw_kernel_on_walk_mem_resp`, PtwCompactCoreKernel.h:715-758. -/
def KState.walkResp (s : KState) (id : BitVec 64) (pte : BitVec 32) : KState :=
  if s.credit ≠ 0#32 ∧ s.isActiveReq id = false then { s with credit := s.credit - 1#32 }
  else if s.isActiveReq id = false then s
  else
    let v := pte.getLsbD 0
    let r := pte.getLsbD 1
    let w := pte.getLsbD 2
    let x := pte.getLsbD 3
    if s.phase = 2#8 then
      if !v || (!r && w) then s.publishFault
      else if r || x then
        if (pte >>> 10) &&& 0x3FF#32 ≠ 0#32 then s.publishFault else s.publishLeaf pte 1#8
      else { s with pte1 := pte, phase := 3#8, idValid := false, id := 0#64 }
    else if s.phase = 4#8 then
      if !v || (!r && w) || !(r || x) then s.publishFault else s.publishLeaf pte 0#8
    else s.publishFault

/-- A waiting phase back to the requesting one, PtwCompactCoreKernel.h:779-784 and 840-844. -/
def kBack (p : BitVec 8) : BitVec 8 := if p = 2#8 then 1#8 else if p = 4#8 then 3#8 else p

/-- `ptw_kernel_on_walk_mem_replay`, PtwCompactCoreKernel.h:760-788. -/
def KState.walkReplay (s : KState) (id : BitVec 64) (reason : BitVec 8) : KState :=
  if s.credit ≠ 0#32 ∧ s.isActiveReq id = false then { s with credit := s.credit - 1#32 }
  else if s.isActiveReq id = false then s
  else
    { s with
      walk := s.walk.set s.owner { s.walk.get s.owner with inflight := false }
      phase := if reason = 2#8 then kBack s.phase else s.phase
      idValid := false, id := 0#64 }

/-- The body of the loop in `ptw_kernel_apply_events`, PtwCompactCoreKernel.h:796-822. -/
def KState.event (s : KState) (e : Event) : KState :=
  if e.valid then
    match e.owner with
    | .dtlb => if e.replay = 0#8 then s.memResp .dtlb e.data else s
    | .itlb => if e.replay = 0#8 then s.memResp .itlb e.data else s
    | .walk => if e.replay = 0#8 then s.walkResp e.id e.data else s.walkReplay e.id e.replay
    | .none => s
  else s

/-- `ptw_kernel_apply_events`, PtwCompactCoreKernel.h:790-824. -/
def KState.events (s : KState) (es : List Event) : KState := es.foldl KState.event s

/-- `ptw_kernel_retry_mem_req`, PtwCompactCoreKernel.h:826-834. -/
def KState.retryMem (s : KState) (c : Client) : KState :=
  if (s.mem.get c).inflight then
    { s with mem := s.mem.set c { s.mem.get c with inflight := false, pending := true } }
  else s

/-- `ptw_kernel_retry_active_walk`, PtwCompactCoreKernel.h:836-847. -/
def KState.retryWalk (s : KState) : KState :=
  if s.active then { s with phase := kBack s.phase, idValid := false, id := 0#64 } else s

/-- `ptw_kernel_apply_wakeups`, PtwCompactCoreKernel.h:849-860. -/
def KState.wakeups (s : KState) (fb : Feedback) : KState :=
  let s := if fb.wakeD then s.retryMem .dtlb else s
  let s := if fb.wakeI then s.retryMem .itlb else s
  if fb.wakeW then s.retryWalk else s

/-- `ptw_kernel_flush_walk_client`, PtwCompactCoreKernel.h:862-880. -/
def KState.flushWalk (s : KState) (c : Client) : KState :=
  let s := { s with
    walk := s.walk.set c { s.walk.get c with pending := false, inflight := false, respValid := false } }
  if s.active && s.owner == c then
    { s with
      credit := if s.phase = 2#8 ∨ s.phase = 4#8 then s.credit + 1#32 else s.credit
      active := false, phase := 0#8, pte1 := 0#32, idValid := false, id := 0#64 }
  else s

/-- `ptw_kernel_apply_seq_inputs`, PtwCompactCoreKernel.h:882-889. -/
def KState.seq (s : KState) (f : Two Bool) : KState :=
  let s := if f.d then s.flushWalk .dtlb else s
  if f.i then s.flushWalk .itlb else s

/-- `ptw_compact_core_kernel_eval_state`, PtwCompactCoreKernel.h:891-904, after decoding. -/
def KState.run (s : KState) (p : PortIn) (fb : Feedback) (f : Two Bool) : KState :=
  ((((s.inputs p).select.grant fb).events fb.events).wakeups fb).seq f

/-- `ptw_compact_core_kernel_eval_state`, PtwCompactCoreKernel.h:891-904. -/
def evalState (pi : Bits) : KState :=
  let s := decodeState pi
  s.run (decodePort pi) (decodeFeedback pi s.id) (decodeFlush pi)

/-- `ptw_compact_core_kernel_eval`, PtwCompactCoreKernel.h:1008-1014: the step, from bits to bits; `po`: what the
output array holds before. -/
def eval (pi po : Bits) : Bits := encodeState (clearBits po stateWidth) (evalState pi)

/-- A memory client in `ptw_compact_core_kernel_state_bit`, PtwCompactCoreKernel.h:944-958. -/
def memBit (m : MemClient) (off : Nat) : Bool :=
  if off < 2 then (reqState m.pending m.inflight).getLsbD off
  else if off < 32 then (m.addr >>> 2).getLsbD (off - 2)
  else if off = 32 then m.respValid
  else (packPte m.respData).getLsbD (off - 33)

/-- A walk client in `ptw_compact_core_kernel_state_bit`, PtwCompactCoreKernel.h:968-995. -/
def walkBit (w : WalkClient) (off : Nat) : Bool :=
  if off < 2 then (reqState w.pending w.inflight).getLsbD off
  else if off < 22 then ((w.req.vaddr >>> 12) &&& 0xFFFFF#32).getLsbD (off - 2)
  else if off < 44 then (w.req.satp &&& 0x3FFFFF#32).getLsbD (off - 22)
  else if off = 44 then w.respValid
  else if off = 45 then w.resp.fault
  else if off < 68 then ((w.resp.leaf >>> 10) &&& 0x3FFFFF#32).getLsbD (off - 46)
  else if off < 76 then (w.resp.leaf &&& 0xFF#32).getLsbD (off - 68)
  else w.resp.level.getLsbD 0

/-- `ptw_compact_core_kernel_state_bit`, PtwCompactCoreKernel.h:914-999. -/
def stateBit (s : KState) (bit : Nat) : Bool :=
  if bit ≥ stateWidth then false
  else if bit < 28 then
    if bit < 3 then (s.phase.setWidth 32).getLsbD bit
    else if bit = 3 then s.rr != .dtlb
    else if bit < 26 then ((s.pte1 >>> 10) &&& 0x3FFFFF#32).getLsbD (bit - 4)
    else (sat3 s.credit).getLsbD (bit - 26)
  else if memBase .dtlb ≤ bit ∧ bit < memBase .dtlb + 63 then memBit s.mem.d (bit - memBase .dtlb)
  else if memBase .itlb ≤ bit ∧ bit < memBase .itlb + 63 then memBit s.mem.i (bit - memBase .itlb)
  else if walkBase .dtlb ≤ bit ∧ bit < walkBase .dtlb + 77 then walkBit s.walk.d (bit - walkBase .dtlb)
  else if walkBase .itlb ≤ bit ∧ bit < walkBase .itlb + 77 then walkBit s.walk.i (bit - walkBase .itlb)
  else false

/-- `ptw_compact_core_kernel_eval_bit`, PtwCompactCoreKernel.h:1001-1006: one bit of the step. -/
def evalBit (pi : Bits) (bit : Nat) : Bool := stateBit (evalState pi) bit

/-- `ptw_kernel_core_port_mem_out_base`, PtwCompactCoreKernel.h:325-327. -/
def memOutBase (c : Client) : Nat := idx c * 34
/-- `ptw_kernel_core_port_walk_out_base`, PtwCompactCoreKernel.h:329-332. -/
def walkOutBase (c : Client) : Nat := 2 * 34 + idx c * 75
/-- `ptw_kernel_core_port_arb_out_base`, PtwCompactCoreKernel.h:334-337. -/
def arbOutBase : Nat := 2 * 34 + 2 * 75
/-- `PTW_COMPACT_CORE_KERNEL_CORE_PORT_OUT_WIDTH`, PtwCompactCoreKernel.h:71-74. -/
def outWidth : Nat := 2 * 34 + 2 * 75 + 99

/-- One client's ports in `ptw_kernel_encode_core_port_output`, PtwCompactCoreKernel.h:1021-1036. -/
def encodeClientOut (b : Bits) (c : Client) (m : MemClient) (w : WalkClient) : Bits :=
  let b := writeBit b (memOutBase c + 0) (!m.pending && !m.inflight)
  let b := writeBit b (memOutBase c + 1) m.respValid
  let b := writeUint b (memOutBase c + 2) 32 m.respData
  let b := writeBit b (walkOutBase c + 0) (!w.pending && !w.inflight)
  let b := writeBit b (walkOutBase c + 1) w.respValid
  let b := writeBit b (walkOutBase c + 2) w.resp.fault
  let b := writeUint b (walkOutBase c + 3) 32 w.resp.vaddr
  let b := writeUint b (walkOutBase c + 35) 32 w.resp.leaf
  writeUint b (walkOutBase c + 67) 8 (w.resp.level.setWidth 32)

/-- `ptw_kernel_encode_core_port_output`, PtwCompactCoreKernel.h:1016-1068. -/
def encodeOut (b : Bits) (s : KState) : Bits :=
  let b := clearBits b outWidth
  let b := encodeClientOut b .dtlb s.mem.d s.walk.d
  let b := encodeClientOut b .itlb s.mem.i s.walk.i
  let b := writeBit b (arbOutBase + 33) s.mem.d.pending
  let b := writeBit b (arbOutBase + 34) s.mem.i.pending
  let b := writeUint b (arbOutBase + 35) 32 s.mem.d.addr
  let b := writeUint b (arbOutBase + 67) 32 s.mem.i.addr
  if !s.active then b
  else
    let req := (s.walk.get s.owner).req
    if s.phase = 1#8 then
      let b := writeBit b (arbOutBase + 0) true
      writeUint b (arbOutBase + 1) 32
        (((req.satp &&& 0x3FFFFF#32) <<< 12) + (((req.vaddr >>> 22) &&& 0x3FF#32) <<< 2))
    else if s.phase = 3#8 then
      let b := writeBit b (arbOutBase + 0) true
      writeUint b (arbOutBase + 1) 32
        ((((s.pte1 >>> 10) &&& 0x3FFFFF#32) <<< 12) + (((req.vaddr >>> 12) &&& 0x3FF#32) <<< 2))
    else b

/-- `ptw_compact_core_visible_kernel`, PtwCompactCoreKernel.h:1070-1074: the outputs, from the registered bits. -/
def visible (pi po : Bits) : Bits := encodeOut po (decodeState pi)

/-- `ptw_kernel_core_port_mem_in_base`, PtwCompactCoreKernel.h:298-300. -/
def cMemInBase (c : Client) : Nat := idx c * 32
/-- `ptw_kernel_core_port_walk_in_base`, PtwCompactCoreKernel.h:302-305. -/
def cWalkInBase (c : Client) : Nat := 2 * 32 + idx c * 45
/-- `ptw_kernel_core_port_grant_in_base`, PtwCompactCoreKernel.h:307-310. -/
def cGrantBase : Nat := 2 * 32 + 2 * 45
/-- `ptw_kernel_core_port_event_in_base`, PtwCompactCoreKernel.h:312-316, for the only slot. -/
def cEventBase : Nat := cGrantBase + (3 + 64)
/-- `ptw_kernel_core_port_wakeup_in_base`, PtwCompactCoreKernel.h:318-323. -/
def cWakeBase : Nat := cGrantBase + (3 + 64) + (35 + 64)
/-- `PTW_COMPACT_CORE_KERNEL_CORE_PORT_IN_WIDTH`, PtwCompactCoreKernel.h:61-67. -/
def cInWidth : Nat := 2 * 32 + 2 * 45 + (3 + 64) + (35 + 64) + 3

/-- `ptw_kernel_top_external_mem_in_base`, PtwCompactCoreKernel.h:339-341. -/
def tMemBase (c : Client) : Nat := idx c * 34
/-- `ptw_kernel_top_external_walk_in_base`, PtwCompactCoreKernel.h:343-346. -/
def tWalkBase (c : Client) : Nat := 2 * 34 + idx c * 99
/-- `ptw_kernel_top_external_grant_in_base`, PtwCompactCoreKernel.h:348-351. -/
def tGrantBase : Nat := 2 * 34 + 2 * 99
/-- `ptw_kernel_top_external_event_count_base`, PtwCompactCoreKernel.h:353-356. -/
def tCountBase : Nat := tGrantBase + (3 + 64)
/-- `ptw_kernel_top_external_event_in_base`, PtwCompactCoreKernel.h:358-362. -/
def tEventBase (slot : Nat) : Nat := tCountBase + 8 + slot * (69 + 64)
/-- `ptw_kernel_top_external_wakeup_in_base`, PtwCompactCoreKernel.h:364-369; `n`: the number of event slots. -/
def tWakeBase (n : Nat) : Nat := tCountBase + 8 + n * (69 + 64)
/-- `PTW_COMPACT_CORE_KERNEL_TOP_EXTERNAL_INPUT_WIDTH`, PtwCompactCoreKernel.h:85-92. -/
def tInWidth (n : Nat) : Nat := 2 * 34 + 2 * 99 + (3 + 64) + 8 + n * (69 + 64) + 3

/-- One client's ports in `ptw_kernel_encode_core_port_input_from_top_external`, PtwCompactCoreKernel.h:1081-1105. -/
def glueClient (b pi : Bits) (c : Client) : Bits :=
  let b := writeBit b (cMemInBase c + 0) (pi (tMemBase c + 0))
  let b := writeUint b (cMemInBase c + 1) 30 (readUint pi (tMemBase c + 1) 32 >>> 2)
  let b := writeBit b (cMemInBase c + 31) (pi (tMemBase c + 33))
  let b := writeBit b (cWalkInBase c + 0) (pi (tWalkBase c + 0))
  let b := writeUint b (cWalkInBase c + 1) 20 ((readUint pi (tWalkBase c + 1) 32 >>> 12) &&& 0xFFFFF#32)
  let b := writeUint b (cWalkInBase c + 21) 22 (readUint pi (tWalkBase c + 33) 32 &&& 0x3FFFFF#32)
  let b := writeBit b (cWalkInBase c + 43) (pi (tWalkBase c + 97))
  writeBit b (cWalkInBase c + 44) (pi (tWalkBase c + 98))

/-- `selected_event`, PtwCompactCoreKernel.h:1112-1124: the first valid event among the counted slots. -/
def selected (n : Nat) (pi : Bits) : Option Nat :=
  (List.range n).find? fun i => decide (i < (readUint pi tCountBase 8).toNat) && pi (tEventBase i + 0)

/-- `ptw_kernel_encode_core_port_input_from_top_external`, PtwCompactCoreKernel.h:1076-1145. -/
def glueIn (n : Nat) (b pi : Bits) : Bits :=
  let b := clearBits b cInWidth
  let b := glueClient b pi .dtlb
  let b := glueClient b pi .itlb
  let b := copyBits b cGrantBase pi tGrantBase (3 + 64)
  let b := match selected n pi with
    | none => b
    | some i =>
      let b := writeBit b (cEventBase + 0) true
      let b := copyBits b (cEventBase + 1) pi (tEventBase i + 1) 2
      let b := writeUint b (cEventBase + 3) 30 (packPte (readUint pi (tEventBase i + 3) 32))
      let b := copyBits b (cEventBase + 33) pi (tEventBase i + 35) 2
      copyBits b (cEventBase + 35) pi (tEventBase i + 69) 64
  copyBits b cWakeBase pi (tWakeBase n) 3

/-- `ptw_top_glue_kernel`, PtwCompactCoreKernel.h:1147-1155: external inputs to core inputs, core outputs to external
outputs. -/
def topGlue (n : Nat) (pi po : Bits) : Bits :=
  let po := clearBits po (cInWidth + outWidth)
  let po := glueIn n po pi
  copyBits po cInWidth pi (tInWidth n) outWidth

end Verif.PtwKernel

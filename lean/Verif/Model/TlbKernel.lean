import Verif.Model.Tlb

/-
The bit-packed translation function that a TLB runs (back-end/Lsu/include/TlbMmuKernel.h) and its caller
(`run_top_via_io_generator`, back-end/Lsu/TlbMmu.cpp:1013-1027): the inputs are written into an array of bits, the
function reads them back, translates, and writes its outputs into a second array, which the caller reads back.

An array written from its beginning is the list of the bits written so far; the length of the list is the position
of the cursor.  Reading past what was written is `none`.

Simplifications: a `uint32_t` that is only ever written as one bit and read back as one (a flag, and the level of an
entry or of a response) is a `Bool`; every other field of the function is a 32-bit number as in the code, and the
narrower C types that the caller keeps it in are 32-bit numbers too.  `wire<8> leaf_level` of a response is 0 or 1
(Model/Ptw).  The number of ports is at most 16 (`ports[16]`, TlbMmuKernel.h:1442; checked in Props/TlbKernel).
-/
namespace Verif.TlbKernel

/-- What has been written into a `bool *`. -/
abbrev Bits := List Bool

/-- A reader: `none` when it runs past the end. -/
abbrev Reader := StateT Bits Option

/-- `tlb_kernel_slot_width`, TlbMmuKernel.h:191-200; the loop of `value`. -/
def slotLoop : Nat → Nat → Nat
  | 0, _ => 0
  | fuel + 1, v => if v > 0 then slotLoop fuel (v / 2) + 1 else 0

/-- `tlb_kernel_slot_width`, TlbMmuKernel.h:191-200. -/
def slotWidth (entries : Nat) : Nat := slotLoop entries ((if entries > 0 then entries else 1) - 1)

/-- `clog2`, include/config.h:14-19; the loop of `res`. -/
def clogLoop (n : Nat) : Nat → Nat → Nat
  | 0, res => res
  | fuel + 1, res => if n > 2 ^ res then clogLoop n fuel (res + 1) else res

/-- `TlbMmu::slot_width`, TlbMmu.h:204-206, with `clog2`, include/config.h:14-19. -/
def slotWidthOf (entries : Nat) : Nat := if entries ≤ 1 then 0 else clogLoop entries entries 0

/-- `tlb_kernel_write_bit`, TlbMmuKernel.h:239-242; `BitWriter::bit`, TlbMmu.cpp:46. -/
def putBit (b : Bool) : Bits := [b]

/-- `tlb_kernel_write_uint`, TlbMmuKernel.h:232-237; `BitWriter::uint`, TlbMmu.cpp:48-52. -/
def putUint (v : BitVec 32) (width : Nat) : Bits := (List.range width).map v.getLsbD

/-- `tlb_kernel_read_bit`, TlbMmuKernel.h:227-230; `BitReader::bit`, TlbMmu.cpp:60. -/
def getBit : Reader Bool := fun bs =>
  match bs with
  | [] => none
  | b :: r => some (b, r)

/-- The loop of `getUint` from bit `i` on. -/
def getFrom (i : Nat) : Nat → BitVec 32 → Reader (BitVec 32)
  | 0, v, bs => some (v, bs)
  | _ + 1, _, [] => none
  | n + 1, v, b :: bs => getFrom (i + 1) n (if b then v ||| (1#32 <<< i) else v) bs

/-- `tlb_kernel_read_uint`, TlbMmuKernel.h:216-225; `BitReader::uint`, TlbMmu.cpp:62-70. -/
def getUint (width : Nat) : Reader (BitVec 32) := getFrom 0 width 0#32

/-- `tlb_kernel_pack_pte_payload`, TlbMmuKernel.h:244-246; TlbMmu.cpp:73-75. -/
def packPte (pte : BitVec 32) : BitVec 32 := (((pte >>> 10) &&& 0x3FFFFF#32) <<< 8) ||| (pte &&& 0xFF#32)
/-- `tlb_kernel_unpack_pte_payload`, TlbMmuKernel.h:248-250; TlbMmu.cpp:77-79. -/
def unpackPte (p : BitVec 32) : BitVec 32 := ((p >>> 8) <<< 10) ||| (p &&& 0xFF#32)

/-- `TlbKernelEntry`, TlbMmuKernel.h:60-69; `TlbMmu::TlbEntry`, TlbMmu.h:60-69. -/
structure KEntry where
  valid : Bool := false
  global : Bool := false
  asid : BitVec 32 := 0#32
  level : Bool := false
  vpn1 : BitVec 32 := 0#32
  vpn0 : BitVec 32 := 0#32
  ppn : BitVec 32 := 0#32
  perm : BitVec 32 := 0#32
  deriving DecidableEq, Repr

/-- `TlbKernelLookup`, TlbMmuKernel.h:71-74; `TlbMmu::LookupOutput`. -/
structure KLookup where
  hit : Bool := false
  entry : KEntry := {}
  deriving DecidableEq, Repr

/-- `TlbKernelWalkRegs`, TlbMmuKernel.h:76-85; `TlbMmu::WalkRegs`. -/
structure KWalk where
  active : Bool := false
  sent : Bool := false
  vaddr : BitVec 32 := 0#32
  type : BitVec 32 := 0#32
  satp : BitVec 32 := 0#32
  eff : BitVec 32 := 0#32
  mxr : Bool := false
  sum : Bool := false
  deriving DecidableEq, Repr

/-- `TlbKernelRefill`, TlbMmuKernel.h:87-92; `TlbMmu::PendingRefill`. -/
structure KRefill where
  valid : Bool := false
  entry : KEntry := {}
  slot : BitVec 32 := 0#32
  next : BitVec 32 := 0#32
  deriving DecidableEq, Repr

/-- `TlbKernelWalkResp`, TlbMmuKernel.h:94-99; `PtwWalkResp`. -/
structure KResp where
  fault : Bool := false
  vaddr : BitVec 32 := 0#32
  pte : BitVec 32 := 0#32
  level : Bool := false
  deriving DecidableEq, Repr

/-- `TlbKernelWalkReq`, TlbMmuKernel.h:101-106; `walk_req_valid` and `PtwWalkReq`. -/
structure KReq where
  valid : Bool := false
  vaddr : BitVec 32 := 0#32
  satp : BitVec 32 := 0#32
  type : BitVec 32 := 0#32
  deriving DecidableEq, Repr

/-- The port of the walker as the function sees it. -/
structure KView where
  ready : Bool := false
  respValid : Bool := false
  resp : KResp := {}
  deriving DecidableEq, Repr

/-- `TlbKernelCoreInput`, TlbMmuKernel.h:117-135. -/
structure CoreIn where
  valid : Bool
  vaddr : BitVec 32
  type : BitVec 32
  satp : BitVec 32
  priv : BitVec 32
  mxr : Bool
  sum : Bool
  mprv : Bool
  mpp : BitVec 32
  lookup : KLookup
  walk : KWalk
  refill : KRefill
  repl : BitVec 32
  cap : BitVec 32
  view : KView

/-- `TlbKernelTopPortOutput`, TlbMmuKernel.h:181-189: the part of a lane's output that a port hands out. -/
structure PortOut where
  valid : Bool := false
  result : BitVec 32 := 0#32
  paddr : BitVec 32 := 0#32
  reason : BitVec 32 := 0#32
  source : BitVec 32 := 0#32
  level : BitVec 32 := 0xFF#32
  perm : BitVec 32 := 0#32
  deriving DecidableEq, Repr

/-- `TlbKernelCoreOutput`, TlbMmuKernel.h:165-177. -/
structure CoreOut where
  port : PortOut := {}
  walk : KWalk
  refill : KRefill
  req : KReq := {}
  consumed : Bool := false

/-! ## Fields into bits and back

The caller's functions (TlbMmu.cpp:81-202) write and read the same fields in the same order as the kernel's
(TlbMmuKernel.h:256-371); one definition stands for both, with the width of a slot as a parameter because the two
compute it differently. -/

/-- `encode_entry`, TlbMmu.cpp:81-90; `tlb_kernel_encode_entry`, TlbMmuKernel.h:256-266. -/
def putEntry (e : KEntry) : Bits :=
  putBit e.valid ++ putBit e.global ++ putUint e.asid 9 ++ putBit e.level ++ putUint e.vpn1 10 ++ putUint e.vpn0 10
    ++ putUint e.ppn 22 ++ putUint e.perm 8

/-- `decode_entry`, TlbMmu.cpp:92-103; `tlb_kernel_decode_entry`, TlbMmuKernel.h:268-280. -/
def getEntry : Reader KEntry := do
  let valid ← getBit
  let global ← getBit
  let asid ← getUint 9
  let level ← getBit
  let vpn1 ← getUint 10
  let vpn0 ← getUint 10
  let ppn ← getUint 22
  let perm ← getUint 8
  return { valid, global, asid, level, vpn1, vpn0, ppn, perm }

/-- `encode_lookup_resp`, TlbMmu.cpp:105-108. -/
def putLookup (l : KLookup) : Bits := putBit l.hit ++ putEntry l.entry

/-- `tlb_kernel_decode_lookup`, TlbMmuKernel.h:282-288. -/
def getLookup : Reader KLookup := do
  let hit ← getBit
  let entry ← getEntry
  return { hit, entry }

/-- `encode_walk_regs`, TlbMmu.cpp:117-126; `tlb_kernel_encode_walk_regs`, TlbMmuKernel.h:310-321. -/
def putWalk (w : KWalk) : Bits :=
  putBit w.active ++ putBit w.sent ++ putUint w.vaddr 32 ++ putUint w.type 2 ++ putUint w.satp 32 ++ putUint w.eff 2
    ++ putBit w.mxr ++ putBit w.sum

/-- `decode_walk_regs`, TlbMmu.cpp:128-139; `tlb_kernel_decode_walk_regs`, TlbMmuKernel.h:296-308. -/
def getWalk : Reader KWalk := do
  let active ← getBit
  let sent ← getBit
  let vaddr ← getUint 32
  let type ← getUint 2
  let satp ← getUint 32
  let eff ← getUint 2
  let mxr ← getBit
  let sum ← getBit
  return { active, sent, vaddr, type, satp, eff, mxr, sum }

/-- `encode_refill`, TlbMmu.cpp:141-148; `tlb_kernel_encode_refill`, TlbMmuKernel.h:334-342; `sw`: the width of a slot. -/
def putRefill (sw : Nat) (r : KRefill) : Bits :=
  putBit r.valid ++ putEntry r.entry ++ putUint r.slot sw ++ putUint r.next sw

/-- `decode_refill`, TlbMmu.cpp:150-158; `tlb_kernel_decode_refill`, TlbMmuKernel.h:323-332. -/
def getRefill (sw : Nat) : Reader KRefill := do
  let valid ← getBit
  let entry ← getEntry
  let slot ← getUint sw
  let next ← getUint sw
  return { valid, entry, slot, next }

/-- `encode_walk_port_view`, TlbMmu.cpp:160-168. -/
def putView (v : KView) : Bits :=
  putBit v.ready ++ putBit v.respValid ++ putBit v.resp.fault ++ putUint (v.resp.vaddr >>> 12) 20
    ++ putUint (packPte v.resp.pte) 30 ++ putBit v.resp.level

/-- `tlb_kernel_decode_walk_port_view`, TlbMmuKernel.h:344-355. -/
def getView : Reader KView := do
  let ready ← getBit
  let respValid ← getBit
  let fault ← getBit
  let page ← getUint 20
  let payload ← getUint 30
  let level ← getBit
  return { ready, respValid, resp := { fault, vaddr := page <<< 12, pte := unpackPte payload, level } }

/-- `tlb_kernel_encode_walk_req`, TlbMmuKernel.h:357-364. -/
def putReq (r : KReq) : Bits := putBit r.valid ++ putUint r.vaddr 32 ++ putUint r.satp 32 ++ putUint r.type 2

/-- `decode_walk_req`, TlbMmu.cpp:187-192. -/
def getReq : Reader KReq := do
  let valid ← getBit
  let vaddr ← getUint 32
  let satp ← getUint 32
  let type ← getUint 2
  return { valid, vaddr, satp, type }

/-- `tlb_kernel_encode_top_port_output`, TlbMmuKernel.h:1212-1221. -/
def putPort (p : PortOut) : Bits :=
  putBit p.valid ++ putUint p.result 2 ++ putUint p.paddr 32 ++ putUint p.reason 3 ++ putUint p.source 3
    ++ putUint p.level 8 ++ putUint p.perm 8

/-- `decode_top_port_output`, TlbMmu.cpp:341-351. -/
def getPort : Reader PortOut := do
  let valid ← getBit
  let result ← getUint 2
  let paddr ← getUint 32
  let reason ← getUint 3
  let source ← getUint 3
  let level ← getUint 8
  let perm ← getUint 8
  return { valid, result, paddr, reason, source, level, perm }

/-! ## The translation of one lane -/

/-- `tlb_kernel_compose_paddr`, TlbMmuKernel.h:568-575. -/
def composePaddr (v : BitVec 32) (e : KEntry) : BitVec 32 :=
  if e.level then ((e.ppn <<< 12) &&& ~~~0x3FFFFF#32) ||| (v &&& 0x3FFFFF#32)
  else (e.ppn <<< 12) ||| (v &&& 0xFFF#32)

/-- `tlb_kernel_check_perm`, TlbMmuKernel.h:577-614. -/
def checkPerm (perm type eff : BitVec 32) (sum mxr : Bool) : Bool :=
  let r := perm &&& 2#32 != 0#32
  let w := perm &&& 4#32 != 0#32
  let x := perm &&& 8#32 != 0#32
  let u := perm &&& 16#32 != 0#32
  let a := perm &&& 64#32 != 0#32
  let d := perm &&& 128#32 != 0#32
  if type == 0#32 && !x then false
  else if type == 1#32 && !r && !(mxr && x) then false
  else if type == 2#32 && !w then false
  else if eff == 0#32 && !u then false
  else if eff == 1#32 && u && (type == 0#32 || !sum) then false
  else if !a then false
  else if type == 2#32 && !d then false
  else true

/-- `tlb_kernel_sv32_asid`, TlbMmuKernel.h:252-254. -/
def asidOf (satp : BitVec 32) : BitVec 32 := (satp >>> 22) &&& 0x1FF#32

/-- `tlb_kernel_entry_matches`, TlbMmuKernel.h:627-643. -/
def entryMatches (e : KEntry) (v asid : BitVec 32) : Bool :=
  if !e.valid then false
  else if !(e.global || e.asid == asid) then false
  else
    let vpn1 := (v >>> 22) &&& 0x3FF#32
    let vpn0 := (v >>> 12) &&& 0x3FF#32
    if e.vpn1 != vpn1 then false
    else e.level || e.vpn0 == vpn0

/-- `eff_priv`, TlbMmuKernel.h:1026-1029. -/
def effPriv (i : CoreIn) : BitVec 32 :=
  if i.type != 0#32 && i.mprv then i.mpp &&& 3#32 else i.priv &&& 3#32

/-- `hit`, TlbMmuKernel.h:1039-1049. -/
def hitOf (i : CoreIn) : Option KEntry :=
  if i.refill.valid && entryMatches i.refill.entry i.vaddr (asidOf i.satp) then some i.refill.entry
  else if i.lookup.hit then some i.lookup.entry
  else none

/-- A level as it is traced. -/
def lvl (b : Bool) : BitVec 32 := if b then 1#32 else 0#32

/-- The walk the request continues or begins; `none`: another walk is active (TlbMmuKernel.h:1069-1091). -/
def ownWalk (i : CoreIn) : Option KWalk :=
  if !i.walk.active then
    some { active := true, sent := false, vaddr := i.vaddr, type := i.type, satp := i.satp, eff := effPriv i, mxr := i.mxr, sum := i.sum }
  else if i.walk.vaddr >>> 12 != i.vaddr >>> 12 || i.walk.satp != i.satp then none
  else some i.walk

/-- The refill after a successful walk, TlbMmuKernel.h:1151-1166. -/
def refillOf (i : CoreIn) : KRefill :=
  let slot := i.repl % i.cap
  let wr := i.view.resp
  { valid := true, slot := slot, next := (slot + 1#32) % i.cap
    entry := { valid := true, global := wr.pte &&& 32#32 != 0#32, asid := asidOf i.satp, level := wr.level
               vpn1 := (i.vaddr >>> 22) &&& 0x3FF#32, vpn0 := (i.vaddr >>> 12) &&& 0x3FF#32
               ppn := (wr.pte >>> 10) &&& 0x3FFFFF#32, perm := wr.pte &&& 0xFF#32 } }

/-- The end of `tlb_kernel_core_comb`, for a walk whose response is there: TlbMmuKernel.h:1123-1170. -/
def coreEnd (i : CoreIn) (w : KWalk) : CoreOut :=
  let wr := i.view.resp
  if wr.vaddr >>> 12 != w.vaddr >>> 12 then
    { port := { valid := true, result := 2#32, reason := 3#32, source := 4#32 }, walk := w, refill := i.refill, consumed := true }
  else
    let perm := wr.pte &&& 0xFF#32
    if wr.fault || !checkPerm perm i.type (effPriv i) i.sum i.mxr then
      { port := { valid := true, result := 1#32, source := 4#32, level := lvl wr.level, perm := perm }, walk := {}, refill := i.refill
        consumed := true }
    else
      { port := { valid := true, paddr := composePaddr i.vaddr (refillOf i).entry, source := 4#32, level := lvl wr.level, perm := perm }
        walk := {}, refill := refillOf i, consumed := true }

/-- `tlb_kernel_core_comb`, TlbMmuKernel.h:1002-1170. -/
def coreComb (i : CoreIn) : CoreOut :=
  if !i.valid then { walk := i.walk, refill := i.refill }
  else if effPriv i == 3#32 || i.satp &&& 0x80000000#32 == 0#32 then
    { port := { valid := true, paddr := i.vaddr, source := 1#32 }, walk := i.walk, refill := i.refill }
  else
    match hitOf i with
    | some hit =>
      let perm := hit.perm &&& 0xFF#32
      if !checkPerm perm i.type (effPriv i) i.sum i.mxr then
        { port := { valid := true, result := 1#32, source := 3#32, level := lvl hit.level, perm := perm }, walk := i.walk, refill := i.refill }
      else
        { port := { valid := true, paddr := composePaddr i.vaddr hit, source := 2#32, level := lvl hit.level, perm := perm }
          walk := i.walk, refill := i.refill }
    | none =>
      match ownWalk i with
      | none => { port := { valid := true, result := 2#32, reason := 1#32, source := 4#32 }, walk := i.walk, refill := i.refill }
      | some w =>
        if !w.sent then
          if !i.view.ready then
            { port := { valid := true, result := 2#32, reason := 2#32, source := 4#32 }, walk := w, refill := i.refill }
          else
            { port := { valid := true, result := 2#32, reason := 3#32, source := 4#32 }, walk := { w with sent := true }, refill := i.refill
              req := { valid := true, vaddr := w.vaddr, satp := w.satp, type := w.type } }
        else if !i.view.respValid then
          { port := { valid := true, result := 2#32, reason := 3#32, source := 4#32 }, walk := w, refill := i.refill }
        else coreEnd i w

/-! ## All ports -/

/-- A port of `TlbMmu::TopInput`, TlbMmu.h:146-151, without its type: the type is not written into the array. -/
structure PortIn where
  valid : Bool := false
  vaddr : BitVec 32 := 0#32
  lookup : KLookup := {}
  deriving DecidableEq, Repr

/-- `TlbMmu::TopInput`, TlbMmu.h:163-186. -/
structure TopIn where
  flush : Bool := false
  cancel : Bool := false
  satp : BitVec 32 := 0#32
  priv : BitVec 32 := 0#32
  mxr : Bool := false
  sum : Bool := false
  mprv : Bool := false
  mpp : BitVec 32 := 0#32
  walk : KWalk := {}
  refill : KRefill := {}
  repl : BitVec 32 := 0#32
  view : KView := {}
  ports : List PortIn := []

/-- `TlbMmu::TopOutput`, TlbMmu.h:188-198. -/
structure TopOut where
  tableFlush : Bool := false
  walk : KWalk := {}
  refill : KRefill := {}
  req : KReq := {}
  consumed : Bool := false
  clientFlush : Bool := false
  ports : List PortOut := []
  deriving DecidableEq, Repr

/-- `encode_top_input_bits`, TlbMmu.cpp:281-303. -/
def putTopIn (sw : Nat) (i : TopIn) : Bits :=
  putBit i.flush ++ putBit i.cancel ++ putUint i.satp 32 ++ putUint i.priv 2 ++ putBit i.mxr ++ putBit i.sum ++ putBit i.mprv
    ++ putUint i.mpp 2 ++ putWalk i.walk ++ putRefill sw i.refill ++ putUint i.repl sw ++ putView i.view
    ++ i.ports.flatMap (fun p => putBit p.valid ++ putUint p.vaddr 32 ++ putLookup p.lookup)

/-- `tlb_kernel_decode_top_port_input`, TlbMmuKernel.h:1201-1210, without the type. -/
def getPortIn : Reader PortIn := do
  let valid ← getBit
  let vaddr ← getUint 32
  let lookup ← getLookup
  return { valid, vaddr, lookup }

/-- The same reader `n` times. -/
def getMany (g : Reader α) : Nat → Reader (List α)
  | 0 => return []
  | n + 1 => do
    let a ← g
    let l ← getMany g n
    return a :: l

/-- The reading part of `tlb_kernel_top_io_generator`, TlbMmuKernel.h:1417-1446. -/
def getTopIn (sw ports : Nat) : Reader TopIn := do
  let flush ← getBit
  let cancel ← getBit
  let satp ← getUint 32
  let priv ← getUint 2
  let mxr ← getBit
  let sum ← getBit
  let mprv ← getBit
  let mpp ← getUint 2
  let walk ← getWalk
  let refill ← getRefill sw
  let repl ← getUint sw
  let view ← getView
  let ports ← getMany getPortIn ports
  return { flush, cancel, satp, priv, mxr, sum, mprv, mpp, walk, refill, repl, view, ports }

/-- The type of a port, TlbMmuKernel.h:1207: the instruction TLB fetches; a data TLB's first `ldu` ports load, the others
store. -/
def portType (dtlb : Bool) (ldu k : Nat) : BitVec 32 := if dtlb then (if k < ldu then 1#32 else 2#32) else 0#32

/-- The running values of the loop, TlbMmuKernel.h:1487-1490. -/
structure Acc where
  walk : KWalk
  refill : KRefill
  view : KView
  req : KReq := {}
  consumed : Bool := false

/-- The input of a lane, TlbMmuKernel.h:1493-1510. -/
def laneIn (cap : Nat) (t : BitVec 32) (i : TopIn) (a : Acc) (p : PortIn) : CoreIn :=
  { valid := p.valid, vaddr := p.vaddr, type := t, satp := i.satp, priv := i.priv, mxr := i.mxr, sum := i.sum, mprv := i.mprv
    mpp := i.mpp, lookup := p.lookup, walk := a.walk, refill := a.refill, repl := i.repl
    cap := BitVec.ofNat 32 (if cap > 0 then cap else 1), view := a.view }

/-- What the loop does with a lane's output, TlbMmuKernel.h:1521-1532; `out_walk_req.valid` is `out_walk_req_valid`, TlbMmuKernel.h:1538. -/
def Acc.next (a : Acc) (o : CoreOut) : Acc :=
  let view := if o.req.valid then { a.view with ready := false, respValid := false } else a.view
  { walk := o.walk, refill := o.refill
    view := if o.consumed then { view with respValid := false } else view
    req := if o.req.valid then o.req else a.req
    consumed := a.consumed || o.consumed }

/-- The loop, TlbMmuKernel.h:1492-1533; `k`: the number of the first port. -/
def topLoop (cap : Nat) (dtlb : Bool) (ldu : Nat) (i : TopIn) : Nat → Acc → List PortIn → Acc × List PortOut
  | _, a, [] => (a, [])
  | k, a, p :: ps =>
    let o := coreComb (laneIn cap (portType dtlb ldu k) i a p)
    let r := topLoop cap dtlb ldu i (k + 1) (a.next o) ps
    (r.1, o.port :: r.2)

/-- The translating part of `tlb_kernel_top_io_generator`, TlbMmuKernel.h:1448-1540. -/
def topComb (cap : Nat) (dtlb : Bool) (ldu : Nat) (i : TopIn) : TopOut :=
  if i.flush then { tableFlush := true, clientFlush := true, ports := i.ports.map (fun _ => {}) }
  else if i.cancel then { refill := i.refill, clientFlush := true, ports := i.ports.map (fun _ => {}) }
  else
    let r := topLoop cap dtlb ldu i 0 { walk := i.walk, refill := i.refill, view := i.view } i.ports
    { walk := r.1.walk, refill := r.1.refill, req := r.1.req, consumed := r.1.consumed, ports := r.2 }

/-- The writing part of `tlb_kernel_top_io_generator`, TlbMmuKernel.h:1462-1472, 1478-1487, 1535-1544. -/
def putTopOut (sw : Nat) (o : TopOut) : Bits :=
  putBit o.tableFlush ++ putWalk o.walk ++ putRefill sw o.refill ++ putReq o.req ++ putBit o.consumed ++ putBit o.clientFlush
    ++ o.ports.flatMap putPort

/-- `decode_top_output_bits`, TlbMmu.cpp:367-385. -/
def getTopOut (sw ports : Nat) : Reader TopOut := do
  let tableFlush ← getBit
  let walk ← getWalk
  let refill ← getRefill sw
  let req ← getReq
  let consumed ← getBit
  let clientFlush ← getBit
  let ports ← getMany getPort ports
  return { tableFlush, walk, refill, req, consumed, clientFlush, ports }

/-- `tlb_kernel_top_io_generator`, TlbMmuKernel.h:1414-1544: from bits to bits.  Its arrays of ports have sixteen places
(TlbMmuKernel.h:1437, 1491); with more ports it writes past their end: `none`. -/
def generator (entries : Nat) (dtlb : Bool) (ldu ports : Nat) (pi : Bits) : Option Bits :=
  if ports > 16 then none else ((getTopIn (slotWidth entries) ports).run pi).map (fun r => putTopOut (slotWidth entries) (topComb entries dtlb ldu r.1))

/-- `run_top_via_io_generator`, TlbMmu.cpp:1013-1027. -/
def runPacked (entries : Nat) (dtlb : Bool) (ldu ports : Nat) (i : TopIn) : Option TopOut :=
  (generator entries dtlb ldu ports (putTopIn (slotWidthOf entries) i)).bind (fun po =>
    ((getTopOut (slotWidthOf entries) ports).run po).map (·.1))

/-- `TlbMmu::top_pi_width`, TlbMmu.h:225-232 and 222-227: the length of the input array. -/
def topPiWidth (entries ports : Nat) : Nat :=
  1 + 1 + 32 + 2 + 1 + 1 + 1 + 2 + 72 + (1 + 62 + 2 * slotWidthOf entries) + slotWidthOf entries + 54 + ports * (1 + 32 + 63)

/-- `TlbMmu::top_po_width`, TlbMmu.h:233-242: the length of the output array. -/
def topPoWidth (entries ports : Nat) : Nat :=
  1 + 72 + (1 + 62 + 2 * slotWidthOf entries) + 67 + 1 + 1 + ports * (1 + 2 + 32 + 3 + 3 + 8 + 8)

/-! ## The pieces

`tlb_kernel_core_output_mapper_comb` and `tlb_kernel_build_core_output_mapper_input`: a lane with its comparisons done
beforehand. -/

/-- `TlbKernelCoreOutputMapperInput`, TlbMmuKernel.h:137-163. -/
structure MapIn where
  valid : Bool
  vaddr : BitVec 32
  type : BitVec 32
  satp : BitVec 32
  eff : BitVec 32
  mxr : Bool
  sum : Bool
  walk : KWalk
  refill : KRefill
  ready : Bool
  respValid : Bool
  respFault : Bool
  pageMatch : Bool
  respPpn : BitVec 32
  respPerm : BitVec 32
  respLevel : Bool
  hitValid : Bool
  hitPermOk : Bool
  hitPaddr : BitVec 32
  hitLevel : Bool
  hitPerm : BitVec 32
  respPermOk : Bool
  sameRequest : Bool
  slot : BitVec 32
  next : BitVec 32

/-- `tlb_kernel_build_core_output_mapper_input`, TlbMmuKernel.h:940-1000. -/
def mapIn (i : CoreIn) : MapIn :=
  let hit := (hitOf i).getD {}
  { valid := i.valid, vaddr := i.vaddr, type := i.type, satp := i.satp, eff := effPriv i, mxr := i.mxr, sum := i.sum
    walk := i.walk, refill := i.refill, ready := i.view.ready, respValid := i.view.respValid, respFault := i.view.resp.fault
    pageMatch := i.view.resp.vaddr >>> 12 == i.walk.vaddr >>> 12
    respPpn := (i.view.resp.pte >>> 10) &&& 0x3FFFFF#32, respPerm := i.view.resp.pte &&& 0xFF#32, respLevel := i.view.resp.level
    hitValid := (hitOf i).isSome
    hitPermOk := (hitOf i).isSome && checkPerm (hit.perm &&& 0xFF#32) i.type (effPriv i) i.sum i.mxr
    hitPaddr := composePaddr i.vaddr hit, hitLevel := hit.level, hitPerm := hit.perm &&& 0xFF#32
    respPermOk := checkPerm (i.view.resp.pte &&& 0xFF#32) i.type (effPriv i) i.sum i.mxr
    sameRequest := i.walk.vaddr >>> 12 == i.vaddr >>> 12 && i.walk.satp == i.satp
    slot := i.repl % i.cap, next := (i.repl % i.cap + 1#32) % i.cap }

/-- `tlb_kernel_core_output_mapper_comb`, TlbMmuKernel.h:793-929. -/
def mapComb (i : MapIn) : CoreOut :=
  if !i.valid then { walk := i.walk, refill := i.refill }
  else if i.eff == 3#32 || i.satp &&& 0x80000000#32 == 0#32 then
    { port := { valid := true, paddr := i.vaddr, source := 1#32 }, walk := i.walk, refill := i.refill }
  else if i.hitValid then
    if !i.hitPermOk then
      { port := { valid := true, result := 1#32, source := 3#32, level := lvl i.hitLevel, perm := i.hitPerm &&& 0xFF#32 }, walk := i.walk
        refill := i.refill }
    else
      { port := { valid := true, paddr := i.hitPaddr, source := 2#32, level := lvl i.hitLevel, perm := i.hitPerm &&& 0xFF#32 }
        walk := i.walk, refill := i.refill }
  else if i.walk.active && !i.sameRequest then
    { port := { valid := true, result := 2#32, reason := 1#32, source := 4#32 }, walk := i.walk, refill := i.refill }
  else
    let w : KWalk := if !i.walk.active then
        { active := true, sent := false, vaddr := i.vaddr, type := i.type, satp := i.satp, eff := i.eff, mxr := i.mxr, sum := i.sum }
      else i.walk
    if !w.sent then
      if !i.ready then { port := { valid := true, result := 2#32, reason := 2#32, source := 4#32 }, walk := w, refill := i.refill }
      else
        { port := { valid := true, result := 2#32, reason := 3#32, source := 4#32 }, walk := { w with sent := true }, refill := i.refill
          req := { valid := true, vaddr := w.vaddr, satp := w.satp, type := w.type } }
    else if !i.respValid then
      { port := { valid := true, result := 2#32, reason := 3#32, source := 4#32 }, walk := w, refill := i.refill }
    else if !i.pageMatch then
      { port := { valid := true, result := 2#32, reason := 3#32, source := 4#32 }, walk := w, refill := i.refill, consumed := true }
    else if i.respFault || !i.respPermOk then
      { port := { valid := true, result := 1#32, source := 4#32, level := lvl i.respLevel, perm := i.respPerm &&& 0xFF#32 }, walk := {}
        refill := i.refill, consumed := true }
    else
      let e : KEntry :=
        { valid := true, global := i.respPerm &&& 32#32 != 0#32, asid := asidOf i.satp, level := i.respLevel
          vpn1 := (i.vaddr >>> 22) &&& 0x3FF#32, vpn0 := (i.vaddr >>> 12) &&& 0x3FF#32
          ppn := i.respPpn &&& 0x3FFFFF#32, perm := i.respPerm &&& 0xFF#32 }
      { port := { valid := true, paddr := composePaddr i.vaddr e, source := 4#32, level := lvl i.respLevel, perm := i.respPerm &&& 0xFF#32 }
        walk := {}, refill := { valid := true, slot := i.slot, next := i.next, entry := e }, consumed := true }

end Verif.TlbKernel

import Verif.Model.Ptw

/-
A TLB (back-end/Lsu/TlbMmu.cpp, back-end/Lsu/include/TlbMmuKernel.h, and the port adapter
`MemSubsystemPtwWalkPortAdapter`, MemSubSystem/MemSubsystem.cpp:290-338).

Simplifications: the bit-packed interface between TlbMmu.cpp and TlbMmuKernel.h is left out (it is in `Model/TlbPacked`,
and C118 shows that it makes no difference), as are traces, statistics, the reason of a retry and the local walker (used only when no
shared walker is connected).  The capacity is any positive number.  A record with its `valid` flag clear is `none`.
-/
namespace Verif.Tlb
open Verif.Ptw (Req Resp View In)

/-- `TlbKernelEntry` of a valid entry; `super`: `level` is 1. -/
structure Entry where
  global : Bool
  asid : BitVec 9
  super : Bool
  vpn1 : BitVec 10
  vpn0 : BitVec 10
  ppn : BitVec 22
  perm : BitVec 8
  deriving DecidableEq, Repr

/-- `TlbKernelWalkRegs` (`active` is the surrounding `Option`). -/
structure Walk where
  sent : Bool
  vaddr : BitVec 32
  type : Nat
  satp : BitVec 32
  eff : Nat
  mxr : Bool
  sum : Bool
  deriving DecidableEq, Repr

/-- The CSR inputs of a translation (`build_top_common_input`, TlbMmu.cpp:984-1010). -/
structure Ctx where
  satp : BitVec 32
  priv : Nat
  mxr : Bool
  sum : Bool
  mprv : Bool
  mpp : Nat
  deriving DecidableEq, Repr

/-- `build_top_common_input` reads `mstatus` and the privilege. -/
def Ctx.ofCsr (mstatus satp : BitVec 32) (priv : Nat) : Ctx :=
  { satp := satp, priv := priv
    mxr := mstatus.getLsbD 19, sum := mstatus.getLsbD 18, mprv := mstatus.getLsbD 17
    mpp := ((mstatus >>> 11) &&& 3#32).toNat }

/-- `Result`. -/
inductive Result
  | ok (pa : BitVec 32)
  | fault
  | retry
  deriving DecidableEq, Repr

/-- `tlb_kernel_sv32_asid`, TlbMmuKernel.h:252-254. -/
def asidOf (satp : BitVec 32) : BitVec 9 := (satp >>> 22).setWidth 9

def vpn1Of (v : BitVec 32) : BitVec 10 := (v >>> 22).setWidth 10
def vpn0Of (v : BitVec 32) : BitVec 10 := (v >>> 12).setWidth 10

/-- `tlb_kernel_entry_matches`, TlbMmuKernel.h:627-643. -/
def Entry.hits (e : Entry) (v : BitVec 32) (asid : BitVec 9) : Bool :=
  (e.global || decide (e.asid = asid)) && decide (e.vpn1 = vpn1Of v) && (e.super || decide (e.vpn0 = vpn0Of v))

/-- `tlb_kernel_compose_paddr`, TlbMmuKernel.h:568-575. -/
def Entry.paddr (e : Entry) (v : BitVec 32) : BitVec 32 :=
  if e.super then (((e.ppn.setWidth 32) <<< 12) &&& ~~~0x3FFFFF#32) ||| (v &&& 0x3FFFFF#32)
  else ((e.ppn.setWidth 32) <<< 12) ||| (v &&& 0xFFF#32)

/-- `tlb_kernel_check_perm`, TlbMmuKernel.h:577-614. -/
def checkPerm (perm : BitVec 8) (type eff : Nat) (sum mxr : Bool) : Bool :=
  if type = 0 ∧ perm.getLsbD 3 = false then false
  else if type = 1 ∧ perm.getLsbD 1 = false ∧ ¬ (mxr = true ∧ perm.getLsbD 3 = true) then false
  else if type = 2 ∧ perm.getLsbD 2 = false then false
  else if eff = 0 ∧ perm.getLsbD 4 = false then false
  else if eff = 1 ∧ perm.getLsbD 4 = true ∧ (type = 0 ∨ sum = false) then false
  else if perm.getLsbD 6 = false then false
  else if type = 2 ∧ perm.getLsbD 7 = false then false
  else true

/-- `tlb_kernel_effective_priv`, TlbMmuKernel.h:616-625. -/
def Ctx.eff (c : Ctx) (type : Nat) : Nat :=
  if type ≠ 0 ∧ c.mprv = true then c.mpp % 4 else c.priv % 4

/-- The registers of a TLB between cycles (`tlb_entries_`, `repl_ptr_`, `walk_regs_`). -/
structure State where
  tab : Nat → Option Entry := fun _ => none
  repl : Nat := 0
  walk : Option Walk := none

/-- The constructor, TlbMmu.cpp:400-408. -/
def State.init : State := {}

/-- `lookup_table_comb`, TlbMmu.cpp:619-648: the first matching entry. -/
def lookup (cap : Nat) (tab : Nat → Option Entry) (v : BitVec 32) (asid : BitVec 9) : Option Entry :=
  (List.range cap).findSome? (fun i => (tab i).bind (fun e => if e.hits v asid then some e else none))

/-- `PendingRefill`; the next value of the replacement pointer is `(slot + 1) % capacity`. -/
structure Refill where
  slot : Nat
  entry : Entry
  deriving DecidableEq, Repr

/-- The entry built from a walk, TlbMmuKernel.h:1158-1166 and TlbMmu.cpp:1181-1197. -/
def mkEntry (v satp pte : BitVec 32) (sup : Bool) : Entry :=
  { global := pte.getLsbD 5, asid := asidOf satp, super := sup, vpn1 := vpn1Of v, vpn0 := vpn0Of v
    ppn := (pte >>> 10).setWidth 22, perm := pte.setWidth 8 }

/-- A translation request: address and access type (0 fetch, 1 load, 2 store). -/
structure Ask where
  vaddr : BitVec 32
  type : Nat
  deriving DecidableEq, Repr

/-- What one lane produces. -/
structure LaneOut where
  result : Result
  walk : Option Walk
  refill : Option Refill
  req : Option Req := none
  consumed : Bool := false

/-- The walk a request continues or begins, TlbMmuKernel.h:1063-1083; `none`: another walk is active. -/
def ownWalk (w : Option Walk) (c : Ctx) (q : Ask) : Option Walk :=
  match w with
  | none => some { sent := false, vaddr := q.vaddr, type := q.type, satp := c.satp, eff := c.eff q.type, mxr := c.mxr, sum := c.sum }
  | some w => if w.vaddr >>> 12 ≠ q.vaddr >>> 12 ∨ w.satp ≠ c.satp then none else some w

/-- The hit a request may use: the refill of this cycle first, then the table (TlbMmuKernel.h:1037-1045). -/
def hitOf (refill : Option Refill) (look : Option Entry) (v : BitVec 32) (asid : BitVec 9) : Option Entry :=
  match refill with
  | some r => if r.entry.hits v asid then some r.entry else look
  | none => look

/-- The end of a walk, TlbMmuKernel.h:1115-1170. -/
def finishWalk (cap repl : Nat) (c : Ctx) (q : Ask) (refill : Option Refill) (r : Resp) : LaneOut :=
  if r.fault then { result := .fault, walk := none, refill := refill, consumed := true }
  else if checkPerm (r.pte.setWidth 8) q.type (c.eff q.type) c.sum c.mxr = false then
    { result := .fault, walk := none, refill := refill, consumed := true }
  else
    let e := mkEntry q.vaddr c.satp r.pte r.super
    { result := .ok (e.paddr q.vaddr), walk := none, refill := some { slot := repl % cap, entry := e }, consumed := true }

/-- `tlb_kernel_core_comb` for a valid request, TlbMmuKernel.h:1002-1170; `look`: the table look-up. -/
def lane (cap repl : Nat) (c : Ctx) (q : Ask) (look : Option Entry) (walk : Option Walk) (refill : Option Refill) (v : View) : LaneOut :=
  if c.eff q.type = 3 ∨ c.satp &&& 0x80000000#32 = 0#32 then { result := .ok q.vaddr, walk := walk, refill := refill }
  else
    match hitOf refill look q.vaddr (asidOf c.satp) with
    | some e =>
      if checkPerm e.perm q.type (c.eff q.type) c.sum c.mxr then { result := .ok (e.paddr q.vaddr), walk := walk, refill := refill }
      else { result := .fault, walk := walk, refill := refill }
    | none =>
      match ownWalk walk c q with
      | none => { result := .retry, walk := walk, refill := refill }
      | some w =>
        if w.sent = false then
          if v.ready = false then { result := .retry, walk := some w, refill := refill }
          else { result := .retry, walk := some { w with sent := true }, refill := refill, req := some ⟨w.vaddr, w.satp⟩ }
        else
          match v.resp with
          | none => { result := .retry, walk := some w, refill := refill }
          | some r =>
            if r.vaddr >>> 12 ≠ w.vaddr >>> 12 then { result := .retry, walk := some w, refill := refill, consumed := true }
            else finishWalk cap repl c q refill r

/-! ## Within a cycle

`Mid` is a TLB during a cycle: what will be registered at its end (`walk`: `visible_walk_regs`), and the port
adapter with the calls made so far.  `bad`: the assertion of `apply_top_output` failed. -/

structure Mid where
  tab : Nat → Option Entry
  repl : Nat
  walk : Option Walk
  refill : Option Refill := none
  flushed : Bool := false
  view : View
  calls : In := {}
  bad : Bool := false

/-- `send_walk_req`, MemSubsystem.cpp:292-302. -/
def Mid.send (m : Mid) (r : Req) : Mid :=
  if m.view.ready = false ∨ m.calls.req.isSome = true then { m with bad := true }
  else { m with calls := { m.calls with req := some r }, view := { ready := false, resp := none } }

/-- `consume_resp`, MemSubsystem.cpp:310-314. -/
def Mid.consume (m : Mid) : Mid :=
  { m with calls := { m.calls with consumed := true }, view := { m.view with resp := none } }

/-- `flush_client`, MemSubsystem.cpp:316-321. -/
def Mid.flushClient (m : Mid) : Mid :=
  { m with calls := { m.calls with flush := true }, view := { ready := true, resp := none } }

/-- `flush`, TlbMmu.cpp:419-428 with `top_comb` and `apply_top_output`. -/
def Mid.flush (m : Mid) : Mid :=
  { m.flushClient with flushed := true, walk := none, refill := none }

/-- `schedule_refill`, TlbMmu.cpp:1181-1197. -/
def Mid.schedule (m : Mid) (w : Walk) (r : Resp) : Mid :=
  { m with refill := some { slot := m.repl, entry := mkEntry w.vaddr w.satp r.pte r.super } }

/-- The response of the walk in progress, if it has arrived (TlbMmu.cpp:1063-1071). -/
def Mid.done (m : Mid) : Option (Walk × Resp) :=
  match m.walk, m.view.resp with
  | some w, some r => if w.sent = true ∧ r.vaddr >>> 12 = w.vaddr >>> 12 then some (w, r) else none
  | _, _ => none

/-- `consume_completed_walk_refill`, TlbMmu.cpp:1058-1092, with its return value. -/
def Mid.complete (m : Mid) (consumeFault : Bool) : Mid × Bool :=
  match m.done with
  | none => (m, false)
  | some (w, r) =>
    if r.fault then (if consumeFault then (m.consume, true) else (m, false))
    else if checkPerm (r.pte.setWidth 8) w.type w.eff w.sum w.mxr then ((m.schedule w r).consume, true)
    else if consumeFault then (m.consume, true) else (m, false)

/-- `cancel_pending_walk`, TlbMmu.cpp:412-417. -/
def Mid.cancel (m : Mid) : Mid :=
  { (m.complete true).1.flushClient with walk := none }

/-- The running values of the loop of `tlb_kernel_top_io_generator`, TlbMmuKernel.h:1487-1535. -/
structure Loop where
  walk : Option Walk
  refill : Option Refill
  view : View
  req : Option Req := none
  consumed : Bool := false

/-- What the loop does with a lane's output, TlbMmuKernel.h:1522-1534. -/
def Loop.next (l : Loop) (o : LaneOut) : Loop :=
  let view := if o.req.isSome then { ready := false, resp := none } else l.view
  { walk := o.walk, refill := o.refill
    view := if o.consumed then { view with resp := none } else view
    req := if o.req.isSome then o.req else l.req
    consumed := l.consumed || o.consumed }

/-- The loop: the answer of every port (`none` for an idle one) and the final values. -/
def runLanes (cap repl : Nat) (tab : Nat → Option Entry) (c : Ctx) : Loop → List (Option Ask) → Loop × List (Option Result)
  | l, [] => (l, [])
  | l, none :: qs =>
    let r := runLanes cap repl tab c l qs
    (r.1, none :: r.2)
  | l, some q :: qs =>
    let o := lane cap repl c q (lookup cap tab q.vaddr (asidOf c.satp)) l.walk l.refill l.view
    let r := runLanes cap repl tab c (l.next o) qs
    (r.1, some o.result :: r.2)

/-- `apply_top_output`, TlbMmu.cpp:1029-1048. -/
def Mid.applyTop (m : Mid) (l : Loop) : Mid :=
  let m := match l.req with
    | some r => m.send r
    | none => m
  let m := if l.consumed then m.consume else m
  { m with walk := l.walk, refill := l.refill }

/-- `run_top_via_io_generator` and `apply_top_output` for a translation. -/
def Mid.translate (cap : Nat) (m : Mid) (c : Ctx) (qs : List (Option Ask)) : Mid × List (Option Result) :=
  let r := runLanes cap m.repl m.tab c { walk := m.walk, refill := m.refill, view := m.view } qs
  (m.applyTop r.1, r.2)

/-- `translate_lsu_ports`, TlbMmu.cpp:1094-1179. -/
def Mid.translateLsu (cap : Nat) (m : Mid) (c : Ctx) (qs : List (Option Ask)) : Mid × List (Option Result) :=
  let d := m.complete false
  let m := if d.2 then { d.1 with walk := none } else d.1
  m.translate cap c qs

/-- A cycle's beginning. -/
def State.start (s : State) (v : View) : Mid := { tab := s.tab, repl := s.repl, walk := s.walk, view := v }

/-- `TlbMmu::seq`, TlbMmu.cpp:485-506. -/
def Mid.seq (cap : Nat) (m : Mid) : State :=
  if m.flushed then {}
  else
    match m.refill with
    | some r => { tab := fun i => if i = r.slot then some r.entry else m.tab i, repl := (r.slot + 1) % cap, walk := m.walk }
    | none => { tab := m.tab, repl := m.repl, walk := m.walk }

/-- What the data TLB is told in a cycle (BackTop.cpp:185-201). -/
inductive DOp
  | fence
  | cancel
  | translate (c : Ctx) (qs : List (Option Ask))

/-- `BackTop::comb_lsu_mmu`, BackTop.cpp:185-201. -/
def dtlbCycle (cap : Nat) (m : Mid) : DOp → Mid × List (Option Result)
  | .fence => (m.flush, [])
  | .cancel => (m.cancel, [])
  | .translate c qs => m.translateLsu cap c qs

/-- What the instruction TLB is told in a cycle (`ICacheMmuReqView`). -/
structure IOp where
  flush : Bool := false
  cancel : Bool := false
  ask : Option (Ctx × BitVec 32) := none

/-- `comb_mmu_view`, ICacheTop.cpp:612-645; the access type is 0.  A request is suppressed in a cycle with a
cancellation (`translate_valid = !refetch && ...`, ICacheTop.cpp:932). -/
def itlbCycle (cap : Nat) (m : Mid) (o : IOp) : Mid × List (Option Result) :=
  let m := if o.flush then m.flush else m
  let m := if o.cancel then m.cancel else m
  match (if o.cancel then none else o.ask) with
  | some (c, v) => m.translate cap c [some ⟨v, 0⟩]
  | none => (m, [])

end Verif.Tlb

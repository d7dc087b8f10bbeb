import Verif.Model.TlbKernel

/-
A TLB as it runs (back-end/Lsu/TlbMmu.cpp): the table, the walk register and the refill in the records of
`Model/TlbKernel`, every translation, flush and cancellation through the bit-packed function.

Simplifications: the kind of an access in a request to the walker is dropped (the walker stores and never reads it);
traces and the reason of the last retry are not kept; a request that is not valid has no look-up, as in the code.
-/
namespace Verif.TlbKernel
open Verif.Tlb (Ctx Result Ask)

/-- A response as `PtwWalkResp`. -/
def KResp.of (r : Ptw.Resp) : KResp := { fault := r.fault, vaddr := r.vaddr, pte := r.pte, level := r.super }

/-- A walker port's outputs as `PtwWalkPortCombOut`; `junk`: the response of a port that has none. -/
def KView.of (junk : KResp) (v : Ptw.View) : KView :=
  { ready := v.ready, respValid := v.resp.isSome, resp := (v.resp.map KResp.of).getD junk }

/-- The registers of a TLB between cycles. -/
structure KState where
  tab : Nat → KEntry := fun _ => {}
  repl : BitVec 32 := 0#32
  walk : KWalk := {}

/-- A TLB during a cycle; `walk`: `visible_walk_regs`; `bad`: the assertion of `apply_top_output` failed. -/
structure KMid where
  tab : Nat → KEntry
  repl : BitVec 32
  walk : KWalk
  refill : KRefill := {}
  flushed : Bool := false
  view : KView
  calls : Ptw.In := {}
  bad : Bool := false

/-- A cycle's beginning. -/
def KState.start (s : KState) (v : KView) : KMid := { tab := s.tab, repl := s.repl, walk := s.walk, view := v }

/-- `lookup_table_comb`, TlbMmu.cpp:633-648, with `entry_matches`, TlbMmu.cpp:615-631. -/
def lookupTable (cap : Nat) (tab : Nat → KEntry) (v asid : BitVec 32) : KLookup :=
  match (List.range cap).find? (fun i => entryMatches (tab i) v asid) with
  | some i => { hit := true, entry := tab i }
  | none => {}

/-- `send_walk_req`, MemSubsystem.cpp:292-302. -/
def KMid.send (m : KMid) (r : KReq) : KMid :=
  if m.view.ready = false ∨ m.calls.req.isSome = true then { m with bad := true }
  else { m with calls := { m.calls with req := some ⟨r.vaddr, r.satp⟩ }, view := {} }

/-- `consume_resp`, MemSubsystem.cpp:310-314. -/
def KMid.consume (m : KMid) : KMid :=
  { m with calls := { m.calls with consumed := true }, view := { m.view with respValid := false, resp := {} } }

/-- `flush_client`, MemSubsystem.cpp:316-321. -/
def KMid.flushClient (m : KMid) : KMid :=
  { m with calls := { m.calls with flush := true }, view := { ready := true } }

/-- `build_top_common_input`, TlbMmu.cpp:984-1011; no context: the null pointer of `run_control_via_top`. -/
def KMid.common (m : KMid) (c : Option Ctx) : TopIn :=
  let i : TopIn := { walk := m.walk, refill := m.refill, repl := m.repl, view := m.view }
  match c with
  | none => i
  | some c => { i with satp := c.satp, priv := BitVec.ofNat 32 c.priv, mxr := c.mxr, sum := c.sum, mprv := c.mprv
                       mpp := BitVec.ofNat 32 c.mpp }

/-- `apply_top_output`, TlbMmu.cpp:1029-1048. -/
def KMid.apply (m : KMid) (o : TopOut) : KMid :=
  let m := if o.clientFlush then m.flushClient else m
  let m := if o.req.valid then m.send o.req else m
  let m := if o.consumed then m.consume else m
  let m := if o.tableFlush then { m with flushed := true } else m
  { m with walk := o.walk, refill := o.refill }

/-- `run_control_via_top`, TlbMmu.cpp:1050-1056, for a TLB with `n` ports. -/
def KMid.control (cap : Nat) (dtlb : Bool) (ldu n : Nat) (m : KMid) (flush cancel : Bool) : Option KMid :=
  (runPacked cap dtlb ldu n { m.common none with flush := flush, cancel := cancel, ports := List.replicate n {} }).map m.apply

/-- `schedule_refill`, TlbMmu.cpp:1181-1197, for the response that is there. -/
def KMid.schedule (cap : Nat) (m : KMid) : KMid :=
  let pte := m.view.resp.pte
  { m with refill :=
      { valid := true, slot := m.repl, next := (m.repl + 1#32) % BitVec.ofNat 32 cap
        entry := { valid := true, global := pte &&& 32#32 != 0#32, asid := asidOf m.walk.satp, level := m.view.resp.level
                   vpn1 := (m.walk.vaddr >>> 22) &&& 0x3FF#32, vpn0 := (m.walk.vaddr >>> 12) &&& 0x3FF#32
                   ppn := (pte >>> 10) &&& 0x3FFFFF#32, perm := pte &&& 0xFF#32 } } }

/-- `consume_completed_walk_refill`, TlbMmu.cpp:1058-1092, with its return value. -/
def KMid.complete (cap : Nat) (m : KMid) (consumeFault : Bool) : KMid × Bool :=
  if !m.walk.active || !m.walk.sent || !m.view.respValid || m.view.resp.vaddr >>> 12 != m.walk.vaddr >>> 12 then (m, false)
  else if m.view.resp.fault then (if consumeFault then (m.consume, true) else (m, false))
  else if checkPerm (m.view.resp.pte &&& 0xFF#32) m.walk.type m.walk.eff m.walk.sum m.walk.mxr then ((m.schedule cap).consume, true)
  else if consumeFault then (m.consume, true) else (m, false)

/-- `cancel_pending_walk`, TlbMmu.cpp:412-417. -/
def KMid.cancel (cap : Nat) (dtlb : Bool) (ldu n : Nat) (m : KMid) : Option KMid :=
  (m.complete cap true).1.control cap dtlb ldu n false true

/-- The answer of a port as its reader takes it, TlbMmu.cpp:1136-1141 and 966-974. -/
def PortOut.answer (p : PortOut) : Option Result :=
  if !p.valid then none
  else if p.result &&& 3#32 == 0#32 then some (.ok p.paddr)
  else if p.result &&& 3#32 == 1#32 then some .fault
  else some .retry

/-- The ports of a translation, TlbMmu.cpp:1104-1124: each with its valid flag and its address. -/
def KMid.ports (cap : Nat) (m : KMid) (satp : BitVec 32) (ps : List (Bool × BitVec 32)) : List PortIn :=
  ps.map (fun p => { valid := p.1, vaddr := p.2, lookup := if p.1 then lookupTable cap m.tab p.2 (asidOf satp) else {} })

/-- `run_top_via_io_generator` and `apply_top_output` for a translation. -/
def KMid.translate (cap : Nat) (dtlb : Bool) (ldu : Nat) (m : KMid) (c : Ctx) (ps : List (Bool × BitVec 32)) :
    Option (KMid × List (Option Result)) :=
  (runPacked cap dtlb ldu ps.length { m.common (some c) with ports := m.ports cap c.satp ps }).map
    (fun o => (m.apply o, o.ports.map PortOut.answer))

/-- `translate_lsu_ports`, TlbMmu.cpp:1094-1179. -/
def KMid.translateLsu (cap ldu : Nat) (m : KMid) (c : Ctx) (ps : List (Bool × BitVec 32)) : Option (KMid × List (Option Result)) :=
  let d := m.complete cap false
  let m := if d.2 then { d.1 with walk := {} } else d.1
  m.translate cap true ldu c ps

/-- `TlbMmu::seq`, TlbMmu.cpp:485-506. -/
def KMid.seq (m : KMid) : KState :=
  if m.flushed then {}
  else if m.refill.valid then
    { tab := fun i => if i = m.refill.slot.toNat then m.refill.entry else m.tab i, repl := m.refill.next, walk := m.walk }
  else { tab := m.tab, repl := m.repl, walk := m.walk }

/-- What the data TLB is told in a cycle (BackTop.cpp:185-201). -/
inductive KOp
  | fence
  | cancel
  | translate (c : Ctx) (ps : List (Bool × BitVec 32))

/-- A translation serves all `n` ports. -/
def KOp.Fits (n : Nat) : KOp → Prop
  | .translate _ ps => ps.length = n
  | _ => True

/-- `BackTop::comb_lsu_mmu`, BackTop.cpp:185-201, for `n` ports of which the first `ldu` load. -/
def kdtlbCycle (cap ldu n : Nat) (m : KMid) : KOp → Option (KMid × List (Option Result))
  | .fence => (m.control cap true ldu n true false).map (·, [])
  | .cancel => (m.cancel cap true ldu n).map (·, [])
  | .translate c ps => m.translateLsu cap ldu c ps

/-- `comb_mmu_view`, ICacheTop.cpp:612-645. -/
def kitlbCycle (cap ldu : Nat) (m : KMid) (o : Tlb.IOp) : Option (KMid × List (Option Result)) := do
  let m ← if o.flush then m.control cap false ldu 1 true false else some m
  let m ← if o.cancel then m.cancel cap false ldu 1 else some m
  match (if o.cancel then none else o.ask) with
  | some (c, v) => m.translate cap false ldu c [(true, v)]
  | none => some (m, [])

end Verif.TlbKernel

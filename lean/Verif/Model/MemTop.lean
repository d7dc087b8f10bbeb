import Verif.Model.LsuSys
import Verif.Model.MemRoute
import Verif.Model.DcacheSys
import Verif.Spec.CacheMem

/-
Load/store unit, routing block, data cache and interconnect wired together, as in `SimCpu::cycle` (rv_simu_mmu_v2.cpp:1016-1090):
`mem_subsystem.comb_outputs` (the cache answers, the routing block hands the answers on), `back.comb` (the load/store unit takes them,
works, and puts requests on its ports), `mem_subsystem.comb_inputs` (the routing block passes the requests to the cache).

Simplifications.  The parts are those of `Model/LsuSys`, `Model/MemRoute` and `Model/DcacheSys`.  What the load/store unit does
between two cycles of the cache is a sequence of its events in any order, which includes the order of BackTop.cpp:288-380.
`make_lsu_load_req_id` (MemUtils.h:158-161), slot in the waiting list and generation, is any identifier with bit 31 clear that no
other request of the cycle carries, and `who` (the valid entries of `wait_dcache_ldq`) says which load it belongs to.
-/
namespace Verif.MemTop

open Verif.Dcache (Line Ld St LdResp StResp)
open Verif.MemRoute (Req Resp)

/-- The requests on the cache's load ports, RealDcache.cpp:221-250: those with `valid` set, in the order of the ports. -/
def lds {p : Nat} (ports : Fin (p + 1) → Option Req) (probe : Option (Fin (p + 1))) : List Ld :=
  (List.finRange (p + 1)).filterMap fun i => (ports i).map fun q => { addr := q.addr, id := q.id, probe := decide (probe = some i) }

/-- Answers dealt to the ports that had a request, in order. -/
def deal {α β : Type} : List (Option α) → List β → List (Option β)
  | [], _ => []
  | none :: ps, rs => none :: deal ps rs
  | some _ :: ps, r :: rs => some r :: deal ps rs
  | some _ :: ps, [] => none :: deal ps []

def respOf (r : LdResp) : Resp := { id := r.req.id, data := r.data, replay := r.replay }

/-- `dcache_resp_route_`, MemSubsystem.cpp:846-881, 927-929: the answers by port. -/
def answers {p : Nat} (ports : Fin (p + 1) → Option Req) (rs : List LdResp) (i : Fin (p + 1)) : Option Resp :=
  (((deal ((List.finRange (p + 1)).map ports) rs)[i.val]?).getD none).map respOf

/-- What is remembered between the first and the last part of a cycle. -/
structure Phase (p : Nat) where
  resp : Option Nat
  ack : Bool
  fill : Bool
  ans : Fin (p + 1) → Option Resp

/-- `u`: the load/store unit; its `mem`, `pend` and `samp` are bookkeeping here: the memory as the cache's answers describe it and the
store requests not answered, and no step looks at them.  `ports`, `stores`: the requests put on the ports in this cycle.  `ph`: within a
cycle, between the answers and the requests. -/
structure State (p : Nat) where
  u : Lsu.Sys
  who : BitVec 32 → Option Nat := fun _ => none
  ports : List Req := []
  stores : List St := []
  rt : MemRoute.Sys p := {}
  d : Dcache.Sys
  ph : Option (Phase p) := none

def State.init (p : Nat) (mem : BitVec 32 → Line) (m : Spec.ByteMem.Mem) : State p := { u := Lsu.Sys.init m, d := Dcache.Sys.init mem }

/-- `comb_dcache2lsu_ldq`, RealLsu.cpp:709-761, one answer.  An answer to a load that was squashed finds no entry.  `late`: the answer
comes from a line being filled that had already taken in a store (bookkeeping: the value is not vouched for). -/
def takeLoad (late : BitVec 32 → Bool) (x : Lsu.Sys × (BitVec 32 → Option Nat)) (r : Resp) : Lsu.Sys × (BitVec 32 → Option Nat) :=
  match x.2 r.id with
  | none => x
  | some i =>
    ({ x.1 with
        lsu := Lsu.respLoad x.1.lsu i (if r.replay = .hit then some r.data else none)
        badFwd := if late r.id then Ring.upd x.1.badFwd i true else x.1.badFwd },
     fun id => if id = r.id then none else x.2 id)

/-- `comb_dcache2lsu_stq`, RealLsu.cpp:789-817, one answer, with the bookkeeping of the memory. -/
def takeStore (u : Lsu.Sys) (r : StResp) : Lsu.Sys :=
  { u with
    lsu := Lsu.respStore u.lsu r.req.id.toNat (decide (r.replay = .hit))
    pend := Ring.upd u.pend r.req.id.toNat none
    mem := if r.replay = .hit then Spec.CacheMem.writeLanes u.mem r.req.addr r.req.data r.req.strb else u.mem }

/-- A store request as the cache sees it. -/
def stOf (q : Lsu.StoreReq) : St := { addr := q.addr, data := q.data, strb := q.strb, id := BitVec.ofNat 32 q.idx }

/-- `comb_flush`, RealLsu.cpp:1117-1119, 1191-1194: entries of squashed loads are invalidated. -/
def prune (l : Lsu.State) (who : BitVec 32 → Option Nat) : BitVec 32 → Option Nat := fun id =>
  match who id with
  | some i => if (l.ldq i).st = .empty then none else some i
  | none => none

/-- Events. -/
inductive Ev
  /-- the load/store unit does something other than talk to the cache -/
  | lsu (e : Lsu.Ev)
  /-- it issues the load in slot `i`, RealLsu.cpp:648-705 -/
  | ldIssue (i : Nat) (id : BitVec 32)
  /-- it considers the `j`-th store for issue, RealLsu.cpp:820-901 -/
  | stIssue (j : Nat)
  /-- the interconnect, or a cycle of the fast domain -/
  | quiet (e : Dcache.Ev)
  /-- the first part of a processor cycle: answers; `resp`, `ack`: what the interconnect delivers, `fill`: `mshr_fill` -/
  | out (resp : Option Nat) (ack : Bool) (fill : Bool)
  /-- its last part: requests, with those of the instruction cache and of the walker -/
  | inp (icache walk dtlb itlb : Option (BitVec 32))

/-- Events of the load/store unit that do not involve the cache. -/
def plainEv : Lsu.Ev → Bool
  | .ldIssue _ | .ldSample _ | .ldResp _ _ | .stIssue _ | .stPerform _ | .stResp _ _ => false
  | _ => true

/-- One event.  `none`: an assertion of one of the parts fails.  `n`: `STQ_SIZE`. -/
def State.step {p : Nat} (n : Nat) (s : State p) : Ev → Option (State p)
  | .lsu e => (s.u.step n e).map fun u => { s with u := u, who := prune u.lsu s.who }
  | .ldIssue i id =>
    (s.u.step n (.ldIssue i)).map fun u =>
      { s with u := u, ports := s.ports ++ [{ addr := (s.u.lsu.ldq i).paddr, id := id }]
               who := fun x => if x = id then some i else s.who x }
  | .stIssue j =>
    (s.u.step n (.stIssue j)).map fun u =>
      { s with u := u, stores := s.stores ++ ((Lsu.issueStore n s.u.lsu j).2.map stOf).toList }
  | .quiet e => (s.d.step e).map fun x => { s with d := x.1 }
  | .out resp ack fill =>
    -- the answers do not depend on the requests of this cycle (`MemTop.answers_first`)
    (s.d.step (.tick true [] [] resp ack)).map fun x =>
      let ans := answers s.rt.ports x.2.loads
      let lsu := (MemRoute.combResponse s.rt.route ans fill).2.lsu
      let late := fun id => x.2.loads.any fun r => decide (r.req.id = id) && r.late
      let y := ((List.finRange (p + 1)).filterMap lsu).foldl (takeLoad late) (s.u, s.who)
      { s with u := x.2.stores.foldl takeStore y.1, who := y.2, ph := some { resp := resp, ack := ack, fill := fill, ans := ans } }
  | .inp ic wk dt it =>
    match s.ph with
    | none => none
    | some f =>
      let r := s.rt.step { ans := f.ans, fill := f.fill, req := { lsu := fun i => s.ports[i.val]?, icache := ic, walk := wk, dtlb := dt, itlb := it } }
      (s.d.step (.tick true (lds r.1.ports r.1.probe) s.stores f.resp f.ack)).map fun x =>
        { s with ports := [], stores := [], rt := r.1, d := x.1, ph := none }

/-- A cycle of the processor's side of the cache. -/
def slow : Dcache.Ev → Bool
  | .tick b _ _ _ _ => b
  | _ => false

/-- What is left to the surroundings: program order, translation and commit (`Lsu.Sys.Valid`), the identifiers, the interconnect
(`Dcache.Sys.Valid`). -/
def State.Valid {p : Nat} (n : Nat) (s : State p) : Ev → Prop
  | .lsu e => plainEv e = true ∧ s.u.Valid n e
  | .ldIssue i id =>
    s.ph.isSome = true ∧ s.ports.length < p + 1 ∧ (s.u.lsu.ldq i).st = .readyToIssue ∧ id.toNat < 2 ^ 31 ∧ s.who id = none ∧
      ∀ q ∈ s.ports, q.id ≠ id
  | .stIssue _ => s.ph.isSome = true
  | .quiet e => s.ph = none ∧ slow e = false ∧ s.d.Valid e
  | .out resp ack _ => s.ph = none ∧ s.d.Valid (.tick true [] [] resp ack)
  | .inp .. => s.ph.isSome = true

/-- Reachable states. -/
inductive Reach (p n : Nat) (mem : BitVec 32 → Line) : State p → Prop
  | init : Reach p n mem (State.init p mem (Spec.CacheMem.flat mem))
  | step {s s' : State p} (e : Ev) : Reach p n mem s → s.Valid n e → s.step n e = some s' → Reach p n mem s'

end Verif.MemTop

import Verif.Model.MemRoute
import Verif.Model.Tlb

/-
The two TLBs, the shared page-table walker and the block in front of the data cache, as connected by
MemSubsystem.cpp:985-1208 (`comb_outputs`, `comb_inputs`, `seq`), BackTop.cpp:185-201 and ICacheTop.cpp:893-935.

A cycle: the cache's answers to last cycle's reads go through `MemRouteBlock::comb_response`; both TLBs work with
the walker's outputs of the last cycle; then `MemPtwBlock::comb_begin`, `MemRouteBlock::comb_request`,
`MemPtwBlock::comb_finish`, and the registers.

`mem` is the memory the page tables are in.  It may change at any time between cycles (`Ev.write`).  `same`,
`fresh` and `used` are bookkeeping that no step looks at: `same` - memory has not changed since the reads now
outstanding were issued; `fresh c` - memory has not changed since TLB `c` was last flushed; `used c` - the
values of satp under which TLB `c` was asked to translate since then.
-/
namespace Verif.Mmu
open Verif.Ptw (Client)

structure Sys (n : Nat) where
  rt : MemRoute.Sys n := {}
  ptw : Ptw.State := .init
  dtlb : Tlb.State := .init
  itlb : Tlb.State := .init
  mem : BitVec 32 → BitVec 32
  same : Bool := true
  fresh : Client → Bool := fun _ => true
  used : Client → List (BitVec 32) := fun _ => []

/-- What happens in a cycle: the cache's answers and `mshr_fill`; loads of the load/store unit; the look-up of the
instruction cache; what the TLBs are told. -/
structure Cyc (n : Nat) where
  ans : Fin (n + 1) → Option MemRoute.Resp
  fill : Bool
  lsu : Fin (n + 1) → Option MemRoute.Req
  icache : Option (BitVec 32)
  dop : Tlb.DOp
  iop : Tlb.IOp

/-- Sizes of the two TLBs (`DTLB_ENTRIES`, `ITLB_ENTRIES`). -/
structure Caps where
  d : Nat
  i : Nat

/-- The capacity of a TLB. -/
def Caps.of (k : Caps) : Client → Nat
  | .dtlb => k.d
  | .itlb => k.i

/-- The registers of a TLB. -/
def Sys.tlb {n : Nat} (s : Sys n) : Client → Tlb.State
  | .dtlb => s.dtlb
  | .itlb => s.itlb

/-- The TLB at the end of the cycle's combinational part, and its answers. -/
def Sys.mid {n : Nat} (k : Caps) (s : Sys n) (e : Cyc n) : Client → Tlb.Mid × List (Option Tlb.Result)
  | .dtlb => Tlb.dtlbCycle k.d (s.dtlb.start (s.ptw.view .dtlb)) e.dop
  | .itlb => Tlb.itlbCycle k.i (s.itlb.start (s.ptw.view .itlb)) e.iop

/-- What the TLBs ask of the walker. -/
def Sys.calls {n : Nat} (k : Caps) (s : Sys n) (e : Cyc n) (c : Client) : Ptw.In := (s.mid k e c).1.calls

/-- The walker after `comb_begin`. -/
def Sys.ptw1 {n : Nat} (k : Caps) (s : Sys n) (e : Cyc n) : Ptw.State := s.ptw.begin_ (s.calls k e)

/-- The cycle as the block in front of the cache sees it. -/
def Sys.rcyc {n : Nat} (k : Caps) (s : Sys n) (e : Cyc n) : MemRoute.Cyc n :=
  { ans := e.ans, fill := e.fill, req := { lsu := e.lsu, icache := e.icache, walk := (s.ptw1 k e).issue } }

/-- The grant as the walker gets it (MemSubsystem.cpp:1066-1084). -/
def grantOf (g : Option (MemRoute.Owner × BitVec 32)) : Option (BitVec 32) :=
  match g with
  | some (.walk, id) => some id
  | _ => none

/-- The event as the walker gets it (MemSubsystem.cpp:1087-1117). -/
def dataOf (ev : Option MemRoute.Event) : Option (BitVec 32 × BitVec 32) :=
  match ev with
  | some ev => if ev.owner = .walk then some (ev.id, ev.data) else none
  | none => none

/-- The walker after `comb_finish`. -/
def Sys.ptw2 {n : Nat} (k : Caps) (s : Sys n) (e : Cyc n) : Ptw.State :=
  let r := s.rt.step (s.rcyc k e)
  (s.ptw1 k e).finish (grantOf r.2.2.grant) (dataOf r.2.1.event) r.2.1.wake.walk

/-- The values of satp a TLB is asked to translate under. -/
def asked {n : Nat} (e : Cyc n) : Client → List (BitVec 32)
  | .dtlb => match e.dop with
    | .translate c _ => [c.satp]
    | _ => []
  | .itlb => match (if e.iop.cancel then none else e.iop.ask) with
    | some (c, _) => [c.satp]
    | none => []

/-- A cycle; the answers are `(s.mid k e c).2`. -/
def Sys.cycle {n : Nat} (k : Caps) (s : Sys n) (e : Cyc n) : Sys n :=
  { rt := (s.rt.step (s.rcyc k e)).1
    ptw := (s.ptw2 k e).seq (s.calls k e)
    dtlb := (s.mid k e .dtlb).1.seq k.d
    itlb := (s.mid k e .itlb).1.seq k.i
    mem := s.mem
    same := true
    fresh := fun c => s.fresh c || (s.mid k e c).1.flushed
    used := fun c => if (s.mid k e c).1.flushed then [] else asked e c ++ s.used c }

/-- What happens: a cycle, or a change of memory between cycles. -/
inductive Ev (n : Nat)
  | cycle (e : Cyc n)
  | write (m : BitVec 32 → BitVec 32)

/-- A step. -/
def Sys.step {n : Nat} (k : Caps) (s : Sys n) : Ev n → Sys n
  | .cycle e => s.cycle k e
  | .write m => { s with mem := m, same := false, fresh := fun _ => false }

/-- What the surroundings do.  Besides the rules of the block in front of the cache (`MemRoute.Sys.Valid`): a read of
the walker that the cache answers with data gets the word memory holds, unless memory changed in between. -/
def Sys.Valid {n : Nat} (k : Caps) (s : Sys n) : Ev n → Prop
  | .cycle e => s.rt.Valid (s.rcyc k e) ∧
      ∀ r, e.ans (Fin.last n) = some r → r.replay = .hit → s.same = true → s.rt.route.owner = .walk →
        r.data = s.mem s.rt.route.addr
  | .write _ => True

/-- States reached from the initial one, with any memory. -/
inductive Reach {n : Nat} (k : Caps) : Sys n → Prop
  | init (m : BitVec 32 → BitVec 32) : Reach k { mem := m }
  | step {s : Sys n} {e : Ev n} (h : Reach k s) (hv : s.Valid k e) : Reach k (s.step k e)

end Verif.Mmu

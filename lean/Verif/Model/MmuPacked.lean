import Verif.Model.Mmu
import Verif.Model.TlbPacked

/-
`Model/Mmu` with the TLBs as they run (`Model/TlbPacked`): MemSubsystem.cpp:985-1208, BackTop.cpp:185-201 and
ICacheTop.cpp:893-935.  The walker and the block in front of the data cache are those of `Model/Mmu`; so is the bookkeeping
`same`, `fresh`, `used`.
-/
namespace Verif.MmuPacked
open Verif.Ptw (Client)
open Verif.TlbKernel (KState KMid KOp KResp KView kdtlbCycle kitlbCycle)
open Verif.Mmu (Caps grantOf dataOf)

structure Sys (n : Nat) where
  rt : MemRoute.Sys n := {}
  ptw : Ptw.State := .init
  dtlb : KState := {}
  itlb : KState := {}
  mem : BitVec 32 → BitVec 32
  same : Bool := true
  fresh : Client → Bool := fun _ => true
  used : Client → List (BitVec 32) := fun _ => []

/-- What happens in a cycle, as in `Mmu.Cyc`; `djunk`, `ijunk`: what the response fields of idle walker ports hold. -/
structure Cyc (n : Nat) where
  ans : Fin (n + 1) → Option MemRoute.Resp
  fill : Bool
  lsu : Fin (n + 1) → Option MemRoute.Req
  icache : Option (BitVec 32)
  dop : KOp
  iop : Tlb.IOp
  djunk : KResp := {}
  ijunk : KResp := {}

/-- Sizes: of the tables, and the ports of the data TLB, of which the first `ldu` load (`LSU_LDU_COUNT`, `LSU_STA_COUNT`). -/
structure Shape where
  caps : Caps
  ldu : Nat
  ports : Nat

/-- The two TLBs at the end of the cycle's combinational part, with their answers. -/
structure Tlbs where
  d : KMid × List (Option Tlb.Result)
  i : KMid × List (Option Tlb.Result)

/-- The TLBs' part of a cycle. -/
def Sys.tlbs {n : Nat} (k : Shape) (s : Sys n) (e : Cyc n) : Option Tlbs := do
  let d ← kdtlbCycle k.caps.d k.ldu k.ports (s.dtlb.start (KView.of e.djunk (s.ptw.view .dtlb))) e.dop
  let i ← kitlbCycle k.caps.i k.ldu (s.itlb.start (KView.of e.ijunk (s.ptw.view .itlb))) e.iop
  return ⟨d, i⟩

def Tlbs.mid (t : Tlbs) : Client → KMid
  | .dtlb => t.d.1
  | .itlb => t.i.1

/-- What the TLBs ask of the walker. -/
def Tlbs.calls (t : Tlbs) (c : Client) : Ptw.In := (t.mid c).calls

/-- The cycle as the block in front of the cache sees it. -/
def Sys.rcyc {n : Nat} (s : Sys n) (e : Cyc n) (t : Tlbs) : MemRoute.Cyc n :=
  { ans := e.ans, fill := e.fill, req := { lsu := e.lsu, icache := e.icache, walk := (s.ptw.begin_ t.calls).issue } }

/-- The values of satp a TLB is asked to translate under. -/
def asked {n : Nat} (e : Cyc n) : Client → List (BitVec 32)
  | .dtlb => match e.dop with
    | .translate c _ => [c.satp]
    | _ => []
  | .itlb => match (if e.iop.cancel then none else e.iop.ask) with
    | some (c, _) => [c.satp]
    | none => []

/-- The rest of a cycle. -/
def Sys.finish {n : Nat} (s : Sys n) (e : Cyc n) (t : Tlbs) : Sys n :=
  let r := s.rt.step (s.rcyc e t)
  { rt := r.1
    ptw := ((s.ptw.begin_ t.calls).finish (grantOf r.2.2.grant) (dataOf r.2.1.event) r.2.1.wake.walk).seq t.calls
    dtlb := t.d.1.seq
    itlb := t.i.1.seq
    mem := s.mem
    same := true
    fresh := fun c => s.fresh c || (t.mid c).flushed
    used := fun c => if (t.mid c).flushed then [] else asked e c ++ s.used c }

/-- What the surroundings do, as in `Mmu.Sys.Valid`. -/
def Sys.Valid {n : Nat} (s : Sys n) (e : Cyc n) (t : Tlbs) : Prop :=
  s.rt.Valid (s.rcyc e t) ∧
    ∀ r, e.ans (Fin.last n) = some r → r.replay = .hit → s.same = true → s.rt.route.owner = .walk → r.data = s.mem s.rt.route.addr

/-- States reached from the initial one, with any memory. -/
inductive Reach {n : Nat} (k : Shape) : Sys n → Prop
  | init (m : BitVec 32 → BitVec 32) : Reach k { mem := m }
  | cycle {s : Sys n} {e : Cyc n} {t : Tlbs} (h : Reach k s) (he : e.dop.Fits k.ports) (ht : s.tlbs k e = some t) (hv : s.Valid e t) : Reach k (s.finish e t)
  | write {s : Sys n} (h : Reach k s) (m : BitVec 32 → BitVec 32) :
      Reach k { s with mem := m, same := false, fresh := fun _ => false }

end Verif.MmuPacked

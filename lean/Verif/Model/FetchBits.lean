import Verif.Model.ICacheTopBits
import Verif.Model.FetchSys

/-
The front end with its instruction cache as it runs: the system of Model/FetchSys with the packed cache of
Model/ICacheTopBits in the place of the one of Model/ICache.
-/
namespace Verif.ICacheBits
open Verif.ICache
open Verif.Fetch (In OkIn NextW Both)
open Verif.Front (Cfg St Inp Obs Resp front1 front2 gRefetch)

/-- What is on wires whose flag is off, and what does not matter: the fetch address without a request, the offset in a
page of the MMU's answers, the numbers and data of the read port and the probe port, `itlb_flush`. -/
structure Junk where
  pc : W32 := 0#32
  off : W32 → BitVec 12 := fun _ => 0#12
  accId : W32 := 0#32
  respId : W32 := 0#32
  resp : Line := fun _ => 0#32
  dcMiss : Bool := true
  dcData : W32 := 0#32
  itlbFlush : Bool := false

/-- Inputs on the wires. -/
def onWires (t : TopIn) (x : Junk) : RTop where
  refetch := t.refetch
  fenceI := t.fenceI
  inval := t.inval
  itlbFlush := x.itlbFlush
  reqV := t.req.isSome
  pc := t.req.getD x.pc
  mmu va := match t.mmu (vpnOf va) with
    | some (.page p) => .ok (p ++ x.off va)
    | some .fault => .fault
    | none => .retry
  mReady := t.mReady
  mAcc := t.mAcc.isSome
  mAccId := match t.mAcc with
    | some u => BitVec.ofNat 32 u.val
    | none => x.accId
  mRespV := t.mResp.isSome
  mRespId := match t.mResp with
    | some (u, _) => BitVec.ofNat 32 u.val
    | none => x.respId
  mResp := match t.mResp with
    | some (_, d) => d
    | none => x.resp
  dcV := t.probe.isSome
  dcMiss := match t.probe with
    | some a => a.isNone
    | none => x.dcMiss
  dcData := match t.probe with
    | some (some d) => d
    | _ => x.dcData

/-- The packed cache and its surroundings. -/
structure PSys where
  c : RIC := {}
  e : Env := {}

/-- Front end and packed instruction cache. -/
structure PBoth (W : Nat) (M : Type) where
  f : St W M
  ic : PSys

variable {W : Nat} {M : Type}

/-- The inputs of the front end, `rdy`: what `icache_peek_ready` says. -/
def pInp (i : In W M) (rdy : Bool) : Inp W M :=
  { reset := false, refetch := i.refetch, refetchAddr := i.refetchAddr, readEn := i.readEn, icReady := rdy, bpNext := i.bpNext
    bpDir := i.bpDir, bpInfo := i.bpInfo }

/-- The inputs of the instruction cache. -/
def pCyc (i : In W M) (refetch : Bool) (req : Option W32) : Cyc :=
  { refetch := refetch, fenceI := i.fenceI, req := req, mmu := i.mmu, mReady := i.mReady, acc := i.acc, mResp := i.mResp
    probe := i.probe }

/-- A cycle, as `Both.cycle` (front_top.cpp:1088-1990); `x`, `y`: what is on the wires in the two calls of the cache. -/
def PBoth.cycle (k : Cfg) (s : PBoth W M) (i : In W M) (x y : Junk) : Option (PBoth W M × Option (Resp W) × Obs W M) := do
  let rdy ← peekR W s.ic.c i.hold
  let m ← front1 k s.f (pInp i rdy)
  let n := pCyc i (gRefetch s.f (pInp i rdy)) m.icReq
  let (c1, g) ← rcall W s.ic.c (onWires (call1 s.ic.e n) x)
  let (f', o) ← front2 k s.f (pInp i rdy) m g.resp
  if o.inval then
    let (c2, _) ← rcall W c1 (onWires (call2 s.ic.e n) y)
    return (⟨f', ⟨c2, s.ic.e.next n c2.o.abs⟩⟩, g.resp, o)
  else return (⟨f', ⟨c1, s.ic.e.next n c1.o.abs⟩⟩, g.resp, o)

/-- The surroundings of the packed cache, as those of the other. -/
def PBoth.env (s : PBoth W M) : Both W M := ⟨s.f, { e := s.ic.e }⟩

end Verif.ICacheBits

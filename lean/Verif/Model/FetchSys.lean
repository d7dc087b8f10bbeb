import Verif.Model.ICacheSys
/-
The front end with its instruction cache: `front_comb_calc` (front_top.cpp:1088-1990) with the calls of
`icache_peek_ready`, `icache_comb_calc` and the second call for a redirect found by the checker.  Resets are left out: a
run starts from the state after reset.
-/
namespace Verif.Fetch
open Verif.ICache
open Verif.Front (Cfg St Inp Obs Resp front1 front2 gRefetch)

variable {W : Nat} {M : Type}

/-- What the surroundings of front end and instruction cache do in a cycle; `hold`: the cache is not to be given a
request (`fence.i` or a flush of the TLB, ICacheTop.cpp:785-791). -/
structure In (W : Nat) (M : Type) where
  refetch : Bool
  refetchAddr : W32
  fenceI : Bool
  hold : Bool
  readEn : Bool
  bpNext : W32
  bpDir : Fin W → Bool
  bpInfo : M
  mmu : Ppn → Option Xlat
  mReady : Bool
  acc : Bool
  mResp : Option (Tx × Line)
  probe : Option W32

/-- Front end and instruction cache. -/
structure Both (W : Nat) (M : Type) where
  f : St W M
  ic : Sys

/-- The inputs of the front end; the instruction cache's readiness is asked first (front_top.cpp:1130-1145). -/
def In.front (i : In W M) (s : Both W M) : Inp W M :=
  { reset := false, refetch := i.refetch, refetchAddr := i.refetchAddr, readEn := i.readEn,
    icReady := peek s.ic.c i.hold, bpNext := i.bpNext, bpDir := i.bpDir, bpInfo := i.bpInfo }

/-- The inputs of the instruction cache (front_top.cpp:1433-1465, 1803-1808). -/
def In.cache (i : In W M) (s : Both W M) (req : Option W32) (inval : Bool) : Cyc :=
  { refetch := gRefetch s.f (i.front s), fenceI := i.fenceI, req := req, inval := inval, mmu := i.mmu,
    mReady := i.mReady, acc := i.acc, mResp := i.mResp, probe := i.probe }

/-- A cycle: the request, the answer, what the front end does with it, and the second call if the checker has found a
redirect. -/
def Both.cycle (k : Cfg) (s : Both W M) (i : In W M) : Option (Both W M × Option (Resp W) × Obs W M) := do
  let m ← front1 k s.f (i.front s)
  let resp := (s.ic.cycle (i.cache s m.icReq false)).2.resp.map fun x => glue W x.1 x.2
  let (f', o) ← front2 k s.f (i.front s) m resp
  return (⟨f', (s.ic.cycle (i.cache s m.icReq o.inval)).1⟩, resp, o)

/-- What the surroundings may do: as in `Valid`, for the ports, and `fence.i` comes with a redirect by the back end
(Rob.cpp:430-471, rv_simu_mmu_v2.cpp:1127-1133). -/
structure OkIn (w : World) (s : Both W M) (i : In W M) : Prop where
  mmu : ∀ v x, i.mmu v = some x → w.xlat v x
  resp : ∀ t d, i.mResp = some (t, d) →
    (∃ a f, s.ic.e.owed t = some (a, f) ∧ (f = true → w.mem a d)) ∨ s.ic.e.last = some t
  probe : ∀ a, s.ic.e.p2 = some (a, true) → w.probed a i.probe
  acc : i.acc = true → s.ic.e.offer.isSome = true
  fence : i.fenceI = true → i.refetch = true

/-- How the world may change: translations only with a redirect by the back end, contents only with `fence.i`. -/
structure NextW (w w' : World) (i : In W M) : Prop where
  xlat : i.refetch = false → w'.xlat = w.xlat
  data : i.fenceI = false → w'.hit = w.hit ∧ w'.miss = w.miss ∧ w'.mem = w.mem

end Verif.Fetch

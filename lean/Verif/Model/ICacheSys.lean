import Verif.Model.ICache
/-
The instruction cache in its surroundings: the read port of the interconnect, the probe port of the data cache, the
MMU, and the front end, which may call the cache twice in a cycle (front_top.cpp:1803-1808).

The interconnect itself is not part of the repository (axi-interconnect-kit is an empty submodule).  What is assumed of
it, and why, is stated here and in DESIGN.md.
-/
namespace Verif.ICache

/-- A read the cache has put on the port and that has not been accepted; `rdy`: the cache has seen `req.ready` while it
was there; `held`: the cache has withdrawn it in the last cycle after seeing `req.ready` (the "ready-first contract" of
icache_module.cpp:1341-1345: such a read may still be accepted, one cycle later). -/
structure Offer where
  addr : W32
  tx : Tx
  rdy : Bool
  held : Bool

/-- The surroundings. -/
structure Env where
  offer : Option Offer := none
  /-- reads that are accepted and not answered; `true`: accepted since the last `fence.i` -/
  owed : Tx → Option (W32 × Bool) := fun _ => none
  /-- the answer taken in the last cycle; the port may still show it -/
  last : Option Tx := none
  /-- probes of the last cycle and of the one before: the data cache answers two cycles after the request
  (rv_simu_mmu_v2.cpp:1016-1091: front end, data-cache outputs, data-cache inputs); `true`: since the last `fence.i` -/
  p1 : Option (W32 × Bool) := none
  p2 : Option (W32 × Bool) := none

/-- What the surroundings do in a cycle; `acc`: the read on the port is accepted; `probe`: what the data cache says if it
owes an answer (`none`: a miss); `inval`: the front end calls the cache a second time, to withdraw the request. -/
structure Cyc where
  refetch : Bool := false
  fenceI : Bool := false
  req : Option W32 := none
  inval : Bool := false
  mmu : Ppn → Option Xlat := fun _ => none
  mReady : Bool := false
  acc : Bool := false
  mResp : Option (Tx × Line) := none
  probe : Option W32 := none

/-- All requests are withdrawn in the cycle. -/
def Cyc.kill (i : Cyc) : Bool := i.refetch || i.fenceI || i.inval

structure Sys where
  c : IC := {}
  e : Env := {}

/-- The number of the accepted read, as the cache sees it. -/
def accTx (e : Env) (i : Cyc) : Option Tx := if i.acc then e.offer.map (·.tx) else none

/-- The inputs of the first call (front_top.cpp:1433-1465). -/
def call1 (e : Env) (i : Cyc) : TopIn :=
  { refetch := i.refetch, fenceI := i.fenceI, req := i.req, mmu := i.mmu, mReady := i.mReady, mAcc := accTx e i,
    mResp := i.mResp, probe := if e.p2.isSome then some i.probe else none }

/-- The inputs of the second call (front_top.cpp:1804-1808). -/
def call2 (e : Env) (i : Cyc) : TopIn := { call1 e i with refetch := false, fenceI := false, req := none, inval := true }

/-- Every pending read or probe is older than the `fence.i`. -/
def old (fence : Bool) (x : Option (W32 × Bool)) : Option (W32 × Bool) := x.map fun (a, f) => (a, f && !fence)

/-- The surroundings after the cycle; `o`: the outputs of the last call, which the ports keep. -/
def Env.next (e : Env) (i : Cyc) (o : Out) : Env where
  offer := match o.mReq with
    | some (a, t) =>
      some ⟨a, t, (match e.offer with
        | some f => !i.acc && f.rdy
        | none => false) || i.mReady, false⟩
    | none => match e.offer with
      | some f => if !i.acc && !f.held && (f.rdy || i.mReady) then some ⟨f.addr, f.tx, true, true⟩ else none
      | none => none
  owed := fun t =>
    if o.mRespReady && decide (i.mResp.map (·.1) = some t) then none
    else match e.offer with
      | some f => if i.acc && decide (f.tx = t) then some (f.addr, !i.fenceI) else old i.fenceI (e.owed t)
      | none => old i.fenceI (e.owed t)
  last := match i.mResp with
    | some (t, _) => if o.mRespReady && (e.owed t).isSome then some t else none
    | none => none
  p1 := o.probe.map fun a => (a, !i.fenceI)
  p2 := old i.fenceI e.p1

/-- A cycle: the outputs of the first call are what the front end sees. -/
def Sys.cycle (s : Sys) (i : Cyc) : Sys × Out :=
  let (c1, o1) := call s.c (call1 s.e i)
  if i.inval then
    let (c2, o2) := call c1 (call2 s.e i)
    (⟨c2, s.e.next i o2⟩, o1)
  else (⟨c1, s.e.next i o1⟩, o1)

/-- What the surroundings hold: the translations, the words and misses the data cache reports, the lines the memory
returns. -/
structure World where
  xlat : Ppn → Xlat → Prop
  hit : W32 → W32 → Prop
  miss : W32 → Prop
  mem : W32 → Line → Prop

/-- The data cache's answer to a probe of `a` is so. -/
def World.probed (w : World) (a : W32) : Option W32 → Prop
  | some d => w.hit a d
  | none => w.miss a

/-- What the surroundings may do in a cycle.  The MMU and the data cache say what is so; the port shows answers to reads
that are owed - the memory's line if the read was accepted since the last `fence.i`, anything otherwise - or the one
taken in the last cycle.  The front end sends a request only to a cache that is ready, and not while withdrawing; it
makes the second call only when it has checked a group, and it checks none while it is redirected
(front_top.cpp:638-643, 1527-1535, 1581-1584). -/
structure Valid (w : World) (s : Sys) (i : Cyc) : Prop where
  mmu : ∀ v x, i.mmu v = some x → w.xlat v x
  resp : ∀ t d, i.mResp = some (t, d) →
    (∃ a f, s.e.owed t = some (a, f) ∧ (f = true → w.mem a d)) ∨ s.e.last = some t
  probe : ∀ a, s.e.p2 = some (a, true) → w.probed a i.probe
  acc : i.acc = true → s.e.offer.isSome = true
  req : i.req.isSome = true → peek s.c false = true ∧ i.refetch = false ∧ i.fenceI = false
  inval : i.inval = true → i.refetch = false ∧ i.fenceI = false

/-- How the world may change: translations only when all requests are withdrawn, contents only with `fence.i`.  (What
the caches and the memory hold does change all the time; `hit`, `miss` and `mem` are everything they have reported since
the last `fence.i`.) -/
structure World.Next (w w' : World) (i : Cyc) : Prop where
  xlat : i.kill = false → w'.xlat = w.xlat
  data : i.fenceI = false → w'.hit = w.hit ∧ w'.miss = w.miss ∧ w'.mem = w.mem

/-- The reachable states, with the world and the requests accepted and not answered. -/
inductive Reach : World → Sys → Option W32 → Prop
  | init (w : World) : Reach w {} none
  | step {w w' s q} (i : Cyc) : Reach w s q → Valid w s i → w.Next w' i →
      Reach w' (s.cycle i).1 (if i.kill || (s.cycle i).2.resp.isSome then none else q.or i.req)

end Verif.ICache

import Verif.Model.Ring

/-
The waiting lists of the load/store unit, load side: back-end/Lsu/RealLsu.cpp, with the types of
back-end/Lsu/include/RealLsu.h and the request identifiers of back-end/Lsu/include/MemUtils.h.  A load that
has been handed to the unit waits in turn for its translation (`wait_mmu_ldq`), for the comparison with older
stores (`stlf_queue`), for the data cache (`wait_dcache_ldq`) or a device (`uncached_unit`), and for a port to
report its result (`finish`).

Verif/Model/Lsu.lean lets any load be served next; here the lists, windows and port limits are as in the code.

Simplifications, stated once here:
* of a load only its state is kept; what decides where it goes next (translation, comparison with the stores,
  answer of the cache, branch mask hit) is an input of the cycle;
* an entry of a list is `some l` when its `valid` bit is set and `none` otherwise: the index field of an
  invalid entry is never used to change anything;
* of the store side only the use of the uncached unit and of the report ports is visible, as inputs;
* `CheckStlfRetry` is assigned and left within one iteration of `comb_stlf` and does not appear;
* assertions that can fail are an explicit `none`.
-/
namespace Verif.LsuList

open Verif.Ring

/-! ## A waiting list -/

/-- `head`, `count` and the slots of one list, RealLsu.h:156-204. -/
structure Q where
  head : Nat
  count : Nat
  slot : Nat → Option Nat

def Q.init : Q := { head := 0, count := 0, slot := fun _ => none }

/-- `enqueue_*`, RealLsu.cpp:103-168; nothing is checked. -/
def Q.enq (n : Nat) (q : Q) (l : Nat) : Q :=
  { q with slot := upd q.slot ((q.head + q.count) % n) (some l), count := q.count + 1 }

/-- `dequeue_*`, RealLsu.cpp:111-174. -/
def Q.deq (n : Nat) (q : Q) : Q :=
  { head := (q.head + 1) % n, count := q.count - 1, slot := upd q.slot q.head none }

/-- `entry.valid = false`. -/
def Q.kill (q : Q) (p : Nat) : Q := { q with slot := upd q.slot p none }

/-- The loops that drop invalid entries at the front, RealLsu.cpp:421-430, 779-786, 985-993, 1033-1041: the
slot looked at, counted from the head at the start of the loop, is always the current head. -/
def Q.pop (n : Nat) : Nat → Q → Q
  | 0, q => q
  | k + 1, q => if q.slot q.head = none then Q.pop n k (q.deq n) else q

/-! ## The load side -/

/-- `LDQ_SIZE`, `LDQ_IDX_WIDTH`, `LSU_LDU_COUNT`, `LSU_LOAD_WINDOW_WIDTH`, include/config.h:431-529. -/
structure Cfg where
  n : Nat
  iw : Nat
  ldu : Nat
  win : Nat

/-- `LoadState`, RealLsu.h:39-58. -/
inductive LSt
  | empty | allocated | waitTlb | waitTlbRetry | waitStlf | checkStlf | waitDcache | readyToIssue
  | waitDcacheResp | waitMmioResp | readyToWb | waitFinish | pageFault
  deriving DecidableEq, Repr

/-- `UncachedUnit`, RealLsu.h:99-109: `valid`, `is_load` and, for a load, its index. -/
inductive Unc
  | free | load (l : Nat) | store
  deriving DecidableEq, Repr

/-- `LsuState`, RealLsu.h:156-204, load side.  `gen` and `delay` are `req_gen` and `replay_wait_cycles` of the
slots of `wait_dcache_ldq`; `reqGen` is the counter `req_gen` of the unit. -/
structure LS where
  st : Nat → LSt
  wm : Q
  sq : Q
  wd : Q
  fin : Q
  gen : Nat → Nat
  delay : Nat → Nat
  reqGen : Nat
  unc : Unc

/-- `RealLsu::init`, RealLsu.cpp:178-181. -/
def LS.init : LS :=
  { st := fun _ => .empty, wm := Q.init, sq := Q.init, wd := Q.init, fin := Q.init,
    gen := fun _ => 0, delay := fun _ => 0, reqGen := 0, unc := .free }

def LS.set (s : LS) (l : Nat) (x : LSt) : LS := { s with st := upd s.st l x }

/-! ### Identifiers of cache requests -/

/-- `normalize_lsu_req_gen`, MemUtils.h:76-82. -/
def normGen (c : Cfg) (g : Nat) : Nat := g % 2 ^ (31 - c.iw)

/-- `make_lsu_load_req_id`, MemUtils.h:158-161 (32 bits). -/
def reqId (c : Cfg) (p g : Nat) : Nat := normGen c g * 2 ^ c.iw + p % 2 ^ c.iw

/-- `lsu_req_id_gen`, MemUtils.h:163-165. -/
def idGen (c : Cfg) (id : Nat) : Nat := normGen c (id / 2 ^ c.iw)

/-- `lsu_req_id_wait_idx`, MemUtils.h:167-169. -/
def idSlot (c : Cfg) (id : Nat) : Nat := id % 2 ^ c.iw

/-! ### What dispatch is offered -/

/-- `ldq_count` of `comb_cal`, RealLsu.cpp:185-195. -/
def LS.nAlloc (c : Cfg) (s : LS) : Nat := (List.range c.n).countP fun l => s.st l = .allocated

/-- `comb_lsu2dis`, RealLsu.cpp:222-238: the slots offered.  The `uint32_t` subtraction is exact here
(property C114); written on `Int` it would be negative otherwise. -/
def LS.offer (c : Cfg) (width : Nat) (s : LS) : List Nat :=
  let empties := (List.range c.n).filter fun l => s.st l = .empty
  let free := min ((2 ^ 32 + c.n - s.nAlloc c - s.wm.count) % 2 ^ 32) empties.length
  empties.take (min width free)

/-! ### The steps of a cycle, in the order of back-end/BackTop.cpp:286-380 -/

/-- `comb_mmio_in`, RealLsu.cpp:298-321. -/
def mmioIn (c : Cfg) (s : LS) (resp : Bool) : LS :=
  if resp = false then s
  else match s.unc with
    | .free => s
    | .store => { s with unc := .free }
    | .load l =>
      if s.fin.count < c.n then
        if s.st l = .waitMmioResp then { s with st := upd s.st l .readyToWb, fin := s.fin.enq c.n l, unc := .free }
        else { s with unc := .free }
      else s

/-- An answer of the data cache: identifier, hit or replay, and the delay `replay_delay_cycles` of the kind of
replay (RealLsu.cpp:16-20). -/
structure Resp where
  id : Nat
  hit : Bool
  delay : Nat
  deriving DecidableEq, Repr

/-- `comb_dcache2lsu_ldq`, first loop, RealLsu.cpp:711-762.  `none`: an assertion fails. -/
def answer (c : Cfg) (s : LS) (r : Resp) : Option LS :=
  if r.id ≥ 2 ^ 31 then none
  else match s.wd.slot (idSlot c r.id) with
    | none => some s
    | some l =>
      if s.gen (idSlot c r.id) ≠ idGen c r.id then none
      else if s.st l = .waitDcacheResp then
        if r.hit then some (s.set l .readyToWb)
        else some { s.set l .readyToIssue with delay := upd s.delay (idSlot c r.id) r.delay }
      else some s

def answers (c : Cfg) : LS → List Resp → Option LS
  | s, [] => some s
  | s, r :: rs => match answer c s r with
    | none => none
    | some s' => answers c s' rs

/-- `wake_load_replays_on_mshr_fill`, RealLsu.cpp:22-51; which slots are woken is an input. -/
def wake (s : LS) (w : Nat → Bool) : LS := { s with delay := fun p => if w p then 0 else s.delay p }

/-- `comb_dcache2lsu_ldq`, second loop, RealLsu.cpp:766-776, one slot. -/
def moveWd (c : Cfg) (s : LS) (i : Nat) : LS :=
  let p := (s.wd.head + i) % c.n
  match s.wd.slot p with
  | none => s
  | some l =>
    if s.st l = .readyToWb ∧ s.fin.count < c.n then { s with fin := s.fin.enq c.n l, wd := s.wd.kill p } else s

/-- `comb_dcache2lsu_ldq`, RealLsu.cpp:709-787. -/
def dcacheIn (c : Cfg) (s : LS) (rs : List Resp) (w : Nat → Bool) : Option LS :=
  match answers c s rs with
  | none => none
  | some s1 =>
    let s2 := wake s1 w
    let k := min s2.wd.count c.win
    let s3 := (List.range k).foldl (moveWd c) s2
    some { s3 with wd := s3.wd.pop c.n k }

/-- `comb_lsu2exe`, the report of one load, RealLsu.cpp:996-1031; `used` report ports are taken already. -/
def reportOne (c : Cfg) (a : LS × List Nat × Nat) (i : Nat) : LS × List Nat × Nat :=
  let (s, wb, used) := a
  if used ≥ c.ldu then a
  else
    let p := (s.fin.head + i) % c.n
    match s.fin.slot p with
    | none => a
    | some l =>
      if s.st l = .readyToWb ∨ s.st l = .pageFault then
        ({ s.set l .empty with fin := s.fin.kill p }, wb ++ [l], used + 1)
      else a

/-- `comb_lsu2exe`, loads, RealLsu.cpp:995-1041: the state and the loads reported.  `used` ports have been
given to store-conditionals. -/
def report (c : Cfg) (s : LS) (used : Nat) : LS × List Nat :=
  let k := min s.fin.count c.win
  let r := (List.range k).foldl (reportOne c) (s, [], used)
  ({ r.1 with fin := r.1.fin.pop c.n k }, r.2.1)

/-- `handle_load_req`, RealLsu.cpp:1435-1462. -/
def loadReq (c : Cfg) (s : LS) (l : Nat) : LS :=
  { s.set l .waitTlb with wm := s.wm.enq c.n l }

/-- Result of a translation (`MMUResultType`). -/
inductive Tlb
  | hit | fault | miss
  deriving DecidableEq, Repr

/-- `comb_tlb_out`, RealLsu.cpp:325-341: the requests, slot and load. -/
def tlbOut (c : Cfg) (s : LS) : List (Nat × Nat) :=
  (List.range (min s.wm.count c.win)).foldl (fun (rs : List (Nat × Nat)) i =>
    if rs.length ≥ c.ldu then rs
    else
      let p := (s.wm.head + i) % c.n
      match s.wm.slot p with
      | none => rs
      | some l => if s.st l = .waitTlb then rs ++ [(p, l)] else rs) []

/-- `comb_tlb_in_ldq`, first loop, RealLsu.cpp:362-389; `none` is a port without an answer
(BackTop.cpp:185-200 answers nothing in the cycle of a flush, a fence or a misprediction). -/
def tlbAns (ans : Nat → Option Tlb) (s : LS) (r : Nat × Nat) : LS :=
  match ans r.2 with
  | none => s
  | some x =>
    if s.wm.slot r.1 ≠ some r.2 then s
    else if s.st r.2 ≠ .waitTlb then { s with wm := s.wm.kill r.1 }
    else match x with
      | .hit => s.set r.2 .waitStlf
      | .fault => s.set r.2 .waitFinish
      | .miss => s.set r.2 .waitTlbRetry

/-- `comb_tlb_in_ldq`, second loop, RealLsu.cpp:395-419, one slot; the two counters are `stlf_issue` and
`finish_issue`. -/
def window (c : Cfg) (a : LS × Nat × Nat) (i : Nat) : LS × Nat × Nat :=
  let (s, si, fi) := a
  let p := (s.wm.head + i) % c.n
  match s.wm.slot p with
  | none => a
  | some l =>
    if s.st l = .waitStlf then
      if si < c.ldu ∧ s.sq.count < c.n then
        ({ s.set l .checkStlf with sq := s.sq.enq c.n l, wm := s.wm.kill p }, si + 1, fi)
      else a
    else if s.st l = .waitFinish then
      if fi < c.ldu ∧ s.fin.count < c.n then
        ({ s.set l .pageFault with fin := s.fin.enq c.n l, wm := s.wm.kill p }, si, fi + 1)
      else a
    else if s.st l = .waitTlbRetry then (s.set l .waitTlb, si, fi)
    else a

/-- `comb_tlb_in_ldq`, RealLsu.cpp:360-431. -/
def tlbIn (c : Cfg) (s : LS) (rs : List (Nat × Nat)) (ans : Nat → Option Tlb) : LS :=
  let s1 := rs.foldl (tlbAns ans) s
  let k := min s1.wm.count c.win
  let s2 := ((List.range k).foldl (window c) (s1, 0, 0)).1
  { s2 with wm := s2.wm.pop c.n (min s2.wm.count c.win) }

/-- What the comparison with the older stores says of a load (`stlf` of Verif/Model/Lsu.lean): a device access
that may or may not go now, the cache, a forwarded value, a retry, or the snapshot is outside the queue. -/
inductive Cmp
  | mmio (may : Bool) | cache | forward | retry | bad
  deriving DecidableEq, Repr

/-- Locals of `comb_stlf`: `retry_ldq`, `pop_count`, and whether the loop has been left. -/
structure Scan where
  s : LS
  retry : List Nat
  pops : Nat
  stop : Bool

/-- `comb_stlf`, the decision, RealLsu.cpp:528-594: the new state of the load and of the uncached unit;
`none` in the first component is `CheckStlfRetry`.  Outer `none`: the boundary assertion fails. -/
def decideStlf (u : Unc) (l : Nat) : Cmp → Option (Option LSt × Unc)
  | .bad => none
  | .mmio may => if may = true ∧ u = .free then some (some .waitMmioResp, .load l) else some (none, u)
  | .cache => some (some .waitDcache, u)
  | .forward => some (some .waitFinish, u)
  | .retry => some (none, u)

/-- `comb_stlf`, what follows the decision, RealLsu.cpp:596-633; `x` as in `decideStlf`. -/
def afterStlf (c : Cfg) (a : Scan) (p l : Nat) (x : Option LSt) : Scan :=
  match x with
  | none => { s := { a.s.set l .checkStlf with sq := a.s.sq.kill p }, retry := a.retry ++ [l], pops := a.pops + 1, stop := false }
  | some .waitDcache =>
    if a.s.wd.count < c.n then
      { a with s := { a.s.set l .readyToIssue with wd := a.s.wd.enq c.n l, sq := a.s.sq.kill p }, pops := a.pops + 1 }
    else { a with s := a.s.set l .waitDcache, stop := true }
  | some .waitFinish =>
    if a.s.fin.count < c.n then
      { a with s := { a.s.set l .readyToWb with fin := a.s.fin.enq c.n l, sq := a.s.sq.kill p }, pops := a.pops + 1 }
    else { a with s := a.s.set l .waitFinish, stop := true }
  | some .waitMmioResp => { a with s := { a.s.set l .waitMmioResp with sq := a.s.sq.kill p }, pops := a.pops + 1 }
  | some .empty => { a with s := { a.s with sq := a.s.sq.kill p }, pops := a.pops + 1 }
  | some _ => { a with stop := true }

/-- `comb_stlf`, one iteration, RealLsu.cpp:514-634. -/
def stlfOne (c : Cfg) (cmp : Nat → Cmp) (a : Scan) (i : Nat) : Option Scan :=
  if a.stop then some a
  else
    let p := (a.s.sq.head + i) % c.n
    match a.s.sq.slot p with
    | none => some { a with pops := a.pops + 1 }
    | some l =>
      if a.s.st l = .checkStlf then
        (decideStlf a.s.unc l (cmp l)).map fun d => afterStlf c { a with s := { a.s with unc := d.2 } } p l d.1
      else some (afterStlf c a p l (some (a.s.st l)))

def stlfLoop (c : Cfg) (cmp : Nat → Cmp) : Scan → List Nat → Option Scan
  | a, [] => some a
  | a, i :: is => match stlfOne c cmp a i with
    | none => none
    | some a' => stlfLoop c cmp a' is

/-- The pops and the retries put back, RealLsu.cpp:636-645. -/
def deqN (n : Nat) : Nat → Q → Q
  | 0, q => q
  | k + 1, q => deqN n k (q.deq n)

def requeue (c : Cfg) : LS → List Nat → Option LS
  | s, [] => some s
  | s, l :: ls => if s.sq.count < c.n then requeue c { s with sq := s.sq.enq c.n l } ls else none

/-- `comb_stlf`, RealLsu.cpp:505-646. -/
def stlf (c : Cfg) (s : LS) (cmp : Nat → Cmp) : Option LS :=
  match stlfLoop c cmp { s := s, retry := [], pops := 0, stop := false } (List.range (min s.sq.count c.win)) with
  | none => none
  | some a => requeue c { a.s with sq := deqN c.n a.pops a.s.sq } a.retry

/-- `comb_dis2lsu`, `alloc_ldq_entry`, RealLsu.cpp:241-248, 1503-1515. -/
def allocs : LS → List Nat → Option LS
  | s, [] => some s
  | s, l :: ls => if s.st l = .empty then allocs (s.set l .allocated) ls else none

def Q.clear (q : Q) : Q := { q with count := 0, slot := fun _ => none }

/-- `comb_flush`, the flush, RealLsu.cpp:1105-1147; `keep`: the uncached unit works for a committed store. -/
def flush (s : LS) (keep : Bool) : LS :=
  { s with
    st := fun _ => .empty, wm := s.wm.clear, sq := s.sq.clear, wd := s.wd.clear, fin := s.fin.clear
    unc := if s.unc = .store ∧ keep = true then .store else .free }

/-- The loops of `comb_flush` over the `count` entries of a list, RealLsu.cpp:1170-1199: entries of loads that
are `Empty` are invalidated. -/
def Q.prune (n : Nat) (q : Q) (st : Nat → LSt) : Q :=
  { q with slot := (List.range q.count).foldl (fun f i =>
      match f ((q.head + i) % n) with
      | some l => if st l = .empty then upd f ((q.head + i) % n) none else f
      | none => f) q.slot }

/-- The same loops for all lists and the uncached unit, RealLsu.cpp:1170-1208; `drop`: the uncached unit works
for a store that is dropped. -/
def pruneAll (c : Cfg) (s : LS) (st : Nat → LSt) (drop : Bool) : LS :=
  { s with
    st := st, wm := s.wm.prune c.n st, sq := s.sq.prune c.n st, wd := s.wd.prune c.n st, fin := s.fin.prune c.n st
    unc := match s.unc with
      | .load l => if st l = .empty then .free else .load l
      | .store => if drop then .free else .store
      | .free => .free }

/-- `comb_flush`, a misprediction, RealLsu.cpp:1150-1214; `kill`: the branch mask of the load is hit. -/
def mispred (c : Cfg) (s : LS) (kill : Nat → Bool) (drop : Bool) : LS :=
  pruneAll c s (fun l => if l < c.n ∧ s.st l ≠ .empty ∧ kill l = true then .empty else s.st l) drop

/-- `comb_lsu2dcache_ldq`, one slot, RealLsu.cpp:660-702, with the requests issued so far (identifier, load). -/
def issueOne (c : Cfg) (a : LS × List (Nat × Nat)) (i : Nat) : LS × List (Nat × Nat) :=
  let (s, out) := a
  if out.length ≥ c.ldu then a
  else
    let p := (s.wd.head + i) % c.n
    match s.wd.slot p with
    | none => a
    | some l =>
      if s.st l ≠ .readyToIssue then a
      else if s.delay p > 1 then ({ s with delay := upd s.delay p (s.delay p - 1) }, out)
      else
        let g := normGen c (s.reqGen + out.length)
        ({ s.set l .waitDcacheResp with delay := upd s.delay p 0, gen := upd s.gen p g }, out ++ [(reqId c p g, l)])

/-- `comb_lsu2dcache_ldq`, RealLsu.cpp:648-707 (`CONFIG_LSU_DRESP_TIMEOUT_CYCLES` is not set, so
`retry_load_resp_timeouts` does nothing, RealLsuPerf.cpp:321-349). -/
def issue (c : Cfg) (s : LS) : LS × List (Nat × Nat) :=
  let r := (List.range (min s.wd.count c.win)).foldl (issueOne c) (s, [])
  ({ r.1 with reqGen := normGen c (s.reqGen + r.2.length) }, r.2)

/-- `comb_lsu2dcache_stq`, RealLsu.cpp:860-880: a committed device store takes the uncached unit. -/
def storeTakes (s : LS) (go : Bool) : LS := if go = true ∧ s.unc = .free then { s with unc := .store } else s

/-! ## A cycle -/

/-- What the surroundings do in one cycle. -/
structure In where
  mmio : Bool
  resp : List Resp
  wake : Nat → Bool
  scPorts : Nat
  reqs : List Nat
  tlb : Nat → Option Tlb
  cmp : Nat → Cmp
  alloc : List Nat
  flush : Option Bool
  kill : Option ((Nat → Bool) × Bool)
  storeGo : Bool

/-- The unit with the requests it has put to the cache in the last cycle (identifier and, for the statements,
the load they are for) and the loads it has reported in the last cycle. -/
structure Sys where
  s : LS
  pend : List (Nat × Nat)
  wb : List Nat

def Sys.init : Sys := { s := LS.init, pend := [], wb := [] }

/-- The steps before the recovery: mmio_in, dcache2lsu, lsu2exe, exe2lsu, tlb, stlf, dis2lsu. -/
def front (c : Cfg) (s : LS) (x : In) : Option (LS × List Nat) :=
  match dcacheIn c (mmioIn c s x.mmio) x.resp x.wake with
  | none => none
  | some s1 =>
    let r := report c s1 x.scPorts
    let s2 := x.reqs.foldl (loadReq c) r.1
    match stlf c (tlbIn c s2 (tlbOut c s2) x.tlb) x.cmp with
    | none => none
    | some s3 => (allocs s3 x.alloc).map fun s4 => (s4, r.2)

/-- `comb_flush`, RealLsu.cpp:1104-1214. -/
def recover (c : Cfg) (s : LS) (x : In) : LS :=
  let s1 := match x.flush with
    | some keep => flush s keep
    | none => s
  match x.kill with
  | some k => mispred c s1 k.1 k.2
  | none => s1

/-- One cycle, back-end/BackTop.cpp:286-380. -/
def Sys.cycle (c : Cfg) (y : Sys) (x : In) : Option Sys :=
  (front c y.s x).map fun r =>
    let i := issue c (recover c r.1 x)
    { s := storeTakes i.1 x.storeGo, pend := i.2, wb := r.2 }

/-- What the surroundings guarantee (`width` is `MAX_LDQ_DISPATCH_WIDTH`).
* every request of the last cycle is answered once in this one, in any order (properties C57, C113);
* dispatch uses the slots it is offered, in order (Dispatch.cpp:109-117);
* a load is handed to the unit once after it has been allocated (`reqs` are loads that wait to execute);
* the comparison with the stores finds its boundary inside the queue (property C52). -/
structure Valid (c : Cfg) (width : Nat) (y : Sys) (x : In) : Prop where
  resp : (x.resp.map (·.id)).Perm (y.pend.map (·.1))
  reqs : x.reqs.Nodup ∧ ∀ l ∈ x.reqs, y.s.st l = .allocated
  cmp : ∀ l, x.cmp l ≠ .bad
  alloc : ∃ k, x.alloc = (y.s.offer c width).take k

/-- Reachable states. -/
inductive Reach (c : Cfg) (width : Nat) : Sys → Prop
  | init : Reach c width Sys.init
  | step {y y' : Sys} (x : In) : Reach c width y → Valid c width y x → y.cycle c x = some y' → Reach c width y'

end Verif.LsuList

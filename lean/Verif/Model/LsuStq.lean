import Verif.Model.LsuList

/-
The waiting lists of the load/store unit, store side: back-end/Lsu/RealLsu.cpp.  A store is allocated in the
store queue at dispatch; its data and its address come separately from the execution ports; with the address it
waits for its translation (`wait_mmu_stq`); with translation and data it waits for a port to be reported
(`mmu_done_stq`); it then waits for the reorder buffer to commit it, and leaves the queue when it has been carried out.

Simplifications, stated once here:
* of a store its state, `data_valid`, `page_fault` and `is_lrsc` are kept; addresses, data and the reservation are
  in Verif/Model/Lsu.lean.  `paddr_valid` is set exactly when `WaitData` is entered and is not kept;
* the states from `Committed` on are one state `gone`; how many committed stores leave the queue in a cycle is an input
  (at most those committed);
* `stq_commit` is the entry after the committed ones (property C51 keeps it separately);
* an entry of a list is `some x` when its `valid` bit is set, as in Verif/Model/LsuList.lean.
-/
namespace Verif.LsuStq

open Verif.Ring
open Verif.LsuList (Q Tlb)

/-- `STQ_SIZE`, `LSU_STA_COUNT`, `LSU_SDU_COUNT`, `LSU_LDU_COUNT`, `LSU_STORE_WINDOW_WIDTH`, include/config.h:431-529. -/
structure Cfg where
  n : Nat
  sta : Nat
  sdu : Nat
  ldu : Nat
  win : Nat

/-- `StoreState`, back-end/include/IO.h:1218-1235; `gone`: `Committed`, `WaitDcacheResp`, `WaitMmioResp`, `Done`. -/
inductive SSt
  | allocated | waitTlb | retry | waitData | waitDone | ready | pageFault | waitCommit | gone
  deriving DecidableEq, Repr

/-- `StqEntry`, back-end/include/IO.h: `store_state`, `data_valid`, `page_fault`, `is_lrsc`. -/
structure E where
  st : SSt
  dv : Bool
  pf : Bool
  sc : Bool
  deriving DecidableEq, Repr

/-- `LsuState`, RealLsu.h:156-204, store side: the queue (`stq`, `stq_head`, `stq_count`, `stq_commit_count`) and
the lists `wait_mmu_stq` and `mmu_done_stq`. -/
structure SS where
  ent : Nat → E
  head : Nat
  count : Nat
  com : Nat
  wm : Q
  md : Q

/-- `RealLsu::init`, RealLsu.cpp:178-181. -/
def SS.init : SS :=
  { ent := fun _ => { st := .gone, dv := false, pf := false, sc := false }, head := 0, count := 0, com := 0, wm := Q.init, md := Q.init }

/-- Entry `i` of the queue, counted from the head. -/
def SS.at (c : Cfg) (s : SS) (i : Nat) : Nat := (s.head + i) % c.n

/-- `stq_idx_alive_after_flush`, MemUtils.h:102-105, for the present queue. -/
def SS.live (c : Cfg) (s : SS) (x : Nat) : Bool := decide (x < c.n) && decide ((x + c.n - s.head) % c.n < s.count)

def SS.put (s : SS) (x : Nat) (e : E) : SS := { s with ent := upd s.ent x e }

def SS.setSt (s : SS) (x : Nat) (t : SSt) : SS := s.put x { s.ent x with st := t }

/-- `stq_alloc_count` of `comb_cal`, RealLsu.cpp:196-203. -/
def SS.nAlloc (c : Cfg) (s : SS) : Nat := (List.range s.count).countP fun i => (s.ent (s.at c i)).st = .allocated

/-- `stq_free` of `comb_lsu2dis`, RealLsu.cpp:224-225, in `uint32_t`. -/
def SS.free (c : Cfg) (s : SS) : Nat :=
  min ((2 ^ 32 + c.n - s.nAlloc c - max s.wm.count s.md.count) % 2 ^ 32) (c.n - s.count)

/-! ### The steps of a cycle, in the order of back-end/BackTop.cpp:286-380 -/

/-- `comb_stq_commit`, RealLsu.cpp:1043-1079: `k` stores commit; `none`: the assertion on the order fails. -/
def commitN (c : Cfg) : Nat → SS → Option SS
  | 0, s => some s
  | k + 1, s =>
    if (s.ent (s.at c s.com)).st = .waitCommit then
      commitN c k { s.setSt (s.at c s.com) .gone with com := s.com + 1 }
    else none

/-- The report of stores: state, reported stores, and ports taken for stores and for store-conditionals. -/
structure Rep where
  s : SS
  out : List Nat
  st : Nat
  ld : Nat

/-- `comb_lsu2exe`, one slot of `mmu_done_stq`, RealLsu.cpp:911-980. -/
def reportOne (c : Cfg) (a : Rep) (i : Nat) : Rep :=
  let p := (a.s.md.head + i) % c.n
  match a.s.md.slot p with
  | none => a
  | some x =>
    if (a.s.ent x).st = .ready ∨ (a.s.ent x).st = .pageFault then
      if (a.s.ent x).sc then
        if a.ld ≥ c.ldu then a
        else { s := { a.s.setSt x .waitCommit with md := a.s.md.kill p }, out := a.out ++ [x], st := a.st, ld := a.ld + 1 }
      else
        if a.st ≥ c.sta then a
        else { s := { a.s.setSt x .waitCommit with md := a.s.md.kill p }, out := a.out ++ [x], st := a.st + 1, ld := a.ld }
    else a

/-- `comb_lsu2exe`, stores, RealLsu.cpp:905-993. -/
def report (c : Cfg) (s : SS) : SS × List Nat :=
  let k := min s.md.count c.win
  let r := (List.range k).foldl (reportOne c) { s := s, out := [], st := 0, ld := 0 }
  ({ r.s with md := r.s.md.pop c.n (min r.s.md.count c.win) }, r.out)

/-- `handle_store_data`, RealLsu.cpp:1393-1409. -/
def dataIn (c : Cfg) (s : SS) (x : Nat) : SS :=
  if (s.ent x).st = .waitData then
    { s.put x { s.ent x with st := .ready, dv := true } with md := s.md.enq c.n x }
  else s.put x { s.ent x with dv := true }

/-- `handle_store_addr`, RealLsu.cpp:1411-1433; the flag is `is_lrsc`. -/
def addrIn (c : Cfg) (s : SS) (a : Nat × Bool) : SS :=
  { s.put a.1 { s.ent a.1 with st := .waitTlb, sc := a.2 } with wm := s.wm.enq c.n a.1 }

/-- `comb_tlb_out`, stores, RealLsu.cpp:343-356: the requests, slot and store. -/
def tlbOut (c : Cfg) (s : SS) : List (Nat × Nat) :=
  (List.range (min s.wm.count c.win)).foldl (fun (rs : List (Nat × Nat)) i =>
    if rs.length ≥ c.sta then rs
    else
      let p := (s.wm.head + i) % c.n
      match s.wm.slot p with
      | none => rs
      | some x => if (s.ent x).st = .waitTlb then rs ++ [(p, x)] else rs) []

/-- `comb_tlb_in_stq`, first loop, RealLsu.cpp:435-468. -/
def tlbAns (ans : Nat → Option Tlb) (s : SS) (r : Nat × Nat) : SS :=
  match ans r.2 with
  | none => s
  | some t =>
    if s.wm.slot r.1 ≠ some r.2 then s
    else if (s.ent r.2).st ≠ .waitTlb then s
    else match t with
      | .hit => s.setSt r.2 (if (s.ent r.2).dv then .waitDone else .waitData)
      | .fault => s.put r.2 { s.ent r.2 with st := .waitDone, pf := true }
      | .miss => s.setSt r.2 .retry

/-- `comb_tlb_in_stq`, second loop, RealLsu.cpp:472-494, one slot. -/
def window (c : Cfg) (s : SS) (i : Nat) : SS :=
  let p := (s.wm.head + i) % c.n
  match s.wm.slot p with
  | none => s
  | some x =>
    match (s.ent x).st with
    | .waitDone =>
      { s.setSt x (if (s.ent x).pf then .pageFault else .ready) with md := s.md.enq c.n x, wm := s.wm.kill p }
    | .waitData => { s with wm := s.wm.kill p }
    | .retry => s.setSt x .waitTlb
    | _ => s

/-- `comb_tlb_in_stq`, RealLsu.cpp:434-505. -/
def tlbIn (c : Cfg) (s : SS) (rs : List (Nat × Nat)) (ans : Nat → Option Tlb) : SS :=
  let s1 := rs.foldl (tlbAns ans) s
  let s2 := (List.range (min s1.wm.count c.win)).foldl (window c) s1
  { s2 with wm := s2.wm.pop c.n (min s2.wm.count c.win) }

/-- `comb_dis2lsu`, `alloc_stq_entry`, RealLsu.cpp:250-256, 1480-1502: `k` stores; `none`: the queue is full. -/
def allocN (c : Cfg) : Nat → SS → Option SS
  | 0, s => some s
  | k + 1, s =>
    if s.count ≥ c.n then none
    else allocN c k { s.put (s.at c s.count) { st := .allocated, dv := false, pf := false, sc := false } with count := s.count + 1 }

/-- `comb_flush`, the flush, RealLsu.cpp:1105-1135: committed stores stay. -/
def flush (s : SS) : SS :=
  { s with count := min s.com s.count, com := min s.com s.count, wm := s.wm.clear, md := s.md.clear }

/-- The loops of `comb_flush` over a list, RealLsu.cpp:1175-1184. -/
def prune (c : Cfg) (q : Q) (alive : Nat → Bool) : Q :=
  { q with slot := (List.range q.count).foldl (fun f i =>
      match f ((q.head + i) % c.n) with
      | some x => if alive x = false then upd f ((q.head + i) % c.n) none else f
      | none => f) q.slot }

/-- `comb_flush`, a misprediction, RealLsu.cpp:1160-1214: the first `keep` stores stay. -/
def mispred (c : Cfg) (s : SS) (keep : Nat) : SS :=
  let s1 := { s with count := min keep s.count }
  { s1 with wm := prune c s.wm (s1.live c), md := prune c s.md (s1.live c), com := min s.com s1.count }

/-- `comb_check`, RealLsu.cpp:1081-1102: `r` of the committed stores are `Done` and leave. -/
def retire (c : Cfg) (s : SS) (r : Nat) : SS :=
  let k := min r (min s.com s.count)
  { s with head := (s.head + k) % c.n, count := s.count - k, com := s.com - k }

/-! ## A cycle -/

/-- What the surroundings do in one cycle. -/
structure In where
  commits : Nat
  data : List Nat
  addr : List (Nat × Bool)
  tlb : Nat → Option Tlb
  alloc : Nat
  flush : Bool
  keep : Option Nat
  retire : Nat

/-- The unit and the stores it has reported in the last cycle. -/
structure Sys where
  s : SS
  out : List Nat

def Sys.init : Sys := { s := SS.init, out := [] }

/-- The steps before dispatch: stq_commit, lsu2exe, exe2lsu, tlb. -/
def front (c : Cfg) (s : SS) (x : In) : Option (SS × List Nat) :=
  (commitN c x.commits s).map fun s0 =>
    let r := report c s0
    let s1 := x.data.foldl (dataIn c) r.1
    let s2 := x.addr.foldl (addrIn c) s1
    (tlbIn c s2 (tlbOut c s2) x.tlb, r.2)

/-- `comb_flush`, RealLsu.cpp:1104-1214. -/
def recover (c : Cfg) (s : SS) (x : In) : SS :=
  let s1 := if x.flush then flush s else s
  match x.keep with
  | some k => mispred c s1 k
  | none => s1

/-- One cycle, back-end/BackTop.cpp:286-380. -/
def Sys.cycle (c : Cfg) (y : Sys) (x : In) : Option Sys :=
  match front c y.s x with
  | none => none
  | some r => (allocN c x.alloc r.1).map fun s => { s := retire c (recover c s x) x.retire, out := r.2 }

/-- What the surroundings guarantee (`width` is `MAX_STQ_DISPATCH_WIDTH`).
* the reorder buffer commits stores in order and only when they have been reported;
* the data of a store comes once, and its address comes once, after its allocation, while it is in the queue, at most
  as many in a cycle as there are ports;
* dispatch takes no more than it is offered and than it is wide;
* a misprediction does not squash committed stores. -/
structure Valid (c : Cfg) (width : Nat) (y : Sys) (x : In) : Prop where
  commits : ∀ i, i < x.commits → y.s.com + i < y.s.count ∧ (y.s.ent (y.s.at c (y.s.com + i))).st = .waitCommit
  ports : x.data.length ≤ c.sdu ∧ x.addr.length ≤ c.sta
  data : x.data.Nodup ∧ ∀ a ∈ x.data, y.s.live c a = true ∧ (y.s.ent a).dv = false
  addr : (x.addr.map (·.1)).Nodup ∧ ∀ a ∈ x.addr, y.s.live c a.1 = true ∧ (y.s.ent a.1).st = .allocated
  alloc : x.alloc ≤ width ∧ x.alloc ≤ y.s.free c
  keep : ∀ k, x.keep = some k → y.s.com + x.commits ≤ k

/-- Reachable states. -/
inductive Reach (c : Cfg) (width : Nat) : Sys → Prop
  | init : Reach c width Sys.init
  | step {y y' : Sys} (x : In) : Reach c width y → Valid c width y x → y.cycle c x = some y' → Reach c width y'

end Verif.LsuStq

import Verif.Model.Ring
import Verif.Model.RefMem

/-
Model of the load/store unit, back-end/Lsu/RealLsu.cpp, back-end/Lsu/include/RealLsu.h and the ring
helpers of back-end/Lsu/include/MemUtils.h.

What is kept: the store queue with its head, commit and tail pointers, every field of a store queue entry
that decides what happens to memory, the load queue entries, the store-to-load forwarding scan, commit,
flush, branch misprediction, issue to the data cache, its responses, retirement, the single uncached
request slot and the LR/SC reservation.

Simplifications, stated once here:
* one definition per loop body of the `comb_*` functions; which entry a loop visits in which cycle (the
  windows, port limits and the side queues `wait_mmu_*`, `mmu_done_stq`, `stlf_queue`, `wait_dcache_ldq`,
  `finish`, the replay delay counters) is left to the caller, so every order of visits is covered;
* virtual addresses, destination registers, ROB indices (used in consistency assertions only) and
  performance counters are left out; an instruction is identified by its queue index;
* `cur`/`nxt`: all reads are of `nxt`, except the reservation check, which reads `cur`
  (RealLsu.cpp:934-936) and is modelled on the current state;
* assertions (`Assert`, `LSU_NON_BSD_ASSERT`) that can fail are an explicit `none`.
-/
namespace Verif.Lsu

open Verif.Ring Verif.Lane

/-- `StoreState`, back-end/include/IO.h:1218-1235 (states that are never assigned are left out). -/
inductive StoreState
  | empty | allocated | waitData | waitTlb | waitTlbRetry | waitDone | ready | waitCommit | committed
  | waitDcacheResp | waitMmioResp | pageFault | done
  deriving DecidableEq, Repr

/-- `StqEntry`, back-end/include/IO.h:1237-1273. -/
structure StqEntry where
  dataValid : Bool := false
  data : BitVec 32 := 0#32
  func3 : BitVec 3 := 0#3
  paddrValid : Bool := false
  paddr : BitVec 32 := 0#32
  fault : Bool := false
  suppress : Bool := false
  mmio : Bool := false
  lrsc : Bool := false
  scPass : Bool := false
  st : StoreState := .empty
  brMask : BitVec 16 := 0#16
  flag : Bool := false
  deriving DecidableEq, Repr

/-- `LoadState`, RealLsu.h:39-58.  `WaitSTLF` is the state between the TLB hit and the entry into the
forwarding queue; `CheckStlfRetry`, `WaitDcache` and `WaitFinish` are assigned and left again within one
call of `comb_stlf`, and `WaitFinish` of a faulting load becomes `PageFault`. -/
inductive LoadState
  | empty | allocated | waitTlb | waitTlbRetry | waitStlf | checkStlf | readyToIssue | waitDcacheResp
  | waitMmioResp | readyToWb | waitFinish | pageFault
  deriving DecidableEq, Repr

/-- `LdqEntry`, RealLsu.h:65-97. -/
structure LdqEntry where
  st : LoadState := .empty
  paddr : BitVec 32 := 0#32
  func3 : BitVec 3 := 0#3
  result : BitVec 32 := 0#32
  brMask : BitVec 16 := 0#16
  mmio : Bool := false
  fault : Bool := false
  lr : Bool := false
  snapIdx : Nat := 0
  snapFlag : Bool := false
  deriving DecidableEq, Repr

/-- `UncachedUnit`, RealLsu.h:99-109. -/
structure Uncached where
  valid : Bool := false
  isLoad : Bool := false
  addr : BitVec 32 := 0#32
  wdata : BitVec 32 := 0#32
  func3 : BitVec 3 := 0#3
  idx : Nat := 0
  deriving DecidableEq, Repr

/-- `LrScUnit`, RealLsu.h:121-127. -/
structure Reserve where
  valid : Bool := false
  addr : BitVec 32 := 0#32
  brMask : BitVec 16 := 0#16
  deriving DecidableEq, Repr

/-- `LsuState`, RealLsu.h:156-204. -/
structure State where
  stq : Nat → StqEntry
  head : Nat
  headFlag : Bool
  count : Nat
  commit : Nat
  commitCount : Nat
  ldq : Nat → LdqEntry
  unc : Uncached
  rsv : Reserve

/-- `RealLsu::init`, RealLsu.cpp:178-181. -/
def init : State :=
  { stq := fun _ => {}, head := 0, headFlag := false, count := 0, commit := 0, commitCount := 0,
    ldq := fun _ => {}, unc := {}, rsv := {} }

/-! ## Ring helpers; `n` is `STQ_SIZE` -/

/-- `stq_idx_after`, MemUtils.h:111-113. -/
def idxAfter (n head count : Nat) : Nat := (head + count) % n

/-- `stq_tail_flag`, MemUtils.h:107-109. -/
def tailFlag (n head count : Nat) (hf : Bool) : Bool := if head + count ≥ n then !hf else hf

/-- `stq_idx_alive_after_flush`, MemUtils.h:102-105. -/
def aliveAfterFlush (n idx head newCount : Nat) : Bool := (idx + n - head) % n < newCount

/-- `stq_tag_value`, MemUtils.h:138-140. -/
def tagValue (n idx : Nat) (flag : Bool) : Nat := (if flag then n else 0) + idx

/-- `stq_distance_from_head_to_boundary`, MemUtils.h:142-157: the distance. -/
def distance (n head : Nat) (hf : Bool) (idx : Nat) (flag : Bool) : Nat :=
  (tagValue n idx flag + n * 2 - tagValue n head hf) % (n * 2)

/-- `advance_ring_ptr` with a generation flag, MemUtils.h:84-93. -/
def advFlag (n p : Nat) (f : Bool) : Nat × Bool := if p + 1 ≥ n then (0, !f) else (p + 1, f)

/-- `advance_ring_ptr`, MemUtils.h:95-99. -/
def adv (n p : Nat) : Nat := if p + 1 ≥ n then 0 else p + 1

/-- `comb_lsu2dis`, RealLsu.cpp:216-220: the tail announced to dispatch. -/
def tail (n : Nat) (s : State) : Nat × Bool := (idxAfter n s.head s.count, tailFlag n s.head s.count s.headFlag)

/-- Entry at distance `i` from the head: `nxt.stq[(nxt.stq_head + i) % STQ_SIZE]`. -/
def at' (n : Nat) (s : State) (i : Nat) : StqEntry := s.stq ((s.head + i) % n)

/-! ## Address tests -/

/-- `lsu_is_mmio_addr`, MemUtils.h:115-125, with the constants of include/config.h:630-650. -/
def mmioAddr (p : BitVec 32) : Bool :=
  p &&& 0xFFFFFFF0#32 = 0x10000000#32 || p &&& 0xFC000000#32 = 0x0c000000#32 ||
    (0x1fb00000#32 ≤ p && p < 0x1fb01000#32) || (0x1fd0f000#32 ≤ p && p < 0x1fd0f100#32) ||
    p = 0x1fd0e000#32 || p = 0x1fd0e004#32 || p = 0x1fd0e008#32 || p = 0x1fd0e00c#32

/-- `STLFResult`, RealLsu.h:206-210. -/
inductive Stlf
  | disjoint | overlap | retry
  deriving DecidableEq, Repr

/-- `check_stlf`, RealLsu.cpp:83-101 (`uint32_t` additions wrap). -/
def checkStlf (l : BitVec 32) (lf : BitVec 3) (s : BitVec 32) (sf : BitVec 3) : Stlf :=
  let sEnd := s + BitVec.ofNat 32 (memWidth sf)
  let lEnd := l + BitVec.ofNat 32 (memWidth lf)
  if s ≤ l ∧ sEnd ≥ lEnd then .overlap
  else if lEnd ≤ s ∨ l ≥ sEnd then .disjoint
  else .retry

/-- `CheckAddr`, MemSubSystem/DcacheConfig.cpp:177-189. -/
def checkAddr (a1 : BitVec 32) (s1 : BitVec 8) (a2 : BitVec 32) (s2 : BitVec 8) : Bool :=
  let b1 := a1 &&& ~~~3#32
  let b2 := a2 &&& ~~~3#32
  let m := if b1 < b2 then b1 else b2
  let d1 := (b1 - m).toNat
  let d2 := (b2 - m).toNat
  if d1 ≥ 8 ∨ d2 ≥ 8 then false
  else (s1.setWidth 64 <<< d1) &&& (s2.setWidth 64 <<< d2) ≠ 0#64

/-! ## Store-to-load forwarding -/

/-- What the scan of one load decides. -/
inductive Scan
  | cache | retry | forward (j : Nat) (v : BitVec 32)
  deriving DecidableEq, Repr

/-- The scan over the older stores, youngest first, `comb_stlf`, RealLsu.cpp:560-592.  `ent j` is the
`j`-th store from the head, `older` the number of older stores; a forwarded value also tells which store
it came from (not in the code, used in the statements). -/
def scan (ent : Nat → StqEntry) (l : BitVec 32) (lf : BitVec 3) : (older : Nat) → Scan
  | 0 => .cache
  | j + 1 =>
    let e := ent j
    if e.st = .allocated then .retry
    else if e.paddrValid = false then .retry
    else match checkStlf l lf e.paddr e.func3 with
      | .overlap => if e.dataValid = false then .retry else .forward j (extractData e.data (l - e.paddr) lf)
      | .retry => .retry
      | .disjoint => scan ent l lf j

/-- `comb_stlf`, RealLsu.cpp:533-625, for the load in slot `i`; `oldest` is
`lsu_mmio_is_oldest_unfinished`.  `none`: the boundary assertion fails. -/
def stlf (n : Nat) (s : State) (i : Nat) (oldest : Bool) : Option State :=
  let e := s.ldq i
  let older := distance n s.head s.headFlag e.snapIdx e.snapFlag
  if older > s.count then none
  else if e.mmio then
    if older = 0 ∧ oldest = true ∧ s.unc.valid = false then
      some { s with
        ldq := upd s.ldq i { e with st := .waitMmioResp }
        unc := { valid := true, isLoad := true, addr := e.paddr, wdata := s.unc.wdata, func3 := e.func3, idx := i } }
    else some s
  else match scan (at' n s) e.paddr e.func3 older with
    | .cache => some { s with ldq := upd s.ldq i { e with st := .readyToIssue } }
    | .forward _ v => some { s with ldq := upd s.ldq i { e with result := v, st := .readyToWb } }
    | .retry => some s

/-! ## Dispatch -/

/-- `alloc_stq_entry`, RealLsu.cpp:1480-1502.  `none`: full or the generation flag is wrong. -/
def allocStq (n : Nat) (s : State) (brMask : BitVec 16) (func3 : BitVec 3) (flag : Bool) : Option State :=
  if s.count ≥ n then none
  else if flag ≠ tailFlag n s.head s.count s.headFlag then none
  else some { s with
    stq := upd s.stq (idxAfter n s.head s.count) { flag := flag, brMask := brMask, func3 := func3, st := .allocated }
    count := s.count + 1 }

/-- `alloc_ldq_entry`, RealLsu.cpp:1503-1515.  `none`: the slot is in use. -/
def allocLdq (s : State) (brMask : BitVec 16) (i : Nat) : Option State :=
  if (s.ldq i).st ≠ .empty then none
  else some { s with ldq := upd s.ldq i { brMask := brMask, st := .allocated } }

/-! ## Execution -/

/-- `handle_store_data`, RealLsu.cpp:1393-1409. -/
def storeData (s : State) (idx : Nat) (v : BitVec 32) : State :=
  let e := s.stq idx
  let e1 := { e with data := v, dataValid := true }
  { s with stq := upd s.stq idx (if e.paddrValid = true ∧ e.st = .waitData then { e1 with st := .ready } else e1) }

/-- `handle_store_addr`, RealLsu.cpp:1411-1433. -/
def storeAddr (s : State) (idx : Nat) (func3 : BitVec 3) (sc : Bool) : State :=
  let e := { s.stq idx with paddrValid := false, paddr := 0#32, func3 := func3, st := .waitTlb, lrsc := sc }
  { s with stq := upd s.stq idx e }

/-- `handle_load_req`, RealLsu.cpp:1435-1462. -/
def loadReq (s : State) (i : Nat) (func3 : BitVec 3) (snapIdx : Nat) (snapFlag lr : Bool) : State :=
  let e := { s.ldq i with
    paddr := 0#32, func3 := func3, st := .waitTlb, snapIdx := snapIdx, snapFlag := snapFlag, lr := lr }
  { s with ldq := upd s.ldq i e }

/-- Result of a TLB lookup (`MMUResultType`). -/
inductive Tlb
  | hit (pa : BitVec 32) | fault | miss
  deriving DecidableEq, Repr

/-- `comb_tlb_in_stq`, first loop, RealLsu.cpp:449-470. -/
def tlbStore (s : State) (idx : Nat) (r : Tlb) : State :=
  let e := s.stq idx
  if e.st ≠ .waitTlb then s
  else match r with
    | .hit pa =>
      let e1 := { e with
        paddrValid := true, paddr := pa, mmio := mmioAddr pa, st := if e.dataValid then .waitDone else .waitData }
      { s with stq := upd s.stq idx e1 }
    | .fault =>
      { s with stq := upd s.stq idx { e with fault := true, st := .waitDone }, rsv := { s.rsv with valid := false } }
    | .miss => { s with stq := upd s.stq idx { e with st := .waitTlbRetry } }

/-- `comb_tlb_in_stq`, second loop, RealLsu.cpp:473-494. -/
def windowStore (s : State) (idx : Nat) : State :=
  let e := s.stq idx
  match e.st with
  | .waitDone => { s with stq := upd s.stq idx { e with st := if e.fault then .pageFault else .ready } }
  | .waitTlbRetry => { s with stq := upd s.stq idx { e with st := .waitTlb } }
  | _ => s

/-- `comb_tlb_in_ldq`, first loop, RealLsu.cpp:371-389. -/
def tlbLoad (s : State) (i : Nat) (r : Tlb) : State :=
  let e := s.ldq i
  if e.st ≠ .waitTlb then s
  else match r with
    | .hit pa => { s with ldq := upd s.ldq i { e with paddr := pa, mmio := mmioAddr pa, st := .waitStlf } }
    | .fault => { s with ldq := upd s.ldq i { e with fault := true, st := .waitFinish }, rsv := { s.rsv with valid := false } }
    | .miss => { s with ldq := upd s.ldq i { e with st := .waitTlbRetry } }

/-- `comb_tlb_in_ldq`, second loop, RealLsu.cpp:391-420. -/
def windowLoad (s : State) (i : Nat) : State :=
  let e := s.ldq i
  match e.st with
  | .waitStlf => { s with ldq := upd s.ldq i { e with st := .checkStlf } }
  | .waitFinish => { s with ldq := upd s.ldq i { e with st := .pageFault } }
  | .waitTlbRetry => { s with ldq := upd s.ldq i { e with st := .waitTlb } }
  | _ => s

/-! ## Data cache, loads -/

/-- `comb_lsu2dcache_ldq`, RealLsu.cpp:661-704, for the load in slot `i`.  The request carries `p_addr`. -/
def issueLoad (s : State) (i : Nat) : State :=
  if (s.ldq i).st ≠ .readyToIssue then s
  else { s with ldq := upd s.ldq i { s.ldq i with st := .waitDcacheResp } }

/-- `comb_dcache2lsu_ldq`, RealLsu.cpp:742-761: `data = none` is a replay. -/
def respLoad (s : State) (i : Nat) (data : Option (BitVec 32)) : State :=
  let e := s.ldq i
  if e.st ≠ .waitDcacheResp then s
  else match data with
    | some d => { s with ldq := upd s.ldq i { e with result := extractData d e.paddr e.func3, st := .readyToWb } }
    | none => { s with ldq := upd s.ldq i { e with st := .readyToIssue } }

/-- `comb_lsu2exe`, RealLsu.cpp:996-1031: the write-back of a load frees its slot; LR sets the
reservation. -/
def wbLoad (s : State) (i : Nat) : State :=
  let e := s.ldq i
  if e.st ≠ .readyToWb ∧ e.st ≠ .pageFault then s
  else
    { s with
      ldq := upd s.ldq i { e with st := .empty }
      rsv := if e.lr = true ∧ e.fault = false then { valid := true, addr := e.paddr, brMask := e.brMask } else s.rsv }

/-! ## Stores: report, commit, issue, response, retirement -/

/-- The reservation test of SC, RealLsu.cpp:934-936. -/
def scPass (s : State) (idx : Nat) : Bool := s.rsv.valid && decide (s.rsv.addr = (s.stq idx).paddr)

/-- `comb_lsu2exe`, RealLsu.cpp:920-983: a finished store reports to the ROB; SC decides here. -/
def wbStore (s : State) (idx : Nat) : State :=
  let e := s.stq idx
  if e.st ≠ .ready ∧ e.st ≠ .pageFault then s
  else if e.lrsc = true ∧ e.fault = false then
    { s with
      stq := upd s.stq idx { e with scPass := scPass s idx, suppress := !scPass s idx, st := .waitCommit }
      rsv := { s.rsv with valid := false } }
  else { s with stq := upd s.stq idx { e with st := .waitCommit } }

/-- `comb_stq_commit`, RealLsu.cpp:1043-1078, for the committed store `idx`.  `none`: the assertion
"Store commit out of order?". -/
def commitStore (n : Nat) (s : State) (idx : Nat) (flush : Bool) : Option State :=
  let e := s.stq idx
  if idx = s.commit ∧ e.st = .waitCommit then
    let e1 :=
      if flush then { e with st := .done, suppress := true }
      else if e.lrsc = true ∧ e.scPass = false then { e with suppress := true, st := .done }
      else { e with st := .committed }
    some { s with
      stq := upd s.stq idx e1
      commit := adv n s.commit
      commitCount := if s.commitCount < n then s.commitCount + 1 else s.commitCount }
  else none

/-- Is there an older, unfinished store whose bytes meet those of store `i`?  RealLsu.cpp:846-857. -/
def blocked (n : Nat) (s : State) (i : Nat) : Bool :=
  (List.range i).any fun j =>
    checkAddr (at' n s j).paddr (storeStrb (at' n s j).paddr (at' n s j).func3)
      (at' n s i).paddr (storeStrb (at' n s i).paddr (at' n s i).func3) &&
    decide ((at' n s j).st ≠ .done)

/-- A store request to the data cache (`StoreReq`, back-end/include/IO.h:1285-1294). -/
structure StoreReq where
  addr : BitVec 32
  data : BitVec 32
  strb : BitVec 8
  idx : Nat
  deriving DecidableEq, Repr

/-- `comb_lsu2dcache_stq`, RealLsu.cpp:829-901, for the `i`-th store from the head. -/
def issueStore (n : Nat) (s : State) (i : Nat) : State × Option StoreReq :=
  let idx := (s.head + i) % n
  let e := s.stq idx
  if i ≥ s.commitCount ∨ e.st ≠ .committed then (s, none)
  else if blocked n s i then (s, none)
  else if e.mmio then
    if i = 0 ∧ s.unc.valid = false then
      ({ s with
          stq := upd s.stq idx { e with st := .waitMmioResp }
          unc := { valid := true, isLoad := false, addr := e.paddr, wdata := e.data, func3 := e.func3, idx := idx } },
        none)
    else (s, none)
  else if e.suppress then ({ s with stq := upd s.stq idx { e with st := .done } }, none)
  else
    ({ s with stq := upd s.stq idx { e with st := .waitDcacheResp } },
      some { addr := e.paddr, data := alignStoreData e.data e.paddr e.func3, strb := storeStrb e.paddr e.func3, idx := idx })

/-- `comb_dcache2lsu_stq`, RealLsu.cpp:787-816: `hit = false` is a replay. -/
def respStore (s : State) (idx : Nat) (hit : Bool) : State :=
  let e := s.stq idx
  if e.st ≠ .waitDcacheResp then s
  else { s with stq := upd s.stq idx { e with st := if hit then .done else .committed } }

/-- `comb_check`, RealLsu.cpp:1081-1103, one iteration. -/
def retire (n : Nat) (s : State) : State :=
  if min s.commitCount s.count = 0 ∨ (s.stq s.head).st ≠ .done then s
  else
    { s with
      count := s.count - 1
      commitCount := s.commitCount - 1
      head := (advFlag n s.head s.headFlag).1
      headFlag := (advFlag n s.head s.headFlag).2 }

/-! ## Uncached accesses -/

/-- `comb_mmio_in`, RealLsu.cpp:298-321 (with room in the finish queue). -/
def mmioResp (s : State) (rdata : BitVec 32) : State :=
  if s.unc.valid = false then s
  else if s.unc.isLoad then
    let e := s.ldq s.unc.idx
    { s with
      ldq := if e.st = .waitMmioResp then upd s.ldq s.unc.idx { e with result := rdata, st := .readyToWb } else s.ldq
      unc := { s.unc with valid := false } }
  else
    let e := s.stq s.unc.idx
    { s with
      stq := if e.st = .waitMmioResp then upd s.stq s.unc.idx { e with st := .done } else s.stq
      unc := { s.unc with valid := false } }

/-! ## Recovery -/

/-- `comb_flush`, flush, RealLsu.cpp:1104-1148. -/
def flush (n : Nat) (s : State) : State :=
  let keep := min s.commitCount s.count
  let keepUnc := s.unc.valid && !s.unc.isLoad && aliveAfterFlush n s.unc.idx s.head keep &&
    decide ((s.stq s.unc.idx).st = .waitMmioResp)
  { s with
    ldq := fun i => { s.ldq i with st := .empty }
    count := keep
    commitCount := keep
    commit := idxAfter n s.head keep
    unc := { s.unc with valid := keepUnc } }

/-- Number of stores in front of the first killed one, RealLsu.cpp:1159-1166; `k` entries to go. -/
def keepCount (n : Nat) (s : State) (m : BitVec 16) (i : Nat) : (k : Nat) → Nat
  | 0 => i
  | k + 1 => if (at' n s i).brMask &&& m ≠ 0#16 then i else keepCount n s m (i + 1) k

/-- `comb_flush`, misprediction, RealLsu.cpp:1150-1214. -/
def mispred (n : Nat) (s : State) (m : BitVec 16) : State :=
  let ldq := fun i => if (s.ldq i).st ≠ .empty ∧ (s.ldq i).brMask &&& m ≠ 0#16 then { s.ldq i with st := .empty } else s.ldq i
  let count := keepCount n s m 0 s.count
  let dropUnc :=
    if s.unc.isLoad then decide ((ldq s.unc.idx).st = .empty) else !aliveAfterFlush n s.unc.idx s.head count
  let cc := min s.commitCount count
  { s with
    ldq := ldq
    count := count
    unc := { s.unc with valid := s.unc.valid && !dropUnc }
    rsv := { s.rsv with valid := s.rsv.valid && decide (s.rsv.brMask &&& m = 0#16) }
    commitCount := cc
    commit := idxAfter n s.head cc }

/-- `comb_flush`, branch masks released, RealLsu.cpp:1216-1228.  Masks of free slots are cleared too (they
are reset at the next allocation); the code clears the entries that were live at the start of the cycle. -/
def clearMask (s : State) (m : BitVec 16) : State :=
  { s with
    ldq := fun i => { s.ldq i with brMask := (s.ldq i).brMask &&& ~~~m }
    stq := fun i => { s.stq i with brMask := (s.stq i).brMask &&& ~~~m }
    rsv := { s.rsv with brMask := if s.rsv.valid then s.rsv.brMask &&& ~~~m else s.rsv.brMask } }

end Verif.Lsu

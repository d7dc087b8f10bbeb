/-
The top-down counters (`PerfCount`, back-end/include/PerfCount.h:229-269): where they are counted up (back-end/Dispatch.cpp:574-701, 715-733,
back-end/Ren.cpp:268-294, 356-373, back-end/PreIduQueue.cpp:99-103, 210-221) and how they are reported (PerfCount.h:1293-1402).

Simplifications: the counters (`uint64_t`) are natural numbers, so what is proved holds until one of them wraps; the percentages are given by
their numerators; the counters of stall cycles (`stall_*_cycles`, `dis2ren_not_ready_*`) are left out.
-/
namespace Verif.TopDown

/-- The counters; `start` is `perf_start`. -/
structure Perf where
  cycle : Nat := 0
  commits : Nat := 0
  issued : Nat := 0
  backend : Nat := 0
  frontend : Nat := 0
  memLsu : Nat := 0
  ldqFull : Nat := 0
  stqFull : Nat := 0
  l1 : Nat := 0
  ext : Nat := 0
  coreIq : Nat := 0
  coreRob : Nat := 0
  recMispred : Nat := 0
  recFlush : Nat := 0
  pure : Nat := 0
  fetchLat : Nat := 0
  fetchBw : Nat := 0
  waste : Nat := 0
  pendMispred : Nat := 0
  pendFlush : Nat := 0
  mispredRen : Nat := 0
  mispredDis : Nat := 0
  mispredTotal : Nat := 0
  flushRen : Nat := 0
  flushDis : Nat := 0
  flushTotal : Nat := 0
  /-- `ib_consume_available_slots`, `ib_consume_consumed_slots` -/
  avail : Nat := 0
  consumed : Nat := 0
  start : Bool := false
  deriving DecidableEq

/-- What the accounting looks at in one dispatch slot. -/
structure Slot where
  /-- `dis_fire[i]` -/
  fire : Bool
  /-- `inst_valid[i]` -/
  valid : Bool
  /-- `rob2dis->ready`, `tma.head_is_memory`, `tma.head_not_ready`, `tma.head_is_miss` -/
  robReady : Bool
  headMem : Bool
  headWaits : Bool
  headMiss : Bool
  /-- `dis2rob->valid[i]`, `dispatch_success_flags[i]` -/
  robValid : Bool
  ok : Bool
  load : Bool
  store : Bool
  ldqNone : Bool
  stqNone : Bool
  icacheBusy : Bool
  deriving DecidableEq

/-- The flags `is_core_bound_rob[i]` … `is_mem_stq_full[i]`. -/
structure Why where
  coreRob : Bool := false
  coreIq : Bool := false
  l1 : Bool := false
  ext : Bool := false
  ldq : Bool := false
  stq : Bool := false

/-- The analysis loop, Dispatch.cpp:584-641. -/
def why (x : Slot) : Why :=
  if !x.fire && x.valid then
    if !x.robReady then
      if x.headMem && x.headWaits then if x.headMiss then { ext := true } else { l1 := true }
      else { coreRob := true }
    else if !x.robValid then
      if x.load then { l1 := true, ldq := true }
      else if x.store then { l1 := true, stq := true }
      else { coreIq := true }
    else if !x.ok then
      if x.load then if x.ldqNone then { l1 := true, ldq := true } else { coreIq := true }
      else if x.store then if x.stqNone then { l1 := true, stq := true } else { coreIq := true }
      else { coreIq := true }
    else {}
  else {}

/-- The counting loop, Dispatch.cpp:657-701, for one slot. -/
def slot (p : Perf) (x : Slot) : Perf :=
  if x.fire then { p with issued := p.issued + 1 }
  else if x.valid then
    let p := { p with backend := p.backend + 1 }
    let w := why x
    if w.l1 then
      let p := { p with memLsu := p.memLsu + 1, l1 := p.l1 + 1 }
      let p := if w.ldq then { p with ldqFull := p.ldqFull + 1 } else p
      if w.stq then { p with stqFull := p.stqFull + 1 } else p
    else if w.ext then { p with memLsu := p.memLsu + 1, ext := p.ext + 1 }
    else if w.coreRob then { p with coreRob := p.coreRob + 1 }
    else if w.coreIq then { p with coreIq := p.coreIq + 1 }
    else { p with coreIq := p.coreIq + 1 }
  else
    let p := { p with frontend := p.frontend + 1 }
    if 0 < p.pendMispred then
      { p with recMispred := p.recMispred + 1, waste := p.waste + 1, pendMispred := p.pendMispred - 1 }
    else if 0 < p.pendFlush then
      { p with recFlush := p.recFlush + 1, waste := p.waste + 1, pendFlush := p.pendFlush - 1 }
    else
      let p := { p with pure := p.pure + 1 }
      if x.icacheBusy then { p with fetchLat := p.fetchLat + 1 } else { p with fetchBw := p.fetchBw + 1 }

/-- `is_ckpt`, `ckpt_warmup_commit_target`. -/
structure Ckpt where
  on : Bool
  warmup : Nat

/-- One retired instruction, Ren.cpp:270-288: at the end of the warm-up all counters are set to 0 (`perf_reset`, PerfCount.h:300). -/
def commit (c : Ckpt) (p : Perf) : Perf :=
  let p := { p with commits := p.commits + 1 }
  if c.on && !p.start && decide (c.warmup ≤ p.commits) then { start := true } else p

/-- Instructions thrown away in the latches of dispatch (Dispatch.cpp:715-733) and of rename (Ren.cpp:356-373). -/
def killDis (p : Perf) (flush mispred : Bool) (killed : Nat) : Perf :=
  if (flush || mispred) && decide (0 < killed) then
    if flush then { p with flushDis := p.flushDis + killed, flushTotal := p.flushTotal + killed, pendFlush := p.pendFlush + killed }
    else { p with mispredDis := p.mispredDis + killed, mispredTotal := p.mispredTotal + killed, pendMispred := p.pendMispred + killed }
  else p

def killRen (p : Perf) (flush mispred : Bool) (killed : Nat) : Perf :=
  if (flush || mispred) && decide (0 < killed) then
    if flush then { p with flushRen := p.flushRen + killed, flushTotal := p.flushTotal + killed, pendFlush := p.pendFlush + killed }
    else { p with mispredRen := p.mispredRen + killed, mispredTotal := p.mispredTotal + killed, pendMispred := p.pendMispred + killed }
  else p

/-- A cycle: `SimCpu::cycle` counts it (rv_simu_mmu_v2.cpp:1018), then in the order of back-end/BackTop.cpp:371-393 dispatch accounts for its slots,
rename counts the `n` retired instructions, the instruction buffer what decode took, dispatch and rename what they throw away; the instruction buffer has
counted what it offers before all that (BackTop.cpp:269). -/
def cycle (c : Ckpt) (p : Perf) (offered : Nat) (slots : List Slot) (n taken : Nat) (flush mispred : Bool) (dis ren : Nat) : Perf :=
  let p := { p with cycle := p.cycle + 1, avail := p.avail + offered }
  let p := slots.foldl slot p
  let p := (List.range n).foldl (fun p _ => commit c p) p
  let p := { p with consumed := p.consumed + taken }
  killRen (killDis p flush mispred dis) flush mispred ren

/-- The level-1 report, PerfCount.h:1298-1314, 1358: total, front-end bound, back-end bound, bad speculation, retiring. -/
structure Report where
  total : Int
  frontend : Int
  backend : Int
  badSpec : Int
  retiring : Int
  deriving DecidableEq

def report (p : Perf) : Report :=
  let total := p.issued + p.backend + p.frontend
  let bad : Int := (p.issued : Int) - p.commits
  ⟨if total = 0 then 1 else total, p.frontend, p.backend, if bad < 0 then 0 else bad, p.commits⟩

/-- The report at decode, PerfCount.h:1359-1402; subtractions of `uint64_t` whose second operand was bounded by the first; `w` is `DECODE_WIDTH`. -/
def reportIdu (w : Nat) (p : Perf) : Report :=
  let total := if p.cycle * w = 0 then 1 else p.cycle * w
  let supplied := if p.avail > total then total else p.avail
  let accepted := if p.consumed > supplied then supplied else p.consumed
  let retiring := if p.commits > accepted then accepted else p.commits
  ⟨total, (total - supplied : Nat), (supplied - accepted : Nat), (accepted - retiring : Nat), retiring⟩

end Verif.TopDown

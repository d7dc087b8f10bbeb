/-
The execution unit: functional units (back-end/Exu/include/AbstractFU.h:10-243), the
input slot in front of each of them and the per-port arbitration
(back-end/Exu/Exu.cpp:150-232, 286-355, 364-389, 398-490, 558-597).  Parametric in the
number of branch tags `n` (`BR_MASK_WIDTH`), the unit latencies and the list of units of a port.

Simplifications: an operation carries its `result` from the moment it is issued
(`impl_compute`, a pure function of the operation, is modelled in `Verif.Model.Fu`); the
loops over all units, whose bodies touch one unit each, are fused into one pass per port
(`portGo`), with the two searches that do look across units (first complete unit of the
port, first free supporting unit of the port) kept as accumulators; `sim_time` is an
unbounded natural number.
-/
namespace Verif.Exu

/-- `ExuInst` (ExuTypes.h), the fields used below.  `lat` is `calculate_latency(inst)`
(AbstractFU.h:242, FPU.h:248-269), `redirect` is `diag_val`, `id` stands for the payload. -/
structure Op (n : Nat) where
  id : Nat
  op : Nat
  lat : Nat
  brMask : BitVec n
  robIdx : Nat
  robFlag : Bool
  brId : Nat
  mispred : Bool
  redirect : BitVec 32
  destEn : Bool
  dest : Nat
  result : BitVec 32
  deriving DecidableEq, Repr

/-- The broadcasts seen in a cycle: `rob_bcast->flush`, `dec_bcast->{mispred, br_id, clear_mask}`. -/
structure Ctl (n : Nat) where
  flush : Bool
  mispred : Bool
  brId : Nat
  clear : BitVec n
  deriving DecidableEq, Repr

/-- `dec_bcast->br_mask`, Idu.cpp:187-197. -/
def Ctl.mask {n : Nat} (c : Ctl n) : BitVec n := if c.mispred then 1#n <<< c.brId else 0#n

/-- `is_br_killed`, Exu.cpp:5-9. -/
def brKilled {n : Nat} (c : Ctl n) (o : Op n) : Bool := c.mispred && (o.brMask &&& c.mask != 0#n)

/-- `br_mask &= ~clear_mask`, Exu.cpp:306-308, 378-380, AbstractFU.h:136-140, 208-210. -/
def scrub {n : Nat} (c : Ctl n) (o : Op n) : Op n := { o with brMask := o.brMask &&& ~~~c.clear }

/-- `exu2fu.flush`, Exu.cpp:339-340, 347. -/
def Ctl.fuFlush {n : Nat} (c : Ctl n) : Bool := c.flush || (!c.flush && c.mispred)

/-- `exu2fu.flush_mask`, Exu.cpp:341-343. -/
def Ctl.fuMask {n : Nat} (c : Ctl n) : BitVec n :=
  if c.flush then BitVec.allOnes n else if !c.flush && c.mispred then c.mask else 0#n

/-- The test `in.flush_mask == ~wire<BR_MASK_WIDTH>(0)`, AbstractFU.h:122, 203.  `wire<N>` is
`uint8_t`/`uint16_t` for `N ≤ 16` (base_types.h:242-256): there `~` promotes its operand to `int`
and yields −1, which no promoted mask equals, so the test is false for every mask. -/
def isFullMask (n : Nat) (m : BitVec n) : Bool := decide (16 < n) && m == BitVec.allOnes n

/-- A functional unit with its registers: `SingleCycleFU` (AbstractFU.h:43-68), `FixedLatencyFU`
(71-165: latency, pipeline of operation and done cycle), `IterativeFU` (167-243: the operation
in progress, if `busy`, and its done cycle). -/
inductive Fu (n : Nat) where
  | single
  | fixed (lat : Nat) (pipe : List (Op n × Nat))
  | iter (cur : Option (Op n × Nat))
  deriving DecidableEq, Repr

/-- Which operations a `flush` kills inside a unit, AbstractFU.h:121-133, 202-207. -/
def fuKills {n : Nat} (c : Ctl n) (o : Op n) : Bool :=
  c.fuFlush && (isFullMask n c.fuMask || (o.brMask &&& c.fuMask != 0#n))

/-- `comb_ctrl`, AbstractFU.h:120-141, 201-211 (nothing for `SingleCycleFU`). -/
def Fu.ctrl {n : Nat} (c : Ctl n) : Fu n → Fu n
  | .single => .single
  | .fixed l pipe =>
    .fixed l ((pipe.filter (fun e => !fuKills c e.1)).map (fun e => (scrub c e.1, e.2)))
  | .iter cur =>
    .iter ((cur.filter (fun e => !fuKills c e.1)).map (fun e => (scrub c e.1, e.2)))

/-- `limit`, AbstractFU.h:104, 144, 161. -/
def limit (l : Nat) : Nat := if l = 0 then 1 else l

/-- The accepting half of `comb_issue`, AbstractFU.h:143-152, 213-224. -/
def Fu.accept {n : Nat} (t : Nat) (en : Option (Op n)) : Fu n → Fu n
  | .single => .single
  | .fixed l pipe =>
    match en with
    | some o => if pipe.length < limit l then .fixed l (pipe ++ [(o, t + l - 1)]) else .fixed l pipe
    | none => .fixed l pipe
  | .iter (some e) => .iter (some e)
  | .iter none => .iter (en.map (fun o => (o, t + o.lat)))

/-- The completing half of `comb_issue`, AbstractFU.h:56-62, 154-157, 226-229:
`complete` and the completed operation. -/
def Fu.offer {n : Nat} (t : Nat) (en : Option (Op n)) : Fu n → Option (Op n)
  | .single => en
  | .fixed _ [] => none
  | .fixed _ ((o, d) :: _) => if d ≤ t then some o else none
  | .iter none => none
  | .iter (some (o, d)) => if d ≤ t then some o else none

/-- The state change of `comb_consume`, AbstractFU.h:159-162, 232-236. -/
def Fu.consume {n : Nat} (t : Nat) (won : Bool) : Fu n → Fu n
  | .single => .single
  | .fixed l [] => .fixed l []
  | .fixed l ((o, d) :: p) => if won && decide (d ≤ t) then .fixed l p else .fixed l ((o, d) :: p)
  | .iter none => .iter none
  | .iter (some (o, d)) => if won && decide (d ≤ t) then .iter none else .iter (some (o, d))

/-- `ready` after `comb_consume`, AbstractFU.h:64, 163-164, 237. -/
def Fu.ready {n : Nat} (en : Option (Op n)) (won : Bool) : Fu n → Bool
  | .single => en.isNone || won
  | .fixed l pipe => decide (pipe.length < limit l)
  | .iter cur => cur.isNone

/-- A unit on a port: `support_mask`, the unit and its input slot `fu_inst_r`, Exu.cpp:26-140. -/
structure Cell (n : Nat) where
  sup : Nat → Bool
  fu : Fu n
  slot : Option (Op n)

/-- Slot after the kill of `comb_exu2fu_dispatch`, Exu.cpp:365-377. -/
def liveSlot {n : Nat} (c : Ctl n) (x : Cell n) : Option (Op n) :=
  x.slot.filter (fun o => !(c.flush || brKilled c o))

/-- What the unit is given (`en`/`inst`), Exu.cpp:378-384. -/
def enOf {n : Nat} (c : Ctl n) (x : Cell n) : Option (Op n) := (liveSlot c x).map (scrub c)

/-- The unit after `comb_fu_ctrl`, `comb_fu_exec`, Exu.cpp:338-355, 398-405. -/
def midFu {n : Nat} (c : Ctl n) (t : Nat) (x : Cell n) : Fu n := (x.fu.ctrl c).accept t (enOf c x)

/-- `complete`/`inst` of the unit: also its bypass broadcast, Exu.cpp:412-421. -/
def offerOf {n : Nat} (c : Ctl n) (t : Nat) (x : Cell n) : Option (Op n) :=
  (midFu c t x).offer t (enOf c x)

/-- The unit after the consume stage, Exu.cpp:491-499. -/
def postFu {n : Nat} (c : Ctl n) (t : Nat) (won : Bool) (x : Cell n) : Fu n :=
  (midFu c t x).consume t won

/-- `fu2exu.ready` after the consume stage. -/
def rdyOf {n : Nat} (c : Ctl n) (t : Nat) (won : Bool) (x : Cell n) : Bool :=
  (postFu c t won x).ready (enOf c x) won

/-- The input slot after the consume stage, Exu.cpp:500-504. -/
def postSlot {n : Nat} (c : Ctl n) (t : Nat) (won : Bool) (x : Cell n) : Option (Op n) :=
  if rdyOf c t won x then none else liveSlot c x

/-- The input slot after the first half of `comb_pipeline`, Exu.cpp:287-309. -/
def pipeSlot {n : Nat} (c : Ctl n) (t : Nat) (won : Bool) (x : Cell n) : Option (Op n) :=
  if c.flush then none
  else ((postSlot c t won x).filter (fun o => !brKilled c o)).map (scrub c)

/-- Is the unit the target of the search of Exu.cpp:318-330 for operation `o`? -/
def takes {n : Nat} (c : Ctl n) (t : Nat) (won : Bool) (x : Cell n) (o : Op n) : Bool :=
  !c.flush && !brKilled c o && x.sup o.op && ((pipeSlot c t won x).isNone || rdyOf c t won x)

/-- One unit's outcome in a cycle: its next registers, the operation it announces as complete,
the one taken from it by the port, the one put in its slot. -/
structure CellOut (n : Nat) where
  cell : Cell n
  offer : Option (Op n)
  del : Option (Op n)
  acc : Option (Op n)

/-- One unit's cycle. `won`: its completion is the one its port takes.  `inc`: the operation the
port still has to place. -/
def cellStep {n : Nat} (c : Ctl n) (t : Nat) (won : Bool) (inc : Option (Op n)) (x : Cell n) :
    CellOut n :=
  let acc := (inc.filter (takes c t won x)).map (scrub c)
  { cell := { x with fu := postFu c t won x, slot := acc.or (pipeSlot c t won x) }
    offer := offerOf c t x
    del := if won then offerOf c t x else none
    acc := acc }

/-- One port's cycle, Exu.cpp:432-447 (the first complete unit wins, `taken` once there is one),
491-504, 311-334 (the issued operation `inc` goes to the first unit that takes it). -/
def portGo {n : Nat} (c : Ctl n) (t : Nat) : Bool → Option (Op n) → List (Cell n) → List (CellOut n)
  | _, _, [] => []
  | taken, inc, x :: xs =>
    let won := !taken && (offerOf c t x).isSome
    cellStep c t won inc x ::
      portGo c t (taken || (offerOf c t x).isSome)
        (if ((inc.filter (takes c t won x))).isSome then none else inc) xs

/-- `fu_ready_mask` of a port for operation `op`, `comb_ready`, Exu.cpp:209-232. -/
def readyMask {n : Nat} (c : Ctl n) (t : Nat) (op : Nat) : Bool → List (Cell n) → Bool
  | _, [] => false
  | taken, x :: xs =>
    let won := !taken && (offerOf c t x).isSome
    (!c.flush && x.sup op && ((postSlot c t won x).isNone || rdyOf c t won x)) ||
      readyMask c t op (taken || (offerOf c t x).isSome) xs

/-- The operation a port completes in a cycle (`u`), Exu.cpp:432-447. -/
def portWinner {n : Nat} (c : Ctl n) (t : Nat) : List (Cell n) → Option (Op n)
  | [] => none
  | x :: xs => (offerOf c t x).or (portWinner c t xs)

/-- `flushed`, Exu.cpp:451. -/
def flushed {n : Nat} (c : Ctl n) (o : Op n) : Bool := c.flush || brKilled c o

/-- `cmp_inst_age(a, b)`: is `a` younger than `b`?, util.h:191-197. -/
def cmpAge {n : Nat} (a b : Op n) : Bool :=
  if a.robFlag = b.robFlag then decide (b.robIdx < a.robIdx) else decide (a.robIdx < b.robIdx)

/-- Loop state of the branch arbitration, Exu.cpp:558-562. -/
structure Arb (n : Nat) where
  clear : BitVec n
  worst : Option (Op n)

/-- One turn of the loop, Exu.cpp:564-578. -/
def arbStep {n : Nat} (a : Arb n) (u : Op n) : Arb n :=
  { clear := a.clear ||| (1#n <<< u.brId)
    worst :=
      if u.mispred then
        match a.worst with
        | none => some u
        | some w => if cmpAge w u then some u else some w
      else a.worst }

/-- The arbitration over the live branch results `br_res`, Exu.cpp:483-489, 558-597:
`clear` is `exu2id->clear_mask`, `worst` gives `mispred`, `redirect_pc`, `br_id`, `redirect_rob_idx`. -/
def arbitrate {n : Nat} (c : Ctl n) (res : List (Op n)) : Arb n :=
  (res.filter (fun u => !flushed c u)).foldl arbStep ⟨0#n, none⟩

end Verif.Exu

import Verif.Spec.Sched
import Verif.Model.Wake
/-
The issue queues (`Sched`) with the wake-up bus: what is broadcast in a cycle is what the issue stage computes (`Isu::comb_awake`,
`comb_calc_latency_next`, Isu.cpp:216-456) from the operations issued and from the registers that count down multi-cycle
operations (`Model/Wake`), and the loads' announcements, which are still the environment's.  The models are unchanged.

In contrast to the closed model of the wake-up registers of one class of operations (`WakeTiming`, C46), which operations are
issued, which branch masks they carry and what is squashed are computed by the queues and the stages before them.

A slot of a queue carries the whole operation; here the destination register and the function code are those of the instruction as
dispatched (`Sched.State.inst`), found by its number.  By that number the state also remembers (a ghost, read by nothing) how
many cycles ago the operation writing the destination was issued.
-/
namespace Verif.Waker
open Verif.Spine
open Verif.Decode (DecInst MicroOp Iq decompose)
open Verif.IssueWindow (queued)
open Verif.Wake (Entry)

/-- Parameters: those of the queues, `MUL_MAX_LATENCY` and `DIV_MAX_LATENCY`, the numbers of units (`ISU_MUL_WAKE_SLOT_NUM`, …,
Isu.h:36-47), the ports of the units (`get_port_for_unit`, Isu.cpp:366-375), and which ports have an ALU (`fast_ch_map[i] != -1`,
Isu.cpp:353-363). -/
structure Cfg where
  sc : Sched.Cfg
  mulLat : Nat
  divLat : Nat
  muls : Nat
  divs : Nat
  fps : Nat
  mulPort : Nat → Nat
  divPort : Nat → Nat
  fpPort : Nat → Nat
  alu : Nat → Bool

variable {n : Nat}

/-- `Isu::get_latency`, Isu.cpp:112-137. -/
def latency (k : Cfg) (m : MicroOp) : Nat :=
  match m.op with
  | .mul => k.mulLat
  | .div => k.divLat
  | .fp => Wake.isuFpLatency m.inst.func7
  | _ => 1

structure State (n : Nat) where
  sc : Sched.State n
  mul : List (List (Option (Entry n)))
  div : List (Option (Entry n))
  fp : List (Option (Entry n))
  /-- ghost: cycles since the operation writing the destination was issued (0: not issued) -/
  since : Nat → Nat

/-- `Isu::init`, Isu.cpp:29-48 (`ISU_MUL_WAKE_DEPTH = MUL_MAX_LATENCY - 1`). -/
def init (n : Nat) (k : Cfg) : State n :=
  ⟨Sched.init n k.sc, List.replicate (k.mulLat - 1) (List.replicate k.muls none), List.replicate k.divs none,
    List.replicate k.fps none, fun _ => 0⟩

/-- What the rest of the machine supplies: as for `Sched` (whose `wakes` are not used), and the registers that loads have
delivered (`prf_awake`). -/
structure Cyc (n : Nat) where
  hw : Spine.Cyc n
  fuReady : Nat → Nat → Bool
  slow : List Nat

def queues : List Iq := [.int, .ld, .sta, .std, .br]

/-- An operation issued: what its slot held, the port, the operation. -/
structure Issue (n : Nat) where
  uop : IssueQueue.Uop n
  port : Nat
  mop : MicroOp

/-- `iss2prf->iss_entry`, Isu.cpp:193-213, with the queues' inputs `i`. -/
def issues (k : Cfg) (s : State n) (c : Cyc n) : List (Issue n) :=
  queues.flatMap fun q =>
    (IssueQueue.granted (k.sc.policy q) (k.sc.ports q) (s.sc.iq q) c.fuReady
      (flush s.sc.sp (Sched.hw k.sc s.sc ⟨c.hw, c.fuReady⟩) || s.sc.sp.idu.latch.mispred)).filterMap fun g =>
        ((s.sc.iq q).ent[g.1]?.join).bind fun x => (Sched.part s.sc x.id q).map fun m => ⟨x, g.2.idx, m⟩

/-- The destination register of an operation issued. -/
def dest (s : State n) (o : Issue n) : Nat := (s.sc.inst o.uop.id).destPreg

/-- The operations of class `op` that go to the wake-up registers, Isu.cpp:304-325. -/
def late (k : Cfg) (s : State n) (c : Cyc n) (op : Fu.Uop) : List (Exu.Op n) :=
  ((issues k s c).filter fun o => o.mop.inst.destEn && decide (1 < latency k o.mop) && decide (o.mop.op = op)).map fun o =>
    ⟨o.uop.id, o.uop.op, latency k o.mop, o.uop.brMask, o.uop.robIdx, o.uop.robFlag, 0, false, 0#32, true, dest s o, 0#32⟩

/-- The registers broadcast at once, Isu.cpp:428-443.  (A port has a channel of its own and issues one operation, so the assertion
there holds.) -/
def fast (k : Cfg) (s : State n) (c : Cyc n) : List Nat :=
  ((issues k s c).filter fun o => o.mop.inst.destEn && decide (latency k o.mop ≤ 1) && decide (o.mop.op ≠ .load) &&
    decide (o.mop.op ≠ .sta) && k.alu o.port).map (dest s)

/-- The registers whose delay is over, Isu.cpp:387-426. -/
def due (s : State n) : List Nat :=
  (Wake.iterDue s.div ++ Wake.iterDue s.fp ++ Wake.mulDue s.mul).map (·.2)

/-- `Isu::comb_awake`, Isu.cpp:334-456; `none`: two delayed results meet on a channel (`Assert`, Isu.cpp:392-424).  Otherwise each
has its channel (C47). -/
def wakes (k : Cfg) (s : State n) (c : Cyc n) : Option (List Nat) :=
  match Wake.delayedBus k.divPort k.fpPort k.mulPort s.div s.fp s.mul with
  | .collision => none
  | .ok _ => some (c.slow ++ due s ++ fast k s c)

/-- What the queues see, with the registers broadcast. -/
def cyc (c : Cyc n) (ws : List Nat) : Sched.Cyc n := ⟨{ c.hw with wakes := ws }, c.fuReady⟩

/-- The squashes the wake-up registers see, Isu.cpp:458-535. -/
def ctl (k : Cfg) (s : State n) (c : Cyc n) : Exu.Ctl n :=
  ⟨flush s.sc.sp (Sched.hw k.sc s.sc ⟨c.hw, c.fuReady⟩), (Idu.combBranch s.sc.sp.idu).mispred, s.sc.sp.idu.latch.brId,
    (Idu.combBranch s.sc.sp.idu).clear⟩

/-- One cycle; `none`: an assertion fails (a queue is full, two delayed results meet on a channel, a wake-up register is full). -/
def step (k : Cfg) (s : State n) (c : Cyc n) : Option (State n) :=
  (wakes k s c).bind fun ws => (Sched.step k.sc s.sc (cyc c ws)).bind fun t =>
    (Wake.mulNext (ctl k s c) (late k s c .mul) s.mul).bind fun mul =>
    (Wake.iterNext (ctl k s c) (late k s c .div) s.div).bind fun div =>
    (Wake.iterNext (ctl k s c) (late k s c .fp) s.fp).map fun fp =>
      ⟨t, mul, div, fp, fun u =>
        if (issues k s c).any fun o => o.uop.id == u && o.mop.inst.destEn then 1 else if s.since u = 0 then 0 else s.since u + 1⟩

/-! ### What is seen of it -/

/-- The cycles from the issue of an operation to the announcement of its result: none for an operation that takes one cycle; a
multiplication is announced in the last cycle but one, a division and a floating-point operation in the last cycle of the latency. -/
def delay (k : Cfg) (m : MicroOp) : Nat :=
  if latency k m ≤ 1 then 0 else if m.op = .mul then latency k m - 1 else latency k m

/-- The result of the instruction does not come from memory and is written by operation `m`. -/
def computes (d : DecInst) (m : MicroOp) : Prop := m ∈ decompose d ∧ m.inst.destEn = true ∧ m.iq = .int

/-- What the rest of the machine guarantees of a cycle: as for `Spine` and for the operations still in the queues (`Sched`); no unit
reports a multi-cycle operation before its delay is over (C46); loads announce only destinations of memory instructions in the
reorder buffer, or (a load into `x0`, RealLsu.cpp:1010-1012) register 0. -/
structure Valid (k : Cfg) (s : State n) (c : Cyc n) : Prop where
  hw : Spine.Valid k.sc.sp s.sc.sp (Sched.hw k.sc s.sc ⟨c.hw, c.fuReady⟩)
  parts : ∀ w ∈ c.hw.wbs ++ c.hw.res.map brWb, ∀ v ∈ RobQueue.insts k.sc.sp.L s.sc.sp.rob, v.robIdx = w.robIdx →
    ∀ q, ∀ x ∈ queued (s.sc.iq q), x.id = v.id → w.bit &&& Sched.partBit (s.sc.inst v.id).dec q = 0#3
  units : ∀ w ∈ c.hw.wbs ++ c.hw.res.map brWb, ∀ v ∈ RobQueue.insts k.sc.sp.L s.sc.sp.rob, v.robIdx = w.robIdx →
    ∀ m, computes (s.sc.inst v.id).dec m → s.since v.id < delay k m → w.bit &&& Sched.partBit (s.sc.inst v.id).dec .int = 0#3
  loads : ∀ p ∈ c.slow, p = 0 ∨ ∃ u ∈ robIds k.sc.sp s.sc.sp, (s.sc.inst u).destPreg = p ∧ (s.sc.inst u).dec.destEn = true ∧
    ((s.sc.inst u).dec.type = .load ∨ (s.sc.inst u).dec.type = .amo)

/-- What is required of the parameters: the ports of the integer queue have an ALU (`IQ_ALU_PORT_BASE`, config.h:466, 496-498). -/
def Alu (k : Cfg) : Prop := ∀ p ∈ k.sc.ports .int, k.alu p.idx = true

inductive Reach (k : Cfg) : State n → Prop
  | init : Reach k (init n k)
  | step {s s' : State n} (c : Cyc n) : Reach k s → Valid k s c → step k s c = some s' → Reach k s'

end Verif.Waker

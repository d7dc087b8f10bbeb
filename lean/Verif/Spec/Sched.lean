import Verif.Spec.Spine
import Verif.Spec.IssueWindow
/-
The in-order back end (`Spine`) with its issue queues: the dispatch stage of `Spine` hands its micro-operations to the five
issue queues of `Model/IssueQueue`, which tell it how much room they have (`iss2dis->ready_num`, Isu.cpp:146-150) and see the
same broadcasts (flush, misprediction, cleared branch tags, wake-ups) as dispatch does, as wired in BackTop.cpp:60-120.  The
models are unchanged.

In contrast to the closed model of one queue (`IssueWindow`), where what is dispatched, its busy marks and its branch masks are
the environment's, here they are what dispatch, rename and decode compute.  What is left open (`Cyc`): which registers are
broadcast when, which ports are ready, and what the units report to the reorder buffer (`Valid`: nothing is reported finished
that has not been issued, nothing is broadcast whose producer has not been dispatched).

By the number an instruction got at decode the state also remembers (ghosts, read by nothing): the instruction as
dispatched, whether its destination has been broadcast since, and what each queue has issued.
-/
namespace Verif.Sched
open Verif.Spine
open Verif.Decode (DecInst MicroOp Iq decompose)
open Verif.IssueWindow (queued grants)
open Verif.DispatchGroup (fired)

/-- Parameters: those of the in-order part and, per queue, the number of slots, the issue ports and the policy
(`GLOBAL_IQ_CONFIG`, include/config.h:496-508), and the numbering of the kinds of operation (`UopType`). -/
structure Cfg where
  sp : Spine.Cfg
  size : Iq → Nat
  ports : Iq → List IssueQueue.Port
  policy : Iq → Bool
  kind : Fu.Uop → Nat

variable {n : Nat}

structure State (n : Nat) where
  sp : St n
  iq : Iq → IssueQueue.State n
  /-- ghost: the instruction as dispatched -/
  inst : Nat → Dispatch.Inst n
  /-- ghost: its destination register was broadcast while it was in the reorder buffer -/
  ann : Nat → Bool
  /-- ghost: the instructions each queue has issued an operation of -/
  out : Iq → List Nat

def init (n : Nat) (k : Cfg) : State n :=
  ⟨Spine.init n k.sp, fun q => IssueQueue.init n (k.size q), fun _ => Dispatch.blank, fun _ => false, fun _ => []⟩

/-- What the rest of the machine supplies: as for `Spine` (whose `ready` is not used), and the ports' readiness. -/
structure Cyc (n : Nat) where
  hw : Spine.Cyc n
  fuReady : Nat → Nat → Bool

/-- `IqStoredUop::from_dis_iss_uop`, IssueQueue.h:30-122, on a request of dispatch. -/
def toIq (k : Cfg) (p : Dispatch.Packet n) : IssueQueue.Uop n :=
  { id := p.of.inst.ftq
    src := fun b => if b then ⟨p.mop.inst.src2En, p.src2Busy, p.src2Preg⟩ else ⟨p.mop.inst.src1En, p.src1Busy, p.src1Preg⟩
    op := k.kind p.mop.op
    brMask := p.of.inst.brMask
    robIdx := p.of.robIdx
    robFlag := p.of.robFlag }

/-- The inputs of the in-order part, with the queues' free slots (Isu.cpp:146-150). -/
def hw (k : Cfg) (s : State n) (c : Cyc n) : Spine.Cyc n :=
  { c.hw with ready := fun q => IssueQueue.freeSlots (k.size q) (s.iq q) }

def dis (k : Cfg) (s : State n) (c : Cyc n) : Dispatch.Out n := disOut k.sp s.sp (hw k s c)

/-- The inputs of a queue, Isu.cpp:159-213, 464-476. -/
def iqIn (k : Cfg) (s : State n) (c : Cyc n) (q : Iq) : IssueQueue.Input n :=
  { fuReady := c.fuReady
    block := flush s.sp (hw k s c) || s.sp.idu.latch.mispred
    wakes := c.hw.wakes
    enq := (Dispatch.sent (dis k s c) q).map (toIq k)
    all := flush s.sp (hw k s c)
    br := (Idu.combBranch s.sp.idu).mispred
    brMask := (Idu.combBranch s.sp.idu).brMask
    clear := (Idu.combBranch s.sp.idu).clear }

def iqStep (k : Cfg) (s : State n) (c : Cyc n) (q : Iq) : Option (IssueQueue.State n) :=
  IssueQueue.step k.sp.P (k.size q) (k.policy q) (k.ports q) (s.iq q) (iqIn k s c q)

/-- All queues; `none`: one of them failed an assertion. -/
def queues (k : Cfg) (s : State n) (c : Cyc n) : Option (Iq → IssueQueue.State n) :=
  (iqStep k s c .int).bind fun a => (iqStep k s c .ld).bind fun b => (iqStep k s c .sta).bind fun d =>
    (iqStep k s c .std).bind fun e => (iqStep k s c .br).map fun f q =>
      match q with
      | .int => a | .ld => b | .sta => d | .std => e | .br => f

/-- What queue `q` issues this cycle. -/
def issued (k : Cfg) (s : State n) (c : Cyc n) (q : Iq) : List (IssueQueue.Uop n) :=
  grants (k.policy q) (k.ports q) (s.iq q) (iqIn k s c q)

/-- One cycle. -/
def step (k : Cfg) (s : State n) (c : Cyc n) : Option (State n) :=
  (queues k s c).map fun iq =>
    { sp := Spine.step k.sp s.sp (hw k s c)
      iq := iq
      inst := fun u => (((fired (dis k s c)).find? (fun a => a.inst.ftq == u)).map (·.inst)).getD (s.inst u)
      ann := fun u => decide (u ∈ robIds k.sp s.sp) &&
        (s.ann u || ((s.inst u).dec.destEn && c.hw.wakes.contains (s.inst u).destPreg))
      out := fun q => s.out q ++ (issued k s c q).map (·.id) }

/-- The bit with which the operation of an instruction on queue `q` is reported (`rob_cplt_mask_from_iq`, util.h:72-86); the
address operation of a store-conditional is reported with the result, Dispatch.cpp:220-226. -/
def partBit (d : DecInst) (q : Iq) : BitVec 3 :=
  if d.type = .amo ∧ d.amoOp = 3#7 ∧ q = .sta then 1#3 else Dispatch.cpltGroup q

/-- What the rest of the machine guarantees of a cycle: as for `Spine`, no operation still in its queue is reported
finished, and no register is broadcast whose producer has not been dispatched. -/
structure Valid (k : Cfg) (s : State n) (c : Cyc n) : Prop where
  hw : Spine.Valid k.sp s.sp (hw k s c)
  parts : ∀ w ∈ c.hw.wbs ++ c.hw.res.map brWb, ∀ v ∈ RobQueue.insts k.sp.L s.sp.rob, v.robIdx = w.robIdx →
    ∀ q, ∀ x ∈ queued (s.iq q), x.id = v.id → w.bit &&& partBit (s.inst v.id).dec q = 0#3
  wakes : ∀ p ∈ c.hw.wakes, ∀ u ∈ DispatchGroup.waiting s.sp.dis, u.dec.destEn = true → u.destPreg ≠ p

inductive Reach (k : Cfg) : State n → Prop
  | init : Reach k (init n k)
  | step {s s' : State n} (c : Cyc n) : Reach k s → Valid k s c → step k s c = some s' → Reach k s'

/-! ### What is seen of it -/

/-- The operation of instruction `u` that belongs on queue `q`. -/
def part (s : State n) (u : Nat) (q : Iq) : Option MicroOp := (decompose (s.inst u).dec).find? (fun m => m.iq == q)

/-- The physical register that source `b` (`false`: the first) of operation `m` of an instruction names, if it reads one. -/
def reads (u : Dispatch.Inst n) (m : MicroOp) (b : Bool) : Option Nat :=
  if b then (if m.inst.src2En then some u.src2Preg else none)
  else if m.inst.src1En then some (if m.src1FromDest then u.destPreg else u.src1Preg) else none

/-- Instruction `j` produces what source `b` of operation `m` of instruction `u` reads: an older instruction whose destination
is the register named; for the data operation of an atomic read-modify-write, which combines the register operand with what
its own load returns, the instruction itself, unless it is `amoswap`, which does not use the loaded value. -/
def feeds (s : State n) (j u : Nat) (m : MicroOp) (b : Bool) : Prop :=
  (s.inst j).dec.destEn = true ∧ reads (s.inst u) m b = some (s.inst j).destPreg ∧
    (if m.src1FromDest = true ∧ b = false then j = u ∧ (s.inst u).dec.amoOp ≠ 1#7 else j < u)

end Verif.Sched

import Verif.Spec.Whole
import Verif.Spec.Sched
/-
The stages running a program (`Whole`) with the issue queues (`Sched`): both at once, over the same decode, rename, dispatch
and reorder buffer.

In contrast to `Whole`, where "an operation runs once the producers of its operands have" (`Whole.CanRun`) is an assumption about
the environment, here an instruction runs once its operations have left their queues (`MayRun`), and its result is written once the
operation that produces it has (`MayWrite`), whatever the state of the operands; that the operands are there is what the queues, the busy table and the wake-ups achieve.  What is left to the
environment (`Valid`): as in `Whole` and `Sched`, and that announcements are honest: an instruction whose destination has been
announced has run, or written its result, by the beginning of the next cycle (the result of a one-cycle operation is announced in the cycle in which it is
issued, Isu.cpp:428-443, and forwarded to an operation issued in the next one).

An instruction runs at one instant here, except for its register result; the code executes its operations one by one.  (The link
value of a `JALR` can be announced, and used, before the instruction's branch operation has its operand.)

The data operation of an atomic read-modify-write waits for the instruction's own load (Dispatch.cpp:938-944), so the instruction,
which here runs at one instant, runs when its other operations have been issued.
-/
namespace Verif.Ooo
open Verif.Spine Verif.Core
open Verif.Decode (DecInst MicroOp Iq decodeEntry)

variable {n : Nat} {M : Type}

structure State (n : Nat) (M : Type) where
  w : Whole.State n M
  iq : Iq → IssueQueue.State n
  /-- ghosts, as in `Sched` -/
  inst : Nat → Dispatch.Inst n
  ann : Nat → Bool
  out : Iq → List Nat

/-- The part of the state that belongs to the queues, with the stages before them. -/
def sched (s : State n M) : Sched.State n := ⟨s.w.sp, s.iq, s.inst, s.ann, s.out⟩

structure Input (n : Nat) (M : Type) where
  inp : Whole.Input n M
  fuReady : Nat → Nat → Bool

def cyc (c : Input n M) : Sched.Cyc n := ⟨c.inp.hw, c.fuReady⟩

/-- The inputs of the stages, with the queues' free slots (Isu.cpp:146-150). -/
def input (k : Sched.Cfg) (s : State n M) (c : Input n M) : Whole.Input n M := { c.inp with hw := Sched.hw k (sched s) (cyc c) }

variable (prog : W → Sem M)

/-- One cycle; `none`: a queue failed its assertion. -/
def cycle (k : Sched.Cfg) (s : State n M) (c : Input n M) : Option (State n M) :=
  (Sched.step k (sched s) (cyc c)).map fun t => ⟨Whole.cycle prog k.sp s.w (input k s c), t.iq, t.inst, t.ann, t.out⟩

/-- Instruction `u` executes. -/
def run (k : Sched.Cfg) (s : State n M) (u : Nat) : State n M := { s with w := Whole.finish prog k.sp s.w u }

/-- It may: it is in the reorder buffer, has not executed, and its operations, except one that takes the instruction's own
result as its operand, have been issued. -/
structure MayRun (k : Sched.Cfg) (s : State n M) (u : Nat) : Prop where
  mem : u ∈ robIds k.sp s.w.sp
  fresh : s.w.done u = false
  parts : ∀ q m, Sched.part (sched s) u q = some m → m.src1FromDest = false → u ∈ s.out q

/-- Its register result is written. -/
def write (k : Sched.Cfg) (s : State n M) (u : Nat) : State n M := { s with w := Whole.write prog k.sp s.w u }

/-- It may be: the instruction is in the reorder buffer, has a destination and has not executed altogether, and the operation that
writes the destination has been issued. -/
structure MayWrite (k : Sched.Cfg) (s : State n M) (u : Nat) : Prop where
  mem : u ∈ robIds k.sp s.w.sp
  fresh : s.w.done u = false
  dest : (s.inst u).dec.destEn = true
  parts : ∀ q m, Sched.part (sched s) u q = some m → m.inst.destEn = true → u ∈ s.out q

/-- What the meaning of an instruction reads, its decoded form says it reads; what a jump writes depends on nothing it reads. -/
def Uses (d : DecInst) (i : Sem M) : Prop :=
  (i.use1 = true → d.src1En = true) ∧ (i.use2 = true → d.src2En = true) ∧
  (d.type = .jal ∨ d.type = .jalr → ∀ m a a' b b', i.value m a b = i.value m a' b')

/-- What the rest of the machine guarantees of a cycle. -/
structure Valid (k : Sched.Cfg) (s : State n M) (c : Input n M) : Prop where
  stages : Whole.Valid prog k.sp s.w (input k s c)
  queues : Sched.Valid k (sched s) (cyc c)
  /-- the words fetched are the program's -/
  uses : ∀ (i : Nat) w pf (a : W × W), c.inp.hw.ib[i]? = some (some (w, pf)) → c.inp.slots[i]? = some a →
    Uses (decodeEntry w pf) (prog a.1)
  /-- an announced instruction has run, or its result has been written -/
  honest : ∀ j ∈ robIds k.sp s.w.sp, s.ann j = true → s.w.done j = true ∨ s.w.wrote j = true

def init (n : Nat) (k : Sched.Cfg) (prf : Nat → W) (pc : W) (m : M) : State n M :=
  ⟨Whole.init n k.sp prf pc m, fun q => IssueQueue.init n (k.size q), fun _ => Dispatch.blank, fun _ => false, fun _ => []⟩

inductive Reach (k : Sched.Cfg) (s0 : State n M) : State n M → Prop
  | init : Reach k s0 s0
  | cycle {s s'} (c : Input n M) : Reach k s0 s → Valid prog k s c → cycle prog k s c = some s' → Reach k s0 s'
  | run {s} {u : Nat} : Reach k s0 s → MayRun k s u → Reach k s0 (run prog k s u)
  | write {s} {u : Nat} : Reach k s0 s → MayWrite k s u → Reach k s0 (write prog k s u)

end Verif.Ooo

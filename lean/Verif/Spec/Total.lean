import Verif.Spec.Ooo
import Verif.Spec.Alive
/-
The stages running a program out of order (`Ooo`) with the wake-up bus (`Waker`), and endless runs of both (`Alive`): the machines are
those, unchanged, over the same decode, rename, dispatch, reorder buffer and issue queues.

In contrast to `Ooo`, where it is assumed that an announced result has been produced, what is announced is computed here by the wake-up
registers; assumed of the units is only that they are as fast as their latency says (`Valid.units`), and of the memory unit that it
announces what it has delivered (`Valid.memory`).
-/
namespace Verif.Total
open Verif.Spine Verif.Core
open Verif.Decode (decodeEntry)

variable {n : Nat} {M : Type}

structure State (n : Nat) (M : Type) where
  o : Ooo.State n M
  mul : List (List (Option (Wake.Entry n)))
  div : List (Option (Wake.Entry n))
  fp : List (Option (Wake.Entry n))
  /-- ghost, as in `Waker` -/
  since : Nat → Nat

/-- The part of the state that belongs to the wake-up bus, with the queues and the stages before them. -/
def waker (s : State n M) : Waker.State n := ⟨Ooo.sched s.o, s.mul, s.div, s.fp, s.since⟩

/-- What the rest of the machine supplies: as for `Ooo` (whose `wakes` are not used), and the registers that loads have delivered. -/
structure Input (n : Nat) (M : Type) where
  inp : Whole.Input n M
  fuReady : Nat → Nat → Bool
  slow : List Nat

def wcyc (c : Input n M) : Waker.Cyc n := ⟨c.inp.hw, c.fuReady, c.slow⟩

/-- The inputs of the stages and queues, with the registers the bus announces (`prf_awake` and `iss_awake`, back-end/Isu.cpp: `comb_awake`). -/
def heard (c : Input n M) (ws : List Nat) : Ooo.Input n M := ⟨{ c.inp with hw := { c.inp.hw with wakes := ws } }, c.fuReady⟩

variable (prog : W → Sem M)

/-- One cycle, `BackTop::comb` and `seq` (back-end/BackTop.cpp) as far as cited at `Whole.cycle`, `Sched.step` and `Waker.step`; `none`: an assertion
fails (as in `Waker.step`). -/
def cycle (k : Waker.Cfg) (s : State n M) (c : Input n M) : Option (State n M) :=
  (Waker.wakes k (waker s) (wcyc c)).bind fun ws => (Waker.step k (waker s) (wcyc c)).map fun t =>
    ⟨⟨Whole.cycle prog k.sc.sp s.o.w (Ooo.input k.sc s.o (heard c ws)), t.sc.iq, t.sc.inst, t.sc.ann, t.sc.out⟩, t.mul, t.div, t.fp, t.since⟩

/-- What the rest of the machine guarantees of a cycle. -/
structure Valid (k : Waker.Cfg) (s : State n M) (c : Input n M) : Prop where
  stages : ∀ ws, Waker.wakes k (waker s) (wcyc c) = some ws → Whole.Valid prog k.sc.sp s.o.w (Ooo.input k.sc s.o (heard c ws))
  bus : Progress.Valid k (waker s) (wcyc c)
  /-- the words fetched are the program's -/
  uses : ∀ (i : Nat) w pf (a : W × W), c.inp.hw.ib[i]? = some (some (w, pf)) → c.inp.slots[i]? = some a →
    Ooo.Uses (decodeEntry w pf) (prog a.1)
  /-- a unit has computed its result when the delay of the operation is over (`Waker.delay`: the cycle after it, what waits may be issued) -/
  units : ∀ u ∈ robIds k.sc.sp s.o.w.sp, ∀ m, Waker.computes (s.o.inst u).dec m → Waker.delay k m < s.since u →
    s.o.w.done u = true ∨ s.o.w.wrote u = true
  /-- the memory unit has delivered what it has announced -/
  memory : ∀ u ∈ robIds k.sc.sp s.o.w.sp, (s.o.inst u).dec.type = .load ∨ (s.o.inst u).dec.type = .amo → s.o.ann u = true →
    s.o.w.done u = true ∨ s.o.w.wrote u = true

def init (n : Nat) (k : Waker.Cfg) (prf : Nat → W) (pc : W) (m : M) : State n M :=
  ⟨Ooo.init n k.sc prf pc m, (Waker.init n k).mul, (Waker.init n k).div, (Waker.init n k).fp, fun _ => 0⟩

/-- Between two cycles instructions whose operations have been issued execute, or write their result, in any order. -/
inductive Acts (k : Waker.Cfg) : State n M → State n M → Prop
  | refl (s) : Acts k s s
  | run {s s' : State n M} {u : Nat} : Acts k s s' → Ooo.MayRun k.sc s'.o u → Acts k s { s' with o := Ooo.run prog k.sc s'.o u }
  | write {s s' : State n M} {u : Nat} : Acts k s s' → Ooo.MayWrite k.sc s'.o u → Acts k s { s' with o := Ooo.write prog k.sc s'.o u }

inductive Reach (k : Waker.Cfg) (s0 : State n M) : State n M → Prop
  | init : Reach k s0 s0
  | acts {s s'} : Reach k s0 s → Acts prog k s s' → Reach k s0 s'
  | cycle {s s'} (c : Input n M) : Reach k s0 s → Valid prog k s c → cycle prog k s c = some s' → Reach k s0 s'

/-- An endless run: `s t` before cycle `t`, `a t` after what executes before the clock edge. -/
structure Run (k : Waker.Cfg) (s0 : State n M) (s a : Nat → State n M) (c : Nat → Input n M) : Prop where
  init : s 0 = s0
  acts : ∀ t, Acts prog k (s t) (a t)
  valid : ∀ t, Valid prog k (a t) (c t)
  step : ∀ t, cycle prog k (a t) (c t) = some (s (t + 1))

/-- The rest of the machine does its part for ever, as in `Alive`. -/
def Fair (k : Waker.Cfg) (s : Nat → State n M) (c : Nat → Input n M) : Prop :=
  Alive.Fair k (fun t => waker (s t)) (fun t => wcyc (c t))

end Verif.Total

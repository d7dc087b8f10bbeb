import Verif.Spec.Waker
/-
The issue queues with the wake-up bus (`Waker`), for the question whether an operation can wait for something that never comes.
The machine is that of `Waker`, unchanged; one more guarantee is asked of the memory unit, which is not part of it.
-/
namespace Verif.Progress
open Verif.Spine
open Verif.Waker (State)

variable {n : Nat}

/-- What the rest of the machine guarantees of a cycle: as for `Waker`; and a memory instruction with a destination that retires
without an exception or interrupt has had its destination announced, at the latest in this very cycle: the memory unit reports it
finished and hands the result to the register file in the same cycle, and the register file announces it in the next
(`Prf::comb_awake`, back-end/Prf.cpp:147-168), which is the first in which it can retire (Rob.cpp:216-336 looks at the registered
completion bits). -/
structure Valid (k : Waker.Cfg) (s : State n) (c : Waker.Cyc n) : Prop where
  base : Waker.Valid k s c
  told : ∀ v ∈ retired s.sc.sp (Sched.hw k.sc s.sc ⟨c.hw, c.fuReady⟩), c.hw.intReq = false → Rob.isExc v = false →
    (s.sc.inst v.id).dec.destEn = true → (s.sc.inst v.id).dec.type = .load ∨ (s.sc.inst v.id).dec.type = .amo →
    s.sc.ann v.id = true ∨ (s.sc.inst v.id).destPreg ∈ c.slow

inductive Reach (k : Waker.Cfg) : State n → Prop
  | init : Reach k (Waker.init n k)
  | step {s s' : State n} (c : Waker.Cyc n) : Reach k s → Valid k s c → Waker.step k s c = some s' → Reach k s'

/-- The result of instruction `j` is on its way: the operation computing it has been issued and its delay is not over, or it comes from memory and
the operation fetching it has been issued. -/
def OnWay (k : Waker.Cfg) (s : State n) (j : Nat) : Prop :=
  (∃ m, Waker.computes (s.sc.inst j).dec m ∧ 0 < s.since j ∧ s.since j ≤ Waker.delay k m) ∨
  (((s.sc.inst j).dec.type = .load ∨ (s.sc.inst j).dec.type = .amo) ∧
    ∃ q m, Sched.part s.sc j q = some m ∧ m.inst.destEn = true ∧ j ∈ s.sc.out q)

end Verif.Progress

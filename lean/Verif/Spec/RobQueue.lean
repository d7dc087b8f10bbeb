import Verif.Model.Rob
/-
The reorder buffer closed with its environment, and its content read as a queue.
-/
namespace Verif.RobQueue
open Verif.Ring Verif.Rob

/-- Number of lines between the two pointers. -/
def occ (L : Nat) (s : State) : Nat :=
  if isEmpty s then 0 else if isFull s then L else ringDist L s.deq s.enq

/-- The instructions in the buffer, oldest first. -/
def insts (L : Nat) (s : State) : List Uop := (ring L s.rows s.deq (occ L s)).flatten.filterMap id

/-- The instructions up to and including the one with index `r`. -/
def upTo (r : Nat) : List Uop → List Uop
  | [] => []
  | u :: us => if u.robIdx = r then [u] else u :: upTo r us

/-- The instructions retired this cycle. -/
def retired (s : State) (i : Input) : List Uop := commits (s.rows s.deq) (decision s i)

/-- A flush is broadcast this cycle. -/
def flushed (s : State) (i : Input) : Bool := (flushOut (s.rows s.deq) (decision s i)).1

/-- What identifies an instruction: its payload, its index and wrap flag, its type and the set of
parts it consists of.  Fixed at dispatch. -/
def sig (u : Uop) : Nat × Nat × Bool × Ty × BitVec 3 := (u.id, u.robIdx, u.robFlag, u.ty, u.expect)

/-- The instructions dispatched this cycle, in slot order. -/
def dispatched (i : Input) : List Uop := i.fire.filterMap id

/-- The instructions thrown away this cycle: everything that does not retire on a flush, everything
after the branch on a misprediction. -/
def squashed (L : Nat) (s : State) (i : Input) : List Uop :=
  if flushed s i then (insts L s).drop (retired s i).length ++ dispatched i
  else match i.mispred with
    | some r => (insts L s).drop (upTo r (insts L s)).length
    | none => []

/-- Parts of each instruction reported finished since its dispatch, by index. -/
def report (g : Nat → BitVec 3) (i : Input) : Nat → BitVec 3 := fun r =>
  if ∃ u ∈ dispatched i, u.robIdx = r then 0
  else i.wbs.foldl (fun m w => if w.robIdx = r then m ||| w.bit else m) (g r)

/-- `cmp_inst_age`, back-end/Exu/Exu.cpp:17-23: is the first instruction the younger one? -/
def younger (u v : Uop) : Bool :=
  if u.robFlag == v.robFlag then decide (v.robIdx < u.robIdx) else decide (u.robIdx < v.robIdx)

/-- Environment: dispatch gives each slot its own index (Dispatch.cpp:97-98), dispatches nothing
into a full buffer or in a misprediction cycle (Dispatch.cpp:369,393), and the mispredicted
branch is in the buffer. -/
structure Valid (B L : Nat) (s : State) (i : Input) : Prop where
  width : i.fire.length = B
  idx : ∀ b u, i.fire[b]? = some (some u) → u.robIdx = s.enq * B + b ∧ u.robFlag = s.ef
  full : isFull s = true → ∀ o ∈ i.fire, o = none
  mispred : ∀ r, i.mispred = some r → (∃ u ∈ insts L s, u.robIdx = r) ∧ ∀ o ∈ i.fire, o = none

inductive Reach (B L : Nat) : State → Prop
  | init : Reach B L (Rob.init B)
  | step {s : State} (i : Input) : Reach B L s → Valid B L s i → Reach B L (step B L s i)

/-- A run with its history: payloads dispatched, retired and squashed so far, and the parts
reported finished. -/
inductive Hist (B L : Nat) : State → List Nat → List Nat → List Nat → (Nat → BitVec 3) → Prop
  | init (g) : Hist B L (Rob.init B) [] [] [] g
  | step {s d c q g} (i : Input) : Hist B L s d c q g → Valid B L s i →
      Hist B L (Rob.step B L s i) (d ++ (dispatched i).map (·.id)) (c ++ (retired s i).map (·.id))
        (q ++ (squashed L s i).map (·.id)) (report g i)

end Verif.RobQueue

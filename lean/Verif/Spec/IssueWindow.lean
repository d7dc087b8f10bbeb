import Verif.Model.IssueQueue
import Verif.Spec.RobQueue
/-
What an issue queue is supposed to be: a bag of instructions.  Every instruction in it remembers
how it arrived and which registers have been broadcast since.  No slots, no counters, no wake-up
matrices.
-/
namespace Verif.IssueWindow
open Verif.IssueQueue

variable {n : Nat}

/-- The queued instructions (slot order, which is irrelevant: used up to permutation). -/
def queued (s : State n) : List (Uop n) := s.ent.filterMap id

/-- An operand that waits stops waiting when its register is among those broadcast. -/
def hearSrc (ws : List Nat) (x : Src) : Src :=
  { x with busy := x.busy && !(x.en && ws.contains x.preg) }

def hear (ws : List Nat) (u : Uop n) : Uop n := { u with src := fun k => hearSrc ws (u.src k) }

/-- The instruction waits for register `p` with its source `k`. -/
def waits (u : Uop n) (k : Bool) (p : Nat) : Prop :=
  (u.src k).en = true ∧ (u.src k).busy = true ∧ (u.src k).preg = p

/-- No enabled source is waiting. -/
def ready (u : Uop n) : Prop := ∀ k p, ¬ waits u k p

/-- Killed by this cycle's flush or misprediction. -/
def killed (i : Input n) (u : Uop n) : Bool :=
  i.all || (i.br && decide (u.brMask &&& i.brMask ≠ 0#n))

def scrub (i : Input n) (u : Uop n) : Uop n := { u with brMask := u.brMask &&& ~~~i.clear }

/-- Environment: dispatch enqueues no more than the free slots it was told about, and register
numbers are below the number of registers. -/
structure Valid (P size : Nat) (s : State n) (i : Input n) : Prop where
  room : i.enq.length ≤ freeSlots size s
  preg : ∀ u ∈ i.enq, ∀ k, (u.src k).preg < P

inductive Reach (P size : Nat) (policy : Bool) (ports : List Port) : State n → Prop
  | init : Reach P size policy ports (IssueQueue.init n size)
  | step {s s' : State n} (i : Input n) : Reach P size policy ports s → Valid P size s i →
      IssueQueue.step P size policy ports s i = some s' → Reach P size policy ports s'

/-- The uops granted this cycle, in port order. -/
def grants (policy : Bool) (ports : List Port) (s : State n) (i : Input n) : List (Uop n) :=
  (granted policy ports s i.fuReady i.block).filterMap (fun g => s.ent[g.1]?.join)

/-- A remembered instruction: as it arrived, and the registers broadcast since. -/
abbrev Mem (n : Nat) := Uop n × List Nat

/-- What a remembered instruction must look like now. -/
def now (m : Mem n) : Uop n := hear m.2 m.1

/-- One cycle of the bag: `rest` (what was not granted) and the arrivals hear this cycle's
broadcasts, the killed leave, the survivors' branch masks are scrubbed. -/
def advance (rest : List (Mem n)) (i : Input n) : List (Mem n) :=
  (((rest ++ i.enq.map (fun u => ((u, []) : Mem n))).map (fun m : Mem n => (m.1, m.2 ++ i.wakes))).filter
    (fun m : Mem n => !killed i m.1)).map (fun m : Mem n => (scrub i m.1, m.2))

/-- A run of the queue next to a run of the bag. -/
inductive Hist (P size : Nat) (policy : Bool) (ports : List Port) : State n → List (Mem n) → Prop
  | init : Hist P size policy ports (IssueQueue.init n size) []
  | step {s s' : State n} {w g rest : List (Mem n)} (i : Input n) : Hist P size policy ports s w →
      Valid P size s i → IssueQueue.step P size policy ports s i = some s' →
      w.Perm (g ++ rest) → g.map now = grants policy ports s i →
      Hist P size policy ports s' (advance rest i)

/-- `u` is the part of instruction number `m` (oldest first) of the reorder buffer `r`. -/
def atPos (L : Nat) (r : Rob.State) (u : Uop n) (m : Nat) : Prop :=
  ∃ v, (RobQueue.insts L r)[m]? = some v ∧ v.robIdx = u.robIdx ∧ v.robFlag = u.robFlag

end Verif.IssueWindow

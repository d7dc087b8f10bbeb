/-
What it means for a functional unit to do its job: an independent first-in first-out account
of the operations it has been given.  Nothing here looks inside the unit: the account is
updated only from what is observable at its boundary in a cycle (the broadcasts, the
operation handed to it, the completion taken from it).
-/
import Verif.Model.Exu
namespace Verif.Exu.Spec

/-- Is an operation cancelled by this cycle's broadcasts?  A full flush cancels everything, a
misprediction cancels the operations that depend on the mispredicted branch. -/
def cancelled {n : Nat} (c : Ctl n) (o : Op n) : Prop :=
  c.flush = true ∨ (c.mispred = true ∧ o.brMask &&& (1#n <<< c.brId) ≠ 0#n)

instance {n : Nat} (c : Ctl n) (o : Op n) : Decidable (cancelled c o) := by
  unfold cancelled; infer_instance

/-- Resolved branches are removed from the set an operation depends on. -/
def resolve {n : Nat} (c : Ctl n) (o : Op n) : Op n := { o with brMask := o.brMask &&& ~~~c.clear }

/-- Operations a unit owes, oldest first, each with the cycle in which it was handed over. -/
abbrev Owed (n : Nat) := List (Op n × Nat)

/-- What is still owed once this cycle's broadcasts have been taken into account. -/
def survivors {n : Nat} (c : Ctl n) (q : Owed n) : Owed n :=
  (q.filter (fun e => ¬ cancelled c e.1)).map (fun e => (resolve c e.1, e.2))

/-- Account at the end of cycle `t`: a completion discharges the oldest operation, an operation
handed over is owed from now on. -/
def settle {n : Nat} (c : Ctl n) (t : Nat) (del acc : Option (Op n)) (q : Owed n) : Owed n :=
  (if del.isSome then (survivors c q).tail else survivors c q) ++ acc.toList.map (fun o => (o, t))

/-- The identities of everything handed over, completed and cancelled so far. -/
structure Log where
  accepted : List Nat
  delivered : List Nat
  cancelled : List Nat
  deriving DecidableEq, Repr

def Log.empty : Log := ⟨[], [], []⟩

def Log.extend {n : Nat} (l : Log) (c : Ctl n) (del acc : Option (Op n)) (q : Owed n) : Log :=
  { accepted := l.accepted ++ acc.toList.map (·.id)
    delivered := l.delivered ++ del.toList.map (·.id)
    cancelled := l.cancelled ++ (q.filter (fun e => Spec.cancelled c e.1)).map (·.1.id) }

/-- A unit together with its account. -/
structure Unit (n : Nat) where
  cell : Cell n
  q : Owed n
  log : Log

/-- The unit is empty, as built by `Exu::init` (Exu.cpp:32-148). -/
def Idle {n : Nat} (x : Cell n) : Prop :=
  x.slot = none ∧ (x.fu = .single ∨ (∃ l, 1 ≤ l ∧ x.fu = .fixed l []) ∨ x.fu = .iter none)

def IsFixed {n : Nat} (x : Cell n) : Prop := ∃ l p, x.fu = .fixed l p

/-- A port as `Exu::init` builds it: every unit idle and a pipelined unit (the multiplier) only in
first place, where it wins the port whenever it completes (Exu.cpp:47-56: MUL is pushed first). -/
def PortOk {n : Nat} (xs : List (Cell n)) : Prop :=
  (∀ x ∈ xs, Idle x) ∧ ∀ x ∈ xs.tail, ¬ IsFixed x

/-- What the rest of the core guarantees in a cycle: nothing is issued in a flush or
misprediction cycle, and only for a unit that said it was ready (Isu.cpp:199-200,
IssueQueue.h; theorem `C23`).  `wide`: see `C45`. -/
structure Valid {n : Nat} (c : Ctl n) (t : Nat) (inc : Option (Op n)) (us : List (Unit n)) : Prop where
  issue : ∀ o, inc = some o → c.flush = false ∧ c.mispred = false ∧
    readyMask c t o.op false (us.map (·.cell)) = true
  wide : c.flush = true → 16 < n ∨ ∀ u ∈ us, ∀ e ∈ u.q, e.1.brMask ≠ 0#n

/-- All the units of a port through one cycle, each with its account. -/
def portStep {n : Nat} (c : Ctl n) (t : Nat) (inc : Option (Op n)) (us : List (Unit n)) :
    List (Unit n) :=
  List.zipWith (fun u o =>
    { cell := o.cell, q := settle c t o.del o.acc u.q, log := u.log.extend c o.del o.acc u.q })
    us (portGo c t false inc (us.map (·.cell)))

/-- Reachable port states at the start of cycle `t`. -/
inductive Reach {n : Nat} : Nat → List (Unit n) → Prop
  | init (t : Nat) (xs : List (Cell n)) : PortOk xs →
      Reach t (xs.map (fun x => ⟨x, [], Log.empty⟩))
  | step (t : Nat) (us : List (Unit n)) (c : Ctl n) (inc : Option (Op n)) :
      Reach t us → Valid c t inc us → Reach (t + 1) (portStep c t inc us)

/-- The number of cycles between the hand-over of an operation and the cycle in which its
result is first available. -/
def delay {n : Nat} (x : Cell n) (o : Op n) : Nat :=
  match x.fu with
  | .single => 1
  | .fixed l _ => l
  | .iter _ => 1 + o.lat

/-- How many operations a unit may owe. -/
def capacity {n : Nat} (x : Cell n) : Nat :=
  match x.fu with
  | .fixed l _ => l
  | _ => 1

/-! Runs written out as the list of what happens in each cycle (for witnesses). -/

/-- The issue rules alone (`Valid` without `wide`). -/
def IssueOk {n : Nat} (c : Ctl n) (t : Nat) (inc : Option (Op n)) (us : List (Unit n)) : Prop :=
  match inc with
  | none => True
  | some o => c.flush = false ∧ c.mispred = false ∧
      readyMask c t o.op false (us.map (·.cell)) = true

instance {n : Nat} (c : Ctl n) (t : Nat) (inc : Option (Op n)) (us : List (Unit n)) :
    Decidable (IssueOk c t inc us) := by unfold IssueOk; cases inc <;> infer_instance

/-- The state after a run. -/
def after {n : Nat} : Nat → List (Unit n) → List (Ctl n × Option (Op n)) → List (Unit n)
  | _, us, [] => us
  | t, us, (c, inc) :: rest => after (t + 1) (portStep c t inc us) rest

/-- Every cycle of the run obeys the issue rules. -/
def Legal {n : Nat} : Nat → List (Unit n) → List (Ctl n × Option (Op n)) → Prop
  | _, _, [] => True
  | t, us, (c, inc) :: rest => IssueOk c t inc us ∧ Legal (t + 1) (portStep c t inc us) rest

instance decLegal {n : Nat} : (t : Nat) → (us : List (Unit n)) →
    (r : List (Ctl n × Option (Op n))) → Decidable (Legal t us r)
  | _, _, [] => isTrue trivial
  | t, us, (c, inc) :: rest =>
    have := decLegal (t + 1) (portStep c t inc us) rest
    inferInstanceAs (Decidable (_ ∧ _))

end Verif.Exu.Spec

/-
When a waiting instruction must be told that an operand is coming: one cycle before the
result can be read.  The system here is one port of the execution unit (`Verif.Spec.ExuQueue`)
together with the delayed wake-up registers of one class of operations (DIV, FP or MUL) whose only
unit is on that port.
-/
import Verif.Spec.ExuQueue
import Verif.Model.Wake
namespace Verif.Wake.Spec
open Verif.Exu Verif.Exu.Spec

/-- A class of operations and the position of the one unit that executes it. -/
structure Cls (n : Nat) where
  isOp : Nat → Bool
  unit : Nat

/-- The operations of the class that reach the wake-up registers in a cycle (Isu.cpp:304-311). -/
def Cls.issued {n : Nat} (k : Cls n) (inc : Option (Op n)) : List (Op n) :=
  (inc.filter (fun o => k.isOp o.op && o.destEn)).toList

/-- Only the unit at `k.unit` executes the class, and it executes nothing else. -/
def Cls.Only {n : Nat} (k : Cls n) (xs : List (Cell n)) : Prop :=
  ∀ i x o, xs[i]? = some x → x.sup o = true → (k.isOp o = true ↔ i = k.unit)

/-- Reachable states of a port and the countdown slot of a class executed by an iterative unit. -/
inductive IterReach {n : Nat} (k : Cls n) : Nat → List (Exu.Spec.Unit n) →
    List (Option (Entry n)) → Prop
  | init (t : Nat) (xs : List (Cell n)) : PortOk xs → k.Only xs →
      (∃ x, xs[k.unit]? = some x ∧ x.fu = .iter none) →
      IterReach k t (xs.map (fun x => ⟨x, [], Log.empty⟩)) [none]
  | step (t : Nat) (us : List (Exu.Spec.Unit n)) (ss ss' : List (Option (Entry n))) (c : Ctl n)
      (inc : Option (Op n)) : IterReach k t us ss → Exu.Spec.Valid c t inc us →
      (∀ o, inc = some o → k.isOp o.op = true → 2 ≤ o.lat) →
      iterNext c (k.issued inc) ss = some ss' →
      IterReach k (t + 1) (portStep c t inc us) ss'

/-- Reachable states of a port and the wake-up shift register of a class executed by a pipelined
unit of latency `l`. -/
inductive MulReach {n : Nat} (k : Cls n) (l : Nat) : Nat → List (Exu.Spec.Unit n) →
    List (List (Option (Entry n))) → Prop
  | init (t : Nat) (xs : List (Cell n)) : PortOk xs → k.Only xs →
      (∃ x, xs[k.unit]? = some x ∧ x.fu = .fixed l []) →
      MulReach k l t (xs.map (fun x => ⟨x, [], Log.empty⟩)) (List.replicate (l - 1) [none])
  | step (t : Nat) (us : List (Exu.Spec.Unit n)) (ss ss' : List (List (Option (Entry n)))) (c : Ctl n)
      (inc : Option (Op n)) : MulReach k l t us ss → Exu.Spec.Valid c t inc us →
      mulNext c (k.issued inc) ss = some ss' →
      MulReach k l (t + 1) (portStep c t inc us) ss'

/-- What the unit of the class owes. -/
def owed {n : Nat} (k : Cls n) (us : List (Exu.Spec.Unit n)) : Owed n :=
  (us[k.unit]?.map (·.q)).getD []

end Verif.Wake.Spec

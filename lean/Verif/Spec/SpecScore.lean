import Verif.Model.SpecScore
/-
The mean that the SPEC estimate should report: every simpoint of a benchmark counts once, with its weight, if it was measured.
-/
namespace Verif.SpecScoreSpec
open Verif.SpecScore (Log)

/-- The CPI that a log gives for simpoint `i`: it is of that simpoint, it ended well, and it has run at least one instruction. -/
def result (l : Log) (i : Nat) : Option Rat :=
  match l.sp, l.success, l.counters with
  | some j, true, some (n + 1, cyc) => if j = i then some ((cyc : Rat) / ((n + 1 : Nat) : Rat)) else none
  | _, _, _ => none

/-- The CPI measured for a simpoint. -/
def measured (logs : List Log) (i : Nat) : Option Rat := logs.findSome? (result · i)

/-- No simpoint has two logs. -/
def Once (logs : List Log) : Prop := logs.Pairwise fun a b => ∀ i, result a i = none ∨ result b i = none

/-- No simpoint has two weights. -/
def Distinct (pts : List (Rat × Nat)) : Prop := (pts.map Prod.snd).Nodup

/-- The weight of the simpoints that were measured, of those that were not, and the sum of the weighted CPIs. -/
def covered (pts : List (Rat × Nat)) (m : Nat → Option Rat) : Rat := (pts.map fun p => if (m p.2).isSome then p.1 else 0).sum
def missing (pts : List (Rat × Nat)) (m : Nat → Option Rat) : Rat := (pts.map fun p => if (m p.2).isSome then 0 else p.1).sum
def weighted (pts : List (Rat × Nat)) (m : Nat → Option Rat) : Rat := (pts.map fun p => (m p.2).getD 0 * p.1).sum

end Verif.SpecScoreSpec

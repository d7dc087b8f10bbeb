import Verif.Model.Driver
/-
Vocabulary for C107 and C108: what the core has committed, the value `main` returns, and what the counters cover.
-/
namespace Verif.Driver

/-- Instructions the core commits in cycles `0 .. t-1`. -/
def committed (core : Nat → Beat) : Nat → Nat
  | 0 => 0
  | t + 1 => committed core t + (core t).commits

/-- Nothing ends the program before cycle `t`, and nobody interrupts the simulator up to it. -/
def Undisturbed (core : Nat → Beat) (t : Nat) : Prop := (∀ i < t, (core i).halt = none) ∧ ∀ i ≤ t, (core i).sigint = false

def code : Result → BitVec 32
  | .ret c _ => c

def final : Result → Ctx
  | .ret _ x => x

/-- Warming up, with all commits counted; or measuring, with the commits after the warm-up counted. -/
def Counts (x : Ctx) : Prop :=
  x.isCkpt = true ∧ ((x.perfStart = false ∧ x.commitNum = x.total ∧ x.total < x.warm) ∨
    (x.perfStart = true ∧ x.total = x.warm + x.commitNum))

end Verif.Driver

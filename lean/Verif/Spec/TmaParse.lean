import Verif.Model.TmaParse
/-
The report is right when each of its figures is the one the simulator printed in its top-down section under that name.
-/
namespace Verif.TmaParseSpec
open Verif.TmaParse

def Right (m : Main) (t : Tma) : Prop :=
  t.total = m.total ∧ t.frontend = m.frontend ∧ t.latency = m.latency ∧ t.bandwidth = m.bandwidth ∧ t.backend = m.backend ∧ t.memory = m.memory ∧
  t.l1 = m.l1 ∧ t.ext = m.ext ∧ t.core = m.core ∧ t.bad = m.bad ∧ t.retiring = m.retiring

/-- The names of the figures. -/
def names : List (List Char) :=
  ["Total Slots".toList, "Frontend Bound".toList, "Fetch Latency".toList, "Fetch Bandwidth".toList, "Backend Bound".toList, "Memory Bound".toList,
   "L1 Bound".toList, "Ext Memory Bound".toList, "Core Bound".toList, "Bad Speculation".toList, "Retiring".toList]

/-- Lines of other sections, whose labels do not end with one of the names. -/
def Foreign (ls : List Line) : Prop := ∀ l ∈ ls, ∀ n ∈ names, ¬ n <:+ l.1

end Verif.TmaParseSpec

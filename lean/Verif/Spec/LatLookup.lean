import Verif.Model.LatLookup
/-
What the lookup of the instruction cache should do, said without its tables: from the list of the cycles so far, newest first.
-/
namespace Verif.LatLookupSpec
open Verif.LatLookup

/-- The line that was last brought into a way of a set and has been neither replaced nor invalidated since. -/
def held : List In → Nat → Nat → Option (BitVec 20 × Line)
  | [], _, _ => none
  | i :: older, set, way =>
    match i.fill with
    | some f =>
      if f.index = set ∧ f.way = way then (if f.valid then some (f.tag, f.line) else none)
      else if i.reset || i.inval then none else held older set way
    | none => if i.reset || i.inval then none else held older set way

/-- The line a lookup should find: that of the first way of the set which holds the page. -/
def found (ways : Nat) (h : List In) (set : Nat) (ppn : BitVec 20) : Option Line :=
  (List.range ways).findSome? fun w =>
    match held h set w with
    | some (t, l) => if t = ppn then some l else none
    | none => none

/-- The address whose line is wanted in a cycle: that of the request in the slot, otherwise the one that comes in. -/
def asked (s : St) (i : In) : Option Nat := if s.reqValid then some s.reqPc else if i.want then some i.pc else none

/-- A cycle in which the answer can be given: nothing is cancelled, no miss is under way and the translation is there. -/
def answerable (i : In) : Prop := i.reset = false ∧ i.refetch = false ∧ i.idle = true ∧ i.ppnValid = true ∧ i.pageFault = false

instance (i : In) : Decidable (answerable i) := inferInstanceAs (Decidable (_ ∧ _))

/-- The line of physical memory that holds an address: the page and the set of the address. -/
def lineAddr (c : Cfg) (ppn : BitVec 20) (pc : Nat) : Nat := ppn.toNat <<< 12 ||| (pc / 2 ^ c.off % 2 ^ c.setBits) <<< c.off

end Verif.LatLookupSpec

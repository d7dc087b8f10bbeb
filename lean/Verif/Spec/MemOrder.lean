import Verif.Spec.ByteMem

/-
Program order of memory accesses: what a load must return and what memory must hold, whatever the order in
which the core performs the accesses.  Nothing here refers to the model.
-/
namespace Verif.Spec.MemOrder

open Verif.Spec.ByteMem

/-- A store that takes effect. -/
structure Op where
  addr : BitVec 32
  size : Size
  data : BitVec 32
  deriving DecidableEq, Repr

/-- Effect of one instruction on memory: none, or a store; stores to device addresses do not change
memory. -/
def effect (dev : BitVec 32 → Bool) (m : Mem) : Option Op → Mem
  | none => m
  | some op => if dev op.addr then m else store m op.size op.addr op.data

/-- Memory after the first `k` stores of the program. -/
def replay (dev : BitVec 32 → Bool) (m : Mem) (ops : Nat → Option Op) : Nat → Mem
  | 0 => m
  | k + 1 => effect dev (replay dev m ops k) (ops k)

/-- What is known so far about one store instruction of the program. -/
structure Slot where
  size : Size
  /-- store-conditional -/
  isSc : Bool
  /-- its address has been computed -/
  sta : Bool := false
  addr : Option (BitVec 32) := none
  data : Option (BitVec 32) := none
  /-- its address does not translate -/
  fault : Bool := false
  /-- reported complete to the reorder buffer -/
  reported : Bool := false
  /-- has no effect: failed store-conditional, or cancelled by a trap -/
  dead : Bool := false
  deriving DecidableEq, Repr

/-- The effects the instruction may still turn out to have, given what is known. -/
def Slot.allows (s : Slot) : Option Op → Prop
  | some op => s.dead = false ∧ op.size = s.size ∧ (∀ a, s.addr = some a → op.addr = a) ∧ (∀ d, s.data = some d → op.data = d)
  | none => s.dead = true ∨ s.addr = none ∨ s.data = none ∨ (s.isSc = true ∧ s.reported = false)

/-- The effect of a store about which everything is known. -/
def Slot.outcome (s : Slot) : Option Op :=
  if s.dead then none
  else match s.addr, s.data with
    | some a, some d => some { addr := a, size := s.size, data := d }
    | _, _ => none

/-- What is known about one load: how many stores of the program precede it, and what it reads. -/
structure LoadRec where
  older : Nat := 0
  size : Size := .word
  signed : Bool := true
  lr : Bool := false
  deriving DecidableEq, Repr

/-- The program as seen so far: the stores on the current path in order, how many of them have committed,
and the loads in flight. -/
structure Prog where
  slots : Nat → Slot
  len : Nat
  committed : Nat
  loads : Nat → LoadRec

/-- `v` is what the load must return: the bytes left by the stores that precede it in the program, however
the stores that are still undetermined turn out. -/
def Returns (dev : BitVec 32 → Bool) (m : Mem) (p : Prog) (l : LoadRec) (pa v : BitVec 32) : Prop :=
  ∀ ops : Nat → Option Op, (∀ k < l.older, (p.slots k).allows (ops k)) →
    load (replay dev m ops l.older) l.size l.signed pa = v

end Verif.Spec.MemOrder

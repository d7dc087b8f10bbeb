import Verif.Model.IdealIc
/-
What the front end should get from the ideal instruction cache.
-/
namespace Verif.IdealIcSpec
open Verif.IdealIc

/-- The address of instruction number `k` of a group, modulo 2^32. -/
def addrOf (a : Addr) (k : Nat) : Addr := BitVec.ofNat 32 (a.toNat + 4 * k)

/-- It is in the cache line of the first. -/
def inLine (c : Cfg) (a : Addr) (k : Nat) : Prop := (addrOf a k).toNat / c.line = a.toNat / c.line

/-- An instruction of the same line before it has a page fault. -/
def afterFault (c : Cfg) (i : In) (a : Addr) (k : Nat) : Prop := ∃ j, j < k ∧ inLine c a j ∧ i.xl (addrOf a j) = .fault

/-- What slot `k` of the group of `a` should hold: the word in memory at the translated address; a page fault in the first slot that has one; nothing
outside the line and after a fault. -/
def Right (c : Cfg) (i : In) (a : Addr) (k : Nat) (s : Slot) : Prop :=
  (¬ inLine c a k ∨ afterFault c i a k → s = ⟨0x13#32, false, false⟩) ∧
  (inLine c a k → ¬ afterFault c i a k →
    (∀ p, i.xl (addrOf a k) = .ok p → s = ⟨i.mem p, false, true⟩) ∧ (i.xl (addrOf a k) = .fault → s = ⟨0x13#32, true, true⟩) ∧
    i.xl (addrOf a k) ≠ .retry)

/-- A right group. -/
def RightGroup (c : Cfg) (i : In) (a : Addr) (g : List Slot) : Prop :=
  g.length = c.width ∧ ∀ k s, g[k]? = some s → Right c i a k s

/-- The addresses the front end sends, in order. -/
def sent (is : List In) : List Addr := is.filterMap fun i => if i.want then some i.addr else none

/-- No cycle cancels anything, and the address space stays the same. -/
def Calm (satp : Addr) (is : List In) : Prop :=
  ∀ i ∈ is, i.reset = false ∧ i.refetch = false ∧ i.itlbFlush = false ∧ i.fenceI = false ∧ i.satp = satp

/-- A front end that asks only when the cache says that it is ready. -/
def Polite (c : Cfg) : St → List In → Prop
  | _, [] => True
  | s, i :: is => (i.want = true → saysReady s i = true) ∧ Polite c (step c s i) is

end Verif.IdealIcSpec

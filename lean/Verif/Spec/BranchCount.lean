import Verif.Model.BranchCount
/-
What the branch figures should say about the instructions that were committed.
-/
namespace Verif.BranchCountSpec
open Verif.BranchCount

/-- Branches: conditional branches and indirect jumps, of which returns are some. -/
def isBranch (i : Commit) : Bool := i.kind == .br || i.kind == .jalr
def isCond (i : Commit) : Bool := i.kind == .br
def isReturn (i : Commit) : Bool := i.kind == .jalr && i.isRet
def isIndirect (i : Commit) : Bool := i.kind == .jalr && !i.isRet

/-- Numbers of branches committed, and of those mispredicted. -/
def branches (is : List Commit) : Nat := is.countP isBranch
def missed (is : List Commit) : Nat := is.countP fun i => isBranch i && i.mispred
def right (is : List Commit) : Nat := is.countP fun i => isBranch i && !i.mispred

/-- The direction of a branch was wrong: an indirect jump is always taken. -/
def wrongWay (i : Commit) : Bool := if i.kind == .br then i.predTaken != i.taken else !i.predTaken

/-- A weighted sum over the logs. -/
def weighted (f : List Commit → Nat) (logs : List (Rat × List Commit)) : Rat := (logs.map fun l => (f l.2 : Rat) * l.1).sum

end Verif.BranchCountSpec

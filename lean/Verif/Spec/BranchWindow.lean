import Verif.Model.Idu
/-
The decode stage closed with its environment: the in-flight window (everything
decoded and not yet retired), maintained the way every downstream stage maintains
branch masks: each cycle an instruction whose mask meets the broadcast kill mask
is dropped (`is_br_killed`, back-end/Exu/Exu.cpp:5-15, and its copies in the other stages), the survivors' masks
are cleared with `clear_mask`.  `seq` numbers are ghost: program order.
-/
namespace Verif.BranchWindow
open Verif.Idu

/-- An in-flight instruction.  `tag = some t`: a branch that has not been resolved. -/
structure Flight (n : Nat) where
  seq : Nat
  mask : BitVec n
  tag : Option Nat
  deriving DecidableEq

/-- The instruction would be squashed by broadcast `b`. -/
def killed {n : Nat} (b : Bcast n) (f : Flight n) : Bool :=
  b.mispred && decide (f.mask &&& b.brMask ≠ 0#n)

/-- A survivor of broadcast `b`: resolved branches give up their tag. -/
def survive {n : Nat} (b : Bcast n) (f : Flight n) : Flight n :=
  { f with mask := f.mask &&& ~~~b.clear
           tag := f.tag.filter (fun t => !b.clear.getLsbD t) }

/-- Number the fired slots in program order. -/
def number {n : Nat} : Nat → List (Slot n) → List (Flight n)
  | _, [] => []
  | k, sl :: sls => ⟨k, sl.brMask, if sl.isBr then some sl.brId else none⟩ :: number (k + 1) sls

structure Sys (n : Nat) where
  idu : State n
  win : List (Flight n)
  next : Nat

/-- What the rest of the machine supplies in one cycle. -/
structure Input (n : Nat) where
  entries : List (Option Bool)
  ready : Bool
  flush : Bool
  /-- how many of the oldest instructions retire -/
  retire : Nat
  /-- branch unit results of this cycle -/
  resolve : Latch n

/-- The window after this cycle's broadcast (before retirement and new instructions). -/
def afterBcast {n : Nat} (s : Sys n) : List (Flight n) :=
  let b := combBranch s.idu
  (s.win.filter (fun f => !killed b f)).map (survive b)

def stepSys {n : Nat} (maxBr : Nat) (s : Sys n) (i : Input n) : Sys n :=
  let slots := combDecode s.idu maxBr i.entries
  let out := fired s.idu slots i.ready i.flush
  { idu := combFire s.idu maxBr slots i.ready i.flush i.resolve
    win := if i.flush then [] else (afterBcast s).drop i.retire ++ number s.next out
    next := s.next + out.length }

/-- Environment: only resolved branches retire, and the branch unit reports (once) branches
that are still in flight and unresolved after this cycle's squash; a mispredicted branch is
among the reported ones (Exu.cpp:458-597).  A `jal` also goes through the branch unit but owns no
tag (`is_branch`, back-end/include/util.h:111): its report sets bit 0 of the mask, and it is never
mispredicted (`C71_jal_never_mispredicts`). -/
structure Valid {n : Nat} (s : Sys n) (i : Input n) : Prop where
  retire : ∀ f ∈ (afterBcast s).take i.retire, f.tag = none
  resolve : ∀ t, 0 < t → i.resolve.clear.getLsbD t = true → ∃ f ∈ (afterBcast s).drop i.retire, f.tag = some t
  mispred : i.resolve.mispred = true → 0 < i.resolve.brId ∧ i.resolve.clear.getLsbD i.resolve.brId = true

/-- States reachable from reset under any inputs the rest of the machine can supply. -/
inductive Reach (n maxBr : Nat) : Sys n → Prop
  | init : Reach n maxBr ⟨Idu.init n, [], 0⟩
  | step {s : Sys n} (i : Input n) : Reach n maxBr s → Valid s i → Reach n maxBr (stepSys maxBr s i)

end Verif.BranchWindow

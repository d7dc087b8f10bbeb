/-
The branch counters of the simulator (rv_simu_mmu_v2.cpp `commit_sync`, back-end/include/PerfCount.h) and the branch figures that script/cal_spec.py makes
of the printed ones.

Simplifications: the counters are natural numbers (`uint64_t` in the code, which would wrap after 2^64 commits); the prediction of the branch, which
`commit_sync` reads from the fetch target queue again, is that with which it was executed; floating-point numbers are rationals; printing and reading
of the numbers is left out (three pairs of lines `num` and `mispred`, PerfCount.h:1154-1182).
-/
namespace Verif.BranchCount

inductive Kind
  | jalr
  | br
  | other
deriving DecidableEq

/-- What `commit_sync` reads of a committed instruction. -/
structure Commit where
  kind : Kind
  isRet : Bool
  mispred : Bool
  predTaken : Bool
  taken : Bool

/-- PerfCount.h:193-208; reset to zero at 468-483. -/
structure Counters where
  condNum : Nat := 0
  jalrNum : Nat := 0
  retNum : Nat := 0
  condMiss : Nat := 0
  jalrMiss : Nat := 0
  retMiss : Nat := 0
  jalrDir : Nat := 0
  jalrAddr : Nat := 0
  condDir : Nat := 0
  condAddr : Nat := 0
  retDir : Nat := 0
  retAddr : Nat := 0
deriving DecidableEq

/-- The numbers of branches, rv_simu_mmu_v2.cpp:728-736. -/
def countNum (c : Counters) (i : Commit) : Counters :=
  match i.kind with
  | .jalr => if i.isRet then { c with retNum := c.retNum + 1 } else { c with jalrNum := c.jalrNum + 1 }
  | .br => { c with condNum := c.condNum + 1 }
  | .other => c

/-- The numbers of mispredictions, rv_simu_mmu_v2.cpp:738-766. -/
def countMiss (c : Counters) (i : Commit) : Counters :=
  if i.mispred then
    match i.kind with
    | .jalr =>
      if i.isRet then
        if !i.predTaken then { c with retMiss := c.retMiss + 1, retDir := c.retDir + 1 }
        else { c with retMiss := c.retMiss + 1, retAddr := c.retAddr + 1 }
      else
        if !i.predTaken then { c with jalrMiss := c.jalrMiss + 1, jalrDir := c.jalrDir + 1 }
        else { c with jalrMiss := c.jalrMiss + 1, jalrAddr := c.jalrAddr + 1 }
    | .br =>
      if i.predTaken ≠ i.taken then { c with condDir := c.condDir + 1, condMiss := c.condMiss + 1 }
      else { c with condAddr := c.condAddr + 1, condMiss := c.condMiss + 1 }
    | .other => c
  else c

def commitSync (c : Counters) (i : Commit) : Counters := countMiss (countNum c i) i

/-- The counters after a sequence of commits from the reset on. -/
def run (is : List Commit) : Counters := is.foldl commitSync {}

/-- `br_num_total` and `br_miss_total` of a log, cal_spec.py:1002-1029: the sums of all lines `num` and `mispred` of the section. -/
def brNum (c : Counters) : Nat := c.jalrNum + c.condNum + c.retNum
def brMiss (c : Counters) : Nat := c.jalrMiss + c.condMiss + c.retMiss

/-- The weighted sums, cal_spec.py:1205-1208: correct, all, missed. -/
def addLog (s : Rat × Rat × Rat) (l : Rat × Counters) : Rat × Rat × Rat :=
  (s.1 + ((brNum l.2 : Rat) - (brMiss l.2 : Rat)) * l.1, s.2.1 + (brNum l.2 : Rat) * l.1, s.2.2 + (brMiss l.2 : Rat) * l.1)

def sums (logs : List (Rat × Counters)) : Rat × Rat × Rat := logs.foldl addLog (0, 0, 0)

/-- `_safe_div`, `_safe_pct`, cal_spec.py:209-214. -/
def safeDiv (a b : Rat) : Rat := if 0 < b then a / b else 0
def safePct (a b : Rat) : Rat := safeDiv a b * 100

/-- `br_acc`, cal_spec.py:1244. -/
def accuracy (logs : List (Rat × Counters)) : Rat := safePct (sums logs).1 (sums logs).2.1

/-- The verdict of the branch unit, back-end/Exu/include/Fu.h:398-413: `target` is where the branch goes, `next` the predicted target. -/
def verdict (taken predTaken : Bool) (next target : BitVec 32) : Bool :=
  !((taken && predTaken && decide (next = target)) || (!taken && !predTaken))

end Verif.BranchCount

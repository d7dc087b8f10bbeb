/-
The command-line driver: `main` (main.cpp:128-517), the commit accounting of the rename stage (back-end/Ren.cpp:268-295) and the
end-of-program decision of the reorder buffer (back-end/Rob.cpp:462-465).

The core and the reference model are streams of what the driver sees of them: nothing the driver does flows back into them
before it stops.  Not modelled: option parsing (the parsed options are the inputs), messages, difftest.
-/
namespace Verif.Driver

/-- `ExitReason`, back-end/include/types.h:256. -/
inductive Exit | none | ebreak | wfi | simpoint
  deriving DecidableEq, Repr

/-- What a cycle of the core shows the driver: the number of instructions it commits, whether the reorder buffer ends the
program (Rob.cpp:462-465), and register a0 as `get_reg` reads it afterwards (BackTop.h:173-175). -/
structure Beat where
  commits : Nat
  halt : Option Exit
  a0 : BitVec 32
  /-- SIGINT pending after the cycle -/
  sigint : Bool

/-- The part of `SimContext` and `PerfCount` the driver uses, back-end/include/types.h:259-272; `total` is a ghost counter of
all commits. -/
structure Ctx where
  commitNum : Nat
  perfStart : Bool
  isCkpt : Bool
  warm : Nat
  meas : Nat
  reason : Exit
  total : Nat
  deriving DecidableEq

/-- One committed instruction, Ren.cpp:272-295. -/
def commitOne (x : Ctx) : Ctx :=
  let x := { x with commitNum := x.commitNum + 1, total := x.total + 1 }
  if x.isCkpt then
    let x := if !x.perfStart && decide (x.warm ≤ x.commitNum) then { x with commitNum := 0, perfStart := true } else x
    if x.perfStart && decide (x.meas ≤ x.commitNum) then { x with reason := .simpoint } else x
  else x

def commits : Nat → Ctx → Ctx
  | 0, x => x
  | n + 1, x => commits n (commitOne x)

/-- One cycle: the reorder buffer decides before the rename stage counts (BackTop.cpp:297, 373). -/
def beat (b : Beat) (x : Ctx) : Ctx := commits b.commits { x with reason := b.halt.getD x.reason }

inductive Result
  /-- value returned from `main` (or given to `exit`) and the final context -/
  | ret (code : BitVec 32) (x : Ctx)

/-- The end of `main`, main.cpp:486-517, when the time limit was not reached. -/
def report (x : Ctx) (a0 : BitVec 32) : Result :=
  match x.reason with
  | .ebreak => .ret a0 x
  | _ => .ret 0 x

/-- The main loop, main.cpp:453-481: `left` cycles before the time limit, from cycle `t`. -/
def loop (max : Nat) (core : Nat → Beat) : Nat → Nat → Ctx → Result
  | 0, _, x => .ret 1 x
  | left + 1, t, x =>
    let x := beat (core t) x
    if (core t).sigint then .ret 130 x
    else
      let x := if max ≤ x.commitNum then { x with reason := .simpoint } else x
      if x.reason ≠ .none then report x (core t).a0 else loop max core left (t + 1) x

/-- A step of the reference as the driver sees it (`difftest_step`, `difftest_ref_sim_end`, `difftest_ref_last_inst_is_wfi`). -/
structure RefBeat where
  ended : Bool
  isWfi : Bool
  a0 : BitVec 32

/-- Running the reference for `n` steps from step `i`: main.cpp:337-345, 394-402.  Steps done, how it ended. -/
def refRun (ref : Nat → RefBeat) : Nat → Nat → Nat × Exit
  | 0, i => (i, .none)
  | n + 1, i => if (ref i).ended then (i + 1, if (ref i).isWfi then .wfi else .ebreak) else refRun ref n (i + 1)

/-- Options after parsing, main.cpp:20-38. -/
structure Opts where
  fastForward : Nat
  warmup : Option Nat
  maxCommit : Option Nat

structure Plan where
  warm : Nat
  max : Nat
  prewarm : Nat
  deriving DecidableEq

/-- Warm-up and measurement of a checkpoint, main.cpp:285-327; `none`: an error is reported. -/
def plan (interval : Nat) (o : Opts) : Option Plan :=
  if interval = 0 ∧ (o.warmup.getD 0 ≠ 0 ∨ o.maxCommit = none ∨ o.maxCommit = some 0) then none
  else
    let warm := o.warmup.getD interval
    if interval < warm then none else some ⟨warm, o.maxCommit.getD interval, interval - warm⟩

def ctx0 : Ctx := ⟨0, false, false, 0, 0, .none, 0⟩

/-- `--mode run`, main.cpp:272-275; `dflt` is `MAX_COMMIT_INST`. -/
def runMode (dflt time : Nat) (o : Opts) (core : Nat → Beat) : Result :=
  loop (o.maxCommit.getD dflt) core time 0 ctx0

/-- `--mode ckpt`, main.cpp:276-384.  The registers of the core are those of the reference when the loop is not entered
(`restore_from_ref`). -/
def ckptMode (interval time : Nat) (o : Opts) (ref : Nat → RefBeat) (core : Nat → Beat) : Option Result :=
  (plan interval o).map fun p =>
    let r := refRun ref p.prewarm 0
    let x : Ctx := ⟨0, decide (p.warm = 0), true, p.warm, p.max, r.2, 0⟩
    if r.2 = .none then loop p.max core time 0 x else report x (ref (r.1 - 1)).a0

/-- `--mode fast`, main.cpp:385-412.  When the reference ends the program the core keeps its reset registers, all zero
(`Prf::init`). -/
def fastMode (dflt time : Nat) (o : Opts) (ref : Nat → RefBeat) (core : Nat → Beat) : Option Result :=
  if o.fastForward = 0 then none
  else
    let r := refRun ref o.fastForward 0
    let x := { ctx0 with reason := r.2 }
    some (if r.2 = .none then loop (o.maxCommit.getD dflt) core time 0 x else report x 0)

/-- `--mode ref`, main.cpp:413-450. -/
def refMode (_o : Opts) (_ref : Nat → RefBeat) : Result := .ret 0 ctx0

end Verif.Driver

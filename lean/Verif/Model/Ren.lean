import Verif.Model.Ring
/-
The rename stage: `Ren`, back-end/Ren.cpp:9-405.  Parametric in the number of physical
registers `P` (`PRF_NUM`), of map entries `A` (`ARF_NUM + 1`), of branch tags `N`
(`MAX_BR_NUM`), in the decode width (length of the slot list) and in the commit width
(length of the commit list).  Arrays are functions from indices.  Performance counters,
checkpoint-simulation bookkeeping, logging and difftest calls are not modelled; payload
fields that rename copies through unchanged are not modelled.
-/
namespace Verif.Ren
open Verif.Ring

/-- The fields of `DecRenIO::DecRenInst` (back-end/include/IO.h) that rename inspects. -/
structure Inst where
  destEn : Bool
  areg : Nat
  src1 : Nat
  src2 : Nat
  isBr : Bool
  brId : Nat
  deriving DecidableEq

/-- Registers of `Ren` except the slot latches (back-end/include/Ren.h), plus `ok`, which is
`true` as long as no `Assert` of Ren.cpp has failed. -/
structure Regs where
  spec : Nat → Nat
  arch : Nat → Nat
  ck : Nat → Nat → Nat
  ckHead : Nat → Nat
  fl : Nat → Nat
  head : Nat
  hc : Nat
  tail : Nat
  ok : Bool

/-- `ren_freelist_sanity`, Ren.cpp:20-35: the conjunction of its assertions. -/
def sanity (P A : Nat) (specHead commitHead tail : Nat) : Bool :=
  decide (specHead < P) && decide (commitHead < P) && decide (tail < P) &&
  decide (ringDist P specHead tail < P) && decide (ringDist P commitHead specHead < P) &&
  decide (ringDist P specHead tail + ringDist P commitHead specHead = P - A)

/-- `Ren::init`, Ren.cpp:37-70.  Unassigned array elements are zero. -/
def init (P A : Nat) : Regs :=
  { spec := fun i => if i < A then i else 0
    arch := fun i => if i < A then i else 0
    ck := fun _ _ => 0
    ckHead := fun _ => 0
    fl := fun k => if k < P - A then A + k else 0
    head := 0, hc := 0, tail := P - A
    ok := sanity P A 0 0 (P - A) }

/-- First loop of `comb_alloc`, Ren.cpp:98-108: `(alloc_valid[i], alloc_reg[i])`. -/
def allocLoop (P : Nat) (fl : Nat → Nat) : Nat → Nat → List (Option Inst) → List (Bool × Nat)
  | _, _, [] => []
  | h, c, none :: is => (false, 0) :: allocLoop P fl h c is
  | h, c, some i :: is =>
    if i.destEn && decide (0 < c) then (true, fl h) :: allocLoop P fl (inc P h) (c - 1) is
    else (false, 0) :: allocLoop P fl h c is

/-- Second loop of `comb_alloc`, Ren.cpp:110-123: `ren2dis->valid[i]`. -/
def validLoop : Bool → List (Option Inst) → List (Bool × Nat) → List Bool
  | stall, some i :: is, (v, _) :: as =>
    if i.destEn && !stall then v :: validLoop (!v) is as
    else if !i.destEn then (!stall) :: validLoop stall is as
    else false :: validLoop stall is as
  | stall, none :: is, _ :: as => false :: validLoop stall is as
  | _, _, _ => []

/-- A slot of `ren2dis`: the instruction (`none`: `inst_valid[i]` is false), `valid[i]` and the
renamed operands. -/
structure Slot where
  inst : Option Inst
  valid : Bool
  dest : Nat
  p1 : Nat
  p2 : Nat
  old : Nat

/-- Map lookup with same-group bypass, Ren.cpp:170-221, for architectural register `a` of some
slot; `prior` holds the earlier slots with their `dest_preg`, oldest first, and the last hit
wins.  The hit flag and the bypassed value of the source are merged into one accumulator. -/
def lookup (spec : Nat → Nat) (prior : List (Option Inst × Nat)) (a : Nat) : Nat :=
  prior.foldl (fun acc jp =>
    match jp.1 with
    | none => acc
    | some j => if !j.destEn then acc else if j.areg = 0 then acc
                else if a = j.areg then jp.2 else acc) (spec a)

/-- `Ren::comb_rename`, Ren.cpp:145-223. -/
def renameLoop (spec : Nat → Nat) :
    List (Option Inst × Nat) → List (Option Inst) → List (Bool × Nat) → List Bool → List Slot
  | prior, i :: is, (_, r) :: as, v :: vs =>
    let look := fun (f : Inst → Nat) => match i with
      | none => 0    -- operands of an invalid slot are never used
      | some j => lookup spec prior (f j)
    ⟨i, v, r, look Inst.src1, look Inst.src2, look Inst.areg⟩
      :: renameLoop spec (prior ++ [(i, r)]) is as vs
  | _, _, _, _ => []

/-- `comb_alloc` followed by `comb_rename` (BackTop.cpp calls them in this order). -/
def renameGroup (P : Nat) (R : Regs) (insts : List (Option Inst)) : List Slot :=
  let as := allocLoop P R.fl R.head (ringDist P R.head R.tail) insts
  renameLoop R.spec [] insts as (validLoop false insts as)

/-- `fire[i]`, Ren.cpp:234-236. -/
def fires (ready : Bool) (sl : Slot) : Bool := sl.valid && ready

/-- One iteration of the fire loop, Ren.cpp:238-260. -/
def fireOne (P N : Nat) (ready : Bool) (R : Regs) (sl : Slot) : Regs :=
  match sl.inst with
  | none => R
  | some i =>
    let R := if fires ready sl && i.destEn then
        { R with ok := R.ok && decide (R.head ≠ R.tail)
                 spec := upd R.spec i.areg sl.dest
                 head := inc P R.head }
      else R
    if fires ready sl && i.isBr then
      { R with ok := R.ok && decide (i.brId < N)
               ck := upd R.ck i.brId R.spec
               ckHead := upd R.ckHead i.brId R.head }
    else R

/-- `ren2dec->ready`, Ren.cpp:262-268. -/
def readyOut (slots : List Slot) (ready flush : Bool) (mispred : Option Nat) : Bool :=
  slots.all (fun sl => fires ready sl || sl.inst.isNone) && !(flush || mispred.isSome)

/-- A valid entry of `rob_commit`, with `exc = is_exception(*inst)`. -/
structure Commit where
  destEn : Bool
  areg : Nat
  preg : Nat
  old : Nat
  exc : Bool

/-- One iteration of the commit loop, Ren.cpp:271-325. -/
def commitOne (P : Nat) (interrupt : Bool) (R : Regs) (c : Commit) : Regs :=
  if c.destEn && !c.exc && !interrupt then
    { R with ok := R.ok && decide (R.hc ≠ R.head)
             fl := upd R.fl R.tail c.old
             tail := inc P R.tail
             hc := inc P R.hc
             arch := upd R.arch c.areg c.preg }
  else R

/-- Recovery, Ren.cpp:327-348; `R0` are the registers at the start of the cycle. -/
def recover (P A N : Nat) (R0 R : Regs) (flush : Bool) (mispred : Option Nat) : Regs :=
  let R := if flush then { R with spec := R.arch, head := R.hc }
    else match mispred with
      | none => R
      | some t => { R with ok := R.ok && decide (t < N) && decide (t ≠ 0)
                           spec := R0.ck t, head := R0.ckHead t, tail := R0.tail }
  { R with ok := R.ok && sanity P A R.head R.hc R.tail }

/-- `Ren::comb_fire`, Ren.cpp:233-349, with the sanity check of `comb_alloc` (Ren.cpp:93). -/
def combFire (P A N : Nat) (R : Regs) (slots : List Slot) (ready flush interrupt : Bool)
    (mispred : Option Nat) (commits : List Commit) : Regs :=
  let R0 := { R with ok := R.ok && sanity P A R.head R.hc R.tail }
  recover P A N R (commits.foldl (commitOne P interrupt) (slots.foldl (fireOne P N ready) R0))
    flush mispred

/-- `Ren::comb_pipeline`, Ren.cpp:358-405: the slot latches of the next cycle. -/
def combPipeline (slots : List Slot) (dec : List (Option Inst)) (ready flush : Bool)
    (mispred : Option Nat) : List (Option Inst) :=
  if flush || mispred.isSome then slots.map (fun _ => none)
  else if readyOut slots ready flush mispred then dec
  else slots.map (fun sl => if fires ready sl then none else sl.inst)

end Verif.Ren

import Verif.Model.Ring
/-
The reorder buffer: `Rob`, back-end/Rob.cpp:14-745 and back-end/include/Rob.h.  Parametric in
the number of banks `B` (`ROB_BANK_NUM`, equal to `DECODE_WIDTH`) and of lines `L`
(`ROB_LINE_NUM`).  A line is a list of `B` slots, `none` = invalid.  Not modelled: debug and
top-down-analysis fields, the deadlock counter, and the assertions of `comb_complete` and on
load alignment (a failing assertion stops the simulator, so the model describes the runs in
which they hold).
-/
namespace Verif.Rob
open Verif.Ring

/-- The instruction types `Rob.cpp` distinguishes (`InstType`, back-end/include/types.h). -/
inductive Ty
  | csr | ecall | mret | sret | sfenceVma | fenceI | fence | ebreak | wfi | other
  deriving DecidableEq

/-- `RobStoredInst`, Rob.h:24-58.  `id` stands for the payload that is only copied through. -/
structure Uop where
  id : Nat
  robIdx : Nat
  robFlag : Bool
  ty : Ty
  expect : BitVec 3
  cplt : BitVec 3
  diag : BitVec 32
  pfInst : Bool
  pfLoad : Bool
  pfStore : Bool
  illegal : Bool
  flushPipe : Bool
  deriving DecidableEq

/-- `rob_is_page_fault`, Rob.cpp:33-35. -/
def isPageFault (u : Uop) : Bool := u.pfInst || u.pfLoad || u.pfStore

/-- `rob_is_exception`, Rob.cpp:37-40. -/
def isExc (u : Uop) : Bool := isPageFault u || u.illegal || u.ty == .ecall

/-- `rob_is_wfi`, Rob.cpp:42-44. -/
def isWfi (u : Uop) : Bool := u.ty == .wfi

/-- `rob_is_flush_inst`, Rob.cpp:46-52. -/
def isFlush (u : Uop) : Bool :=
  u.ty == .csr || u.ty == .ecall || u.ty == .mret || u.ty == .sret || u.ty == .sfenceVma ||
  u.ty == .fenceI || isExc u || u.ty == .ebreak || u.flushPipe

/-- `rob_is_fence_inst`, Rob.cpp:54-57. -/
def isFence (u : Uop) : Bool := u.ty == .fence || u.ty == .fenceI || u.ty == .sfenceVma

/-- `rob_is_complete`, Rob.cpp:59-61. -/
def complete (u : Uop) : Bool := u.cplt == u.expect

abbrev Row := List (Option Uop)

structure State where
  rows : Nat → Row
  enq : Nat
  deq : Nat
  ef : Bool
  df : Bool

/-- `Rob::init`, Rob.cpp:65-78. -/
def init (B : Nat) : State := ⟨fun _ => List.replicate B none, 0, 0, false, false⟩

/-- Rob.h:165-166. -/
def isEmpty (s : State) : Bool := s.enq == s.deq && s.ef == s.df
def isFull (s : State) : Bool := s.enq == s.deq && s.ef != s.df

/-- `rob2dis->stall`, `rob2dis->empty`, `rob2dis->ready` of `comb_ready`, Rob.cpp:100-150. -/
def stallOut (s : State) : Bool := (s.rows s.deq).any (fun o => o.any isFlush)
def emptyOut (s : State) : Bool := isEmpty s
def readyOut (s : State) : Bool := !isFull s

/-- What one commit cycle decides: commit the whole head line, one slot of it, or nothing. -/
inductive Decision
  | nothing
  | group
  | single (bank : Nat) (interrupt : Bool)
  deriving DecidableEq

/-- The position and content of the first valid slot. -/
def firstValid : Row → Option (Nat × Uop)
  | [] => none
  | some u :: _ => some (0, u)
  | none :: r => (firstValid r).map (fun p => (p.1 + 1, p.2))

/-- Commit arbitration of `comb_commit`, Rob.cpp:216-336: the head line `row`, whether the buffer is
empty, and this cycle's inputs. -/
def arbitrate (row : Row) (empty mispred frontStall intReq storePending : Bool) : Decision :=
  -- Rob.cpp:218-255
  let groupHasHead := row.any Option.isSome
  let commit := (!empty && !mispred) && !(groupHasHead && frontStall) &&
    row.all (fun o => o.all complete)
  if mispred then (if commit then .group else .nothing)
  else
    -- Rob.cpp:276-286
    let single := row.any (fun o => o.any (fun u => isFlush u || isFence u || isWfi u) || intReq)
    -- Rob.cpp:288-316
    match firstValid row with
    | none => if commit then .group else .nothing
    | some (k, u) =>
      let single := single && !(!intReq && !complete u)
      let gate := !intReq && isFence u && storePending
      let single := single && !gate
      let commit := commit && !gate
      let interruptFire := single && intReq
      -- Rob.cpp:322-335
      let fallback := !commit && !single && !intReq && complete u && !isFlush u
      if single || fallback then .single k interruptFire
      else if commit then .group else .nothing

/-- Retired slots of the head line, `rob_commit->commit_entry[i]`, Rob.cpp:340-343,373-420. -/
def commits (row : Row) : Decision → List Uop
  | .nothing => []
  | .group => row.filterMap id
  | .single k _ => (row[k]?.bind id).toList

/-- The head line after the commit. -/
def clearRow (row : Row) : Decision → Row
  | .nothing => row
  | .group => row.map (fun _ => none)
  | .single k _ => row.set k none

/-- Does the head pointer advance?  Rob.cpp:362-371,404-416. -/
def advances (row : Row) (d : Decision) : Bool :=
  match d with
  | .nothing => false
  | d => (clearRow row d).all Option.isNone

/-- `rob_bcast` flush part, Rob.cpp:428-440: `(flush, exception)`. -/
def flushOut (row : Row) : Decision → Bool × Bool
  | .single k int => match row[k]?.bind id with
    | some u => (isFlush u || int, (isFlush u || int) && (isExc u || int))
    | none => (false, false)
  | _ => (false, false)

/-- The reason broadcast with a flush or WFI, Rob.cpp:442-486. -/
inductive Cause
  | interrupt | ecall | mret | sret | storeFault (v : BitVec 32) | loadFault (v : BitVec 32)
  | instFault | illegal (v : BitVec 32) | ebreak | wfi | csr | sfence | fenceI | flushPipe
  | assertFails
  deriving DecidableEq

def causeOf (u : Uop) (int : Bool) : Option Cause :=
  if isFlush u || int || isWfi u then some <|
    if int then .interrupt
    else if u.ty = .ecall then .ecall
    else if u.ty = .mret then .mret
    else if u.ty = .sret then .sret
    else if u.pfStore then .storeFault u.diag
    else if u.pfLoad then .loadFault u.diag
    else if u.pfInst then .instFault
    else if u.illegal then .illegal u.diag
    else if u.ty = .ebreak then .ebreak
    else if isWfi u then .wfi
    else if u.ty = .csr then .csr
    else if u.ty = .sfenceVma then .sfence
    else if u.ty = .fenceI then .fenceI
    else if u.flushPipe then .flushPipe
    else .assertFails
  else none

/-- Commit, applied to the registers. -/
def doCommit (L : Nat) (s : State) (d : Decision) : State :=
  let row := s.rows s.deq
  let s1 := { s with rows := upd s.rows s.deq (clearRow row d) }
  if advances row d then
    let q := inc L s.deq
    { s1 with deq := q, df := if q = 0 then !s.df else s.df }
  else s1

/-- Which group of issue ports a write-back comes from, as far as `comb_complete` cares. -/
inductive Port
  | load | sta | branch | other
  deriving DecidableEq

/-- A valid `exu2rob` entry. -/
structure Wb where
  robIdx : Nat
  port : Port
  bit : BitVec 3
  diag : BitVec 32
  result : BitVec 32
  pfInst : Bool
  pfLoad : Bool
  pfStore : Bool
  flushPipe : Bool

/-- The update of one entry, Rob.cpp:546-629. -/
def completeUop (w : Wb) (u : Uop) : Uop :=
  let pf := w.pfInst || w.pfLoad || w.pfStore
  let u := { u with cplt := u.cplt ||| w.bit }
  let u := match w.port with
    | .load =>
      let u := { u with diag := w.diag }
      if pf then { u with diag := w.result, pfInst := u.pfInst || w.pfInst
                          pfLoad := u.pfLoad || w.pfLoad, pfStore := u.pfStore || w.pfStore } else u
    | .sta =>
      let u := { u with diag := w.diag }
      if pf then
        let st := u.pfStore || w.pfStore
        { u with diag := w.result, pfInst := u.pfInst || w.pfInst
                 pfStore := st, pfLoad := if st then false else u.pfLoad || w.pfLoad } else u
    | .branch => { u with diag := w.diag }
    | .other => u
  { u with flushPipe := u.flushPipe || w.flushPipe }

/-- `get_rob_line`, `get_rob_bank`, back-end/include/util.h:62-63. -/
def lineOf (B r : Nat) : Nat := r / B
def bankOf (B r : Nat) : Nat := r % B

/-- One write-back of `comb_complete`, Rob.cpp:534-631. -/
def completeOne (B : Nat) (s : State) (w : Wb) : State :=
  let line := lineOf B w.robIdx
  let row := (s.rows line).modify (bankOf B w.robIdx) (Option.map (completeUop w))
  { s with rows := upd s.rows line row }

/-- The `while` loop of `comb_branch`, Rob.cpp:665-672 (at most `fuel` iterations; `ptr` runs
through fewer than `L` lines before it meets `stop`). -/
def clearLines (L stop : Nat) : Nat → Nat → (Nat → Row) → (Nat → Row)
  | 0, _, rows => rows
  | fuel + 1, ptr, rows =>
    if ptr = stop then rows
    else clearLines L stop fuel (inc L ptr) (upd rows ptr ((rows ptr).map (fun _ => none)))

/-- Invalidate the slots from bank `b` on. -/
def clearFrom (b : Nat) (row : Row) : Row := row.take b ++ (row.drop b).map (fun _ => none)

/-- `Rob::comb_branch`, Rob.cpp:637-674, for the redirecting instruction `r` (its `ftq_is_last`
flag is not modelled). -/
def doBranch (B L : Nat) (s : State) (r : Nat) : State :=
  let line := lineOf B r
  let e := (line + 1) % L
  let rows := upd s.rows line (clearFrom (bankOf B r + 1) (s.rows line))
  { s with enq := e
           ef := if s.enq < e then !s.ef else s.ef
           rows := clearLines L s.enq L ((line + 1) % L) rows }

/-- `RobStoredInst::from_dis_rob_inst` and the reset of `cplt_mask`, Rob.h:61-93, Rob.cpp:689-692. -/
def fromDis (u : Uop) : Uop := { u with cplt := 0, pfLoad := false, pfStore := false }

/-- `Rob::comb_fire`, Rob.cpp:681-705; `fire` holds the dispatched instruction of each slot. -/
def doFire (L : Nat) (s : State) (ready : Bool) (fire : Row) : State :=
  if ready && fire.any Option.isSome then
    let e := inc L s.enq
    let row := List.zipWith (fun old f => match f with | some u => some (fromDis u) | none => old)
      (s.rows s.enq) fire
    { s with rows := upd s.rows s.enq row, enq := e, ef := if e = 0 then !s.ef else s.ef }
  else s

/-- `Rob::comb_flush`, Rob.cpp:715-728. -/
def doFlush (s : State) : State :=
  { rows := fun l => (s.rows l).map (fun _ => none), enq := 0, deq := 0, ef := false, df := false }

structure Input where
  /-- misprediction broadcast: index of the redirecting instruction -/
  mispred : Option Nat
  frontStall : Bool
  intReq : Bool
  storePending : Bool
  wbs : List Wb
  fire : Row

/-- This cycle's commit decision. -/
def decision (s : State) (i : Input) : Decision :=
  arbitrate (s.rows s.deq) (isEmpty s) i.mispred.isSome i.frontStall i.intReq i.storePending

/-- One cycle, in the order of BackTop.cpp:269-394. -/
def step (B L : Nat) (s : State) (i : Input) : State :=
  let d := decision s i
  let flush := (flushOut (s.rows s.deq) d).1
  let s1 := doCommit L s d
  let s2 := i.wbs.foldl (completeOne B) s1
  let s3 := match i.mispred with
    | some r => if flush then s2 else doBranch B L s2 r
    | none => s2
  let s4 := doFire L s3 (readyOut s) i.fire
  if flush then doFlush s4 else s4

end Verif.Rob

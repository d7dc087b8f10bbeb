import Verif.Model.Ren
/-
The rename stage closed with its environment: the renamed, uncommitted instructions in program
order (`win`) and all instructions committed so far (`hist`), both ghost.
-/
namespace Verif.RenWindow
open Verif.Ren Verif.Ring

/-- A renamed instruction.  `tag = some t`: an unresolved branch that owns tag `t`. -/
structure Entry where
  destEn : Bool
  areg : Nat
  preg : Nat
  old : Nat
  tag : Option Nat
  deriving DecidableEq

/-- What a renamed slot becomes once it is handed to dispatch. -/
def toEntry (sl : Slot) : Option Entry :=
  match sl.inst with
  | none => none
  | some i => if sl.valid then
      some ⟨i.destEn, i.areg, sl.dest, sl.old, if i.isBr then some i.brId else none⟩ else none

/-- The instructions handed to dispatch from the given slots, in program order. -/
def entries (slots : List Slot) : List Entry := slots.filterMap toEntry

def toCommit (exc : Bool) (e : Entry) : Commit := ⟨e.destEn, e.areg, e.preg, e.old, exc⟩

/-- The physical register given to the youngest instruction of `l` that writes `a`. -/
def lastWriter (l : List Entry) (a : Nat) : Option Nat :=
  (l.reverse.find? (fun e => e.destEn && e.areg == a)).map Entry.preg

/-- The program-order mapping of `a` after the instructions `l`, starting from the reset mapping
(every register mapped to the physical register of the same number). -/
def mapAfter (l : List Entry) (a : Nat) : Nat := (lastWriter l a).getD a

/-- The window up to and including the branch that owns tag `t`. -/
def upTo (t : Nat) : List Entry → List Entry
  | [] => []
  | e :: r => if e.tag = some t then [e] else e :: upTo t r

/-- The instructions after the branch that owns tag `t`. -/
def after (t : Nat) : List Entry → List Entry
  | [] => []
  | e :: r => if e.tag = some t then r else after t r

/-- Physical registers allocated to, respectively replaced by, the instructions of `l`. -/
def pregs (l : List Entry) : List Nat := (l.filter (·.destEn)).map Entry.preg
def olds (l : List Entry) : List Nat := (l.filter (·.destEn)).map Entry.old

/-- The allocatable registers, next one first. -/
def free (P : Nat) (R : Regs) : List Nat := ring P R.fl R.head (ringDist P R.head R.tail)

structure Sys where
  regs : Regs
  insts : List (Option Inst)
  win : List Entry
  hist : List Entry

/-- What the rest of the machine supplies in one cycle. -/
structure Input where
  /-- dispatch accepts the group -/
  ready : Bool
  flush : Bool
  interrupt : Bool
  /-- the retiring instruction raises an exception -/
  exc : Bool
  /-- how many of the oldest renamed instructions the reorder buffer retires -/
  retire : Nat
  /-- misprediction broadcast: the branch's tag -/
  mispred : Option Nat
  /-- resolved tags -/
  clear : Nat → Bool
  dec : List (Option Inst)

def survive (c : Nat → Bool) (e : Entry) : Entry := { e with tag := e.tag.filter (fun t => !c t) }

def stepSys (P A N : Nat) (s : Sys) (i : Input) : Sys :=
  let slots := renameGroup P s.regs s.insts
  let new := if i.ready then entries slots else []
  { regs := combFire P A N s.regs slots i.ready i.flush i.interrupt i.mispred
      ((s.win.take i.retire).map (toCommit i.exc))
    insts := combPipeline slots i.dec i.ready i.flush i.mispred
    win := if i.flush then [] else match i.mispred with
      | some t => (upTo t s.win).map (survive i.clear)
      | none => (s.win.drop i.retire ++ new).map (survive i.clear)
    hist := s.hist ++ if i.exc || i.interrupt then [] else s.win.take i.retire }

/-- What decode guarantees of an instruction (C08: `x0` is never a destination; Idu.cpp:131-177). -/
def WfInst (A N : Nat) (i : Inst) : Prop :=
  (i.destEn = true → 0 < i.areg ∧ i.areg < A) ∧ (i.isBr = true → 0 < i.brId ∧ i.brId < N)

/-- Tags of the branches in the slot latches. -/
def slotTags (is : List (Option Inst)) : List Nat :=
  is.filterMap (fun o => o.bind (fun i => if i.isBr then some i.brId else none))

/-- Environment.  Rob.cpp:218,274: nothing retires in a misprediction cycle (so there is no flush
either, Rob.cpp:430-435); an excepting or interrupted instruction retires alone with a flush
(Rob.cpp:276-316,430-435); the mispredicted branch is in flight; decode hands out well-formed
instructions with tags nobody in flight owns (C10). -/
structure Valid (P A N : Nat) (s : Sys) (i : Input) : Prop where
  mispred : ∀ t, i.mispred = some t →
    i.retire = 0 ∧ i.flush = false ∧ ∃ e ∈ s.win, e.tag = some t
  exc : i.exc = true ∨ i.interrupt = true → i.flush = true
  wf : ∀ d, some d ∈ i.dec → WfInst A N d
  tags : (slotTags i.dec).Nodup
  fresh : ∀ t ∈ slotTags i.dec, ∀ e ∈ (stepSys P A N s i).win, e.tag ≠ some t

/-- States reachable from reset. -/
inductive Reach (P A N : Nat) : Sys → Prop
  | init (w : Nat) : Reach P A N ⟨Ren.init P A, List.replicate w none, [], []⟩
  | step {s : Sys} (i : Input) : Reach P A N s → Valid P A N s i → Reach P A N (stepSys P A N s i)

end Verif.RenWindow

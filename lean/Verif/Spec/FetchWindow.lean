import Verif.Model.PreIdu
/-
The queues in front of decode closed with the pipeline behind them.  `flight` are the instructions
decoded and not yet retired, oldest first, `wait` those in the instruction buffer.  Each carries,
as ghost data, the fetch block as the front end delivered it.
-/
namespace Verif.FetchWindow
open Verif.PreIdu

structure Flight where
  entry : Entry
  /-- ghost: the fetch block this instruction came with -/
  blk : Block
  /-- current `ftq_is_last` flag (Rob.cpp:647-653 may set it) -/
  last : Bool

structure Sys where
  pre : State
  flight : List Flight
  wait : List Flight

structure Input where
  group : Group
  block : Block
  sawFlush : Bool
  flush : Bool
  /-- position in `flight` of the redirecting branch -/
  mispred : Option Nat
  /-- number of instructions decode takes -/
  fire : Nat
  /-- number of instructions that retire -/
  retire : Nat

/-- Is the group taken over this cycle? -/
def taken (M N : Nat) (s : Sys) (i : Input) : Bool :=
  ready M N s.pre (i.mispred.isSome || i.sawFlush) i.group && i.group.any Option.isSome

/-- The instructions of a fetch group, each with its slot number: the pcs and predictions are those
of its block, the last one is marked. -/
def fetched (idx : Nat) (b : Block) (g : Group) : List Flight :=
  (entries idx b 0 g).map fun e => ⟨e, b, e.isLast⟩

def input (s : Sys) (i : Input) : PreIdu.Input :=
  { group := i.group, block := i.block, sawFlush := i.sawFlush, flush := i.flush
    mispred := i.mispred.map fun p => ((s.flight[p]?).map (·.entry.ftqIdx)).getD 0
    popCount := i.fire
    commits := (s.flight.take i.retire).map (·.last) }

/-- Set the `ftq_is_last` flag of the last element (Rob.cpp:647-653). -/
def markLast : List Flight → List Flight
  | [] => []
  | [f] => [{ f with last := true }]
  | f :: fs => f :: markLast fs

def step (M N : Nat) (s : Sys) (i : Input) : Option Sys :=
  (PreIdu.step M N s.pre (input s i)).map fun pre =>
    if i.flush then ⟨pre, [], []⟩
    else match i.mispred with
      | some p => ⟨pre, markLast (s.flight.take (p + 1)), []⟩
      | none =>
        ⟨pre, s.flight.drop i.retire ++ s.wait.take i.fire,
          s.wait.drop i.fire ++ if taken M N s i then fetched s.pre.ftq.tail i.block i.group else []⟩

/-- Environment: decode takes no more than is there; what retires has been decoded; the redirecting
branch is in flight, and nothing retires in a misprediction cycle (`C17_no_retire_on_mispredict`). -/
structure Valid (s : Sys) (i : Input) : Prop where
  fire : i.fire ≤ s.wait.length
  retire : i.retire ≤ s.flight.length
  mispred : ∀ p, i.mispred = some p → p < s.flight.length ∧ i.retire = 0

inductive Reach (M N : Nat) : Sys → Prop
  | init : Reach M N ⟨PreIdu.init, [], []⟩
  | step {s s' : Sys} (i : Input) : Reach M N s → Valid s i → step M N s i = some s' → Reach M N s'

/-! ### The instruction buffer alone, under any sequence of operations -/

inductive Op (α : Type)
  | push (e : α)
  | pop (n : Nat)
  | clear

/-- One operation; `none` when an assertion fails. -/
def apply {α : Type} (M : Nat) (b : IBuf α) : Op α → Option (IBuf α)
  | .push e => b.push M e
  | .pop n => some (b.pop M n)
  | .clear => some (IBuf.clear α)

/-- A bounded FIFO. -/
def fifo {α : Type} (M : Nat) (l : List α) : Op α → Option (List α)
  | .push e => if l.length < M then some (l ++ [e]) else none
  | .pop n => some (l.drop n)
  | .clear => some []

end Verif.FetchWindow

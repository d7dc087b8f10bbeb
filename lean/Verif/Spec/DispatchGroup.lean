import Verif.Model.Dispatch
/-
What dispatch is supposed to do, in terms of the waiting group, the instructions dispatched from it
and the log of register events.
-/
namespace Verif.DispatchGroup
open Verif.Dispatch
open Verif.Decode (DecInst MicroOp Iq decompose)

variable {n : Nat}

/-- The instructions waiting in the stage, oldest first. -/
def waiting (s : State n) : List (Inst n) := s.slots.filterMap id

/-- The slots dispatched this cycle, oldest first. -/
def fired (o : Out n) : List (Alloc n) :=
  (o.alloc.zip o.fire).filterMap (fun x => if x.2 then some x.1 else none)

/-- An instruction without its branch mask, which shrinks while the instruction waits. -/
def ident (u : Inst n) : Inst n := { u with brMask := 0 }

/-- What the rename stage sees itself hand over this cycle. -/
def received (o : Out n) (i : Input n) : List (Inst n) := if o.ready then i.ren.filterMap id else []

/-- Inputs the stage may see: rename sends a full-width group, and an instruction with a destination
register does not write register 0 (`C43_no_x0_destination` proves this of the decoder). -/
structure Valid (s : State n) (i : Input n) : Prop where
  width : i.ren.length = s.slots.length
  dest : ∀ u, some u ∈ i.ren → u.dec.destEn = true → u.dec.destAreg ≠ 0

inductive Reach (c : Cfg) (W : Nat) : State n → Prop
  | init : Reach c W (init n W)
  | step {s} (i : Input n) : Reach c W s → Valid s i → Reach c W (step c s i)

/-- A run of cycles without flush or misprediction: what was received, what was dispatched. -/
inductive Run (c : Cfg) : State n → List (Inst n) → List (Inst n) → State n → Prop
  | nil (s) : Run c s [] [] s
  | step {s s' inn out} (i : Input n) : Run c s inn out s' → Valid s' i → i.flush = false →
      i.mispred = false → Run c s (inn ++ received (comb c s' i) i)
        (out ++ (fired (comb c s' i)).map (·.inst)) (step c s' i)

/-- Events on physical registers: an instruction that will write the register is dispatched; the
register is broadcast as available. -/
inductive Event | produce (p : Nat) | wake (p : Nat)
  deriving DecidableEq

def Event.reg : Event → Nat
  | .produce p => p
  | .wake p => p

/-- The value of `p` is outstanding: the last event on `p` is a dispatch, not a broadcast. -/
def outstanding (log : List Event) (p : Nat) : Bool :=
  (log.filter (fun e => e.reg == p)).getLast? == some (.produce p)

/-- The producers among some dispatched instructions, in order. -/
def produces (l : List (Alloc n)) : List Event :=
  l.filterMap fun a => if a.inst.dec.destEn then some (.produce a.inst.destPreg) else none

/-- The log of a run. -/
inductive Log (c : Cfg) (W : Nat) : State n → List Event → Prop
  | init : Log c W (init n W) []
  | step {s log} (i : Input n) : Log c W s log → Valid s i →
      Log c W (step c s i) (log ++ i.wakes.map .wake ++ produces (fired (comb c s i)))

end Verif.DispatchGroup

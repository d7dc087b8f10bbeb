import Verif.Model.TopDown
import Verif.Spec.Spine
/- The counters on top of decode, rename, dispatch and the reorder buffer (`Spine`, unchanged). -/
namespace Verif.TopDown
open Verif.Spine

variable {n : Nat}

/-- What the accounting takes from elsewhere: the state of the oldest instruction (`rob2dis->tma`, back-end/Rob.cpp:97-148) and whether the instruction
cache is busy. -/
structure Hint where
  headMem : Bool := false
  headWaits : Bool := false
  headMiss : Bool := false
  icacheBusy : Bool := false

/-- The dispatch slots of a cycle. -/
def slotsOf (k : Spine.Cfg) (s : Spine.St n) (c : Spine.Cyc n) (h : Hint) : List Slot :=
  let o := disOut k s c
  ((o.alloc.zip o.flags).zip o.fire).map fun x =>
    ⟨x.2, x.1.1.valid, (disIn k s c).robReady, h.headMem, h.headWaits, h.headMiss, x.1.1.robValid, x.1.2, Dispatch.isLoad x.1.1.inst.dec,
      Dispatch.isStore x.1.1.inst.dec, decide (c.ldqFree = 0), decide (c.stqFree = 0), h.icacheBusy⟩

def count (l : List (Option α)) : Nat := (l.filterMap id).length

/-- The leading slots decode consumes: `idu_consume->fire`, Idu.cpp:265-267; PreIduQueue.cpp:210-216. -/
def taken (k : Spine.Cfg) (s : Spine.St n) (c : Spine.Cyc n) : Nat :=
  if flush s c || s.idu.latch.mispred || !renReady k s c then 0 else ((decSlots k s c).takeWhile (·.valid)).length

/-- The instruction buffer offers its oldest instructions in the first slots, PreIduQueue.cpp:92-98. -/
def Packed (l : List (Option α)) : Prop := ∃ (a : List α) (r : Nat), l = a.map some ++ List.replicate r none

/-- A cycle of the counters. -/
def perfStep (q : Ckpt) (k : Spine.Cfg) (s : Spine.St n) (c : Spine.Cyc n) (h : Hint) (p : Perf) : Perf :=
  cycle q p (count c.ib) (slotsOf k s c h) (retired s c).length (taken k s c) (flush s c) s.idu.latch.mispred (count s.dis.slots) (count s.lat)

/-- Runs from the reset. -/
inductive Reach (q : Ckpt) (k : Spine.Cfg) : Spine.St n → Perf → Prop
  | init : Reach q k (Spine.init n k) {}
  | step {s : Spine.St n} {p : Perf} (c : Spine.Cyc n) (h : Hint) : Reach q k s p → Spine.Valid k s c → Packed c.ib →
    Reach q k (Spine.step k s c) (perfStep q k s c h p)

end Verif.TopDown

/-
Delayed wake-up of the issue stage: the multiplier's shift register and the countdown slots of
the divider and the floating-point unit, back-end/Isu.cpp:112-137, 228-326, 334-376, 387-426,
478-533, 539-555, back-end/include/Isu.h:20-47.

Simplifications: each class (MUL, DIV, FP) is modelled by itself, since the loops of
`comb_calc_latency_next` and `comb_flush` treat the three register sets independently; `issued` is
the operations of the class with a destination register issued in the cycle.  The wake-up bus is
the list of delayed channels, one per port that has a delayed class (`delayed_ch_map`).
-/
import Verif.Model.Exu
namespace Verif.Wake
open Verif.Exu

/-- `IterWakeEntry` / `MulWakeEntry`, Isu.h:20-34 (`cd` unused in the multiplier's register). -/
structure Entry (n : Nat) where
  cd : Nat
  preg : Nat
  brMask : BitVec n
  deriving DecidableEq, Repr

/-- The latency the issue stage assumes for a floating-point operation, `get_latency`,
Isu.cpp:117-135. -/
def isuFpLatency (f7 : BitVec 7) : Nat :=
  match (f7 >>> 2).toNat with
  | 0b00000 => 5
  | 0b00001 => 5
  | 0b00010 => 3
  | 0b00011 => 10
  | _ =>
    if f7 = 0x2C#7 then 10
    else if f7 = 0x60#7 ∨ f7 = 0x68#7 then 3
    else 5

/-- The latency the floating-point unit applies, `FPUSoftfloat::calculate_latency`,
FPU.h:20-33, 248-269. -/
def fpuLatency (f7 : BitVec 7) : Nat :=
  match (f7 >>> 2).toNat with
  | 0b00010 => 3
  | 0b00011 => 10
  | 0b00000 => 5
  | 0b00001 => 5
  | _ =>
    if f7 = 0x60#7 ∨ f7 = 0x68#7 then 3
    else if f7 = 0x2C#7 then 10
    else 5

/-- Countdown of one slot, Isu.cpp:230-258. -/
def tick {n : Nat} : Option (Entry n) → Option (Entry n)
  | some e => if 0 < e.cd then some { e with cd := e.cd - 1 } else none
  | none => none

/-- `alloc_iter_slot` / `alloc_mul_stage0`, Isu.cpp:274-301: the first free slot; `none` is a failed
`Assert` (Isu.cpp:313-323). -/
def alloc {n : Nat} (e : Entry n) : List (Option (Entry n)) → Option (List (Option (Entry n)))
  | [] => none
  | none :: ss => some (some e :: ss)
  | some x :: ss => (alloc e ss).map (some x :: ·)

/-- Allocation of all the issued operations of the class, Isu.cpp:304-325. -/
def allocAll {n : Nat} (f : Op n → Entry n) : List (Op n) → List (Option (Entry n)) →
    Option (List (Option (Entry n)))
  | [], ss => some ss
  | o :: os, ss => (alloc (f o) ss).bind (allocAll f os)

/-- `kill_by_mask`, then `clear_br_bits`, on one slot; everything goes on a full flush,
Isu.cpp:478-533. -/
def settleSlot {n : Nat} (c : Ctl n) (s : Option (Entry n)) : Option (Entry n) :=
  if c.flush then none
  else (s.filter (fun e => !(c.mispred && (e.brMask &&& c.mask != 0#n)))).map
    (fun e => { e with brMask := e.brMask &&& ~~~c.clear })

/-- Next state of the countdown slots of DIV or FP, Isu.cpp:230-258, 313-325 (`countdown = lat - 1`),
478-533. -/
def iterNext {n : Nat} (c : Ctl n) (issued : List (Op n)) (ss : List (Option (Entry n))) :
    Option (List (Option (Entry n))) :=
  (allocAll (fun o => ⟨o.lat - 1, o.dest, o.brMask⟩) issued (ss.map tick)).map
    (·.map (settleSlot c))

/-- Next state of the multiplier's shift register, Isu.cpp:260-272, 311-314, 478-533.  `stages` has
`MUL_MAX_LATENCY - 1` stages, of one slot per multiplier. -/
def mulNext {n : Nat} (c : Ctl n) (issued : List (Op n)) (stages : List (List (Option (Entry n)))) :
    Option (List (List (Option (Entry n)))) :=
  match stages with
  | [] => some []
  | s0 :: _ =>
    (allocAll (fun o => ⟨0, o.dest, o.brMask⟩) issued (List.replicate s0.length none)).map
      (fun s0' => (s0' :: stages.dropLast).map (·.map (settleSlot c)))

/-- The wake-ups a countdown class requests in a cycle, with the index of the unit,
Isu.cpp:387-391, 400-404. -/
def iterDue {n : Nat} (ss : List (Option (Entry n))) : List (Nat × Nat) :=
  ss.zipIdx.filterMap (fun (s, i) =>
    match s with
    | some e => if e.cd = 0 then some (i, e.preg) else none
    | none => none)

/-- The wake-ups the multiplier's register requests, Isu.cpp:413-417. -/
def mulDue {n : Nat} (stages : List (List (Option (Entry n)))) : List (Nat × Nat) :=
  (stages.getLast?.getD []).zipIdx.filterMap (fun (s, i) => s.map (fun e => (i, e.preg)))

/-- Outcome of driving the delayed channels. -/
inductive Bus where
  | ok (ch : Nat → Option Nat)
  | collision
  deriving Inhabited

/-- One channel write, `Assert(!wake[ch].valid)`, Isu.cpp:392-397. -/
def Bus.drive (b : Bus) (port preg : Nat) : Bus :=
  match b with
  | .collision => .collision
  | .ok ch => if (ch port).isSome then .collision else .ok (fun p => if p = port then some preg else ch p)

/-- The delayed part of `comb_awake`, Isu.cpp:387-426: DIV, FP, MUL in this order; `portOf`s are
`get_port_for_unit` (Isu.cpp:366-375); the channel of a port is the port itself. -/
def delayedBus {n : Nat} (divPort fpPort mulPort : Nat → Nat) (div fp : List (Option (Entry n)))
    (mul : List (List (Option (Entry n)))) : Bus :=
  ((iterDue div).map (fun r => (divPort r.1, r.2)) ++ (iterDue fp).map (fun r => (fpPort r.1, r.2)) ++
    (mulDue mul).map (fun r => (mulPort r.1, r.2))).foldl (fun b r => b.drive r.1 r.2)
    (.ok (fun _ => none))

/-- The same in a release build (`NDEBUG`: `Assert` does nothing, util.h:45-49): the last write
to a channel stays. -/
def delayedBusRelease {n : Nat} (divPort fpPort mulPort : Nat → Nat) (div fp : List (Option (Entry n)))
    (mul : List (List (Option (Entry n)))) : Nat → Option Nat :=
  ((iterDue div).map (fun r => (divPort r.1, r.2)) ++ (iterDue fp).map (fun r => (fpPort r.1, r.2)) ++
    (mulDue mul).map (fun r => (mulPort r.1, r.2))).foldl
    (fun ch r => fun p => if p = r.1 then some r.2 else ch p) (fun _ => none)

end Verif.Wake

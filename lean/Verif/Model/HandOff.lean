import Verif.Model.PreIdu
import Verif.Model.Front
import Verif.Model.Tage
/-
What `SimCpu` puts between the front end and the back end: `front_cycle` (rv_simu_mmu_v2.cpp:1109-1258), the end of `cycle`
(1099-1107), and the interface of the back end it uses, the outputs `BackTop::comb` sets (BackTop.cpp:337-355).
The values `front_cycle` copies for slots that are not valid are left out: with no group handed over, or a slot cut off, the
other fields of `back.in` are not looked at (PreIduQueue.cpp:113-196).
-/
namespace Verif.HandOff
open Verif.Front

variable {W : Nat} {M : Type}

/-- `Back_out`, BackTop.h:32-60: `mispred` or `flush` with `redirect_pc`, `stall`, `fence_i`.  Cleared at the start. -/
structure BackOut where
  redirect : Bool := false
  pc : W32 := 0#32
  stall : Bool := false
  fenceI : Bool := false

/-- `back.in`: the slots with the fields of the group they came with; `none`: no slot is valid. -/
abbrev Slots (W : Nat) (M : Type) := Option (Out W M)

/-- `back.in.valid`, rv_simu_mmu_v2.cpp:1142-1145, 1169-1170: nothing behind the first slot that is valid and predicted taken. -/
def cutValid (valid dir : Fin W → Bool) (j : Fin W) : Bool :=
  valid j && (List.finRange W).all fun i => !(decide (i < j) && valid i && dir i)

def cut (o : Out W M) : Out W M := { o with valid := cutValid o.valid o.dir }

/-- `front.in.FIFO_read_enable`, rv_simu_mmu_v2.cpp:1127-1129, 1177. -/
def readEn (b : BackOut) : Bool := !b.stall || b.redirect

/-- `back.in` after `front_cycle`, with the branch predictor: rv_simu_mmu_v2.cpp:1127-1175; kept while the back end stalls,
1177-1184.  `out`: what the front end hands over this cycle. -/
def take (b : BackOut) (old : Slots W M) (out : Option (Out W M)) : Slots W M :=
  if readEn b then out.map cut else old

/-- With the oracle, `oracle_pending_valid` and `oracle_pending_out`, and whether `step_oracle` is called:
rv_simu_mmu_v2.cpp:1198-1213. -/
structure Oracle (W : Nat) (M : Type) where
  pending : Bool := false
  out : Option (Out W M) := none

def asks (b : BackOut) (p : Oracle W M) : Bool := !(p.pending && b.stall && !b.redirect)

/-- `front_cycle` with the oracle, rv_simu_mmu_v2.cpp:1188-1258: the next pending group, and `back.in`. -/
def takeOracle (b : BackOut) (p : Oracle W M) (out : Option (Out W M)) : Oracle W M × Slots W M :=
  let p' : Oracle W M := if asks b p then ⟨true, out⟩ else p
  (p', p'.out.map cut)

/-- The group as `PreIduQueue` takes it over, PreIduQueue.cpp:119-122, 180-196. -/
def group (s : Slots W M) : PreIdu.Group :=
  match s with
  | none => List.replicate W none
  | some o => (List.finRange W).map fun j => if o.valid j then some (o.insts j, o.pf j) else none

/-- The fetch block recorded for it, PreIduQueue.cpp:139-163; training data as one opaque value. -/
def block (s : Slots W Nat) : PreIdu.Block :=
  match s with
  | none => ⟨fun _ => 0#32, fun _ => false, 0#32, 0⟩
  | some o => ⟨fun k => if h : k < W then o.pc ⟨k, h⟩ else 0#32, fun k => if h : k < W then o.dir ⟨k, h⟩ else false, o.next, o.info⟩

/-- `BackTop::comb`, BackTop.cpp:340-355: while the reorder buffer flushes, `stall` keeps its value.  `ready`:
`pre2front.ready`; `mispred`: the redirect of the branch latch. -/
def backOut (old : BackOut) (flush : Bool) (mispred : Bool) (ready : Bool) (pc : W32) (fenceI : Bool) : BackOut :=
  if flush then ⟨true, pc, old.stall, fenceI⟩ else ⟨mispred, pc, !ready, fenceI⟩

/-- The end of `SimCpu::cycle`, rv_simu_mmu_v2.cpp:1099-1107: if the back end stalls, slots it has taken anyway are cleared.
`fire`: `pre2front.fire`, all the valid slots or none (PreIduQueue.cpp:106-109, 173-175). -/
def clear (b : BackOut) (fire : Bool) (s : Slots W M) : Slots W M :=
  if !b.redirect && b.stall then s.map fun o => { o with valid := fun j => o.valid j && !fire } else s

/-! ### What comes back for training

The record goes through `back.in`, the fetch-target queue (PreIduQueue.cpp:142-163, 288-339, C21) and `back2front_comb`
(rv_simu_mmu_v2.cpp:1272-1345). -/

/-- What `front_cycle` copies of the direction predictor's record, rv_simu_mmu_v2.cpp:1161-1168: the fields of the corrector and
of the loop table are not copied, and keep the zeros of the constructor (back-end/include/IO.h:160-179). -/
def carried (m : Tage.Meta) : Tage.Meta :=
  { m with scUsed := false, scPred := false, scSum := 0, scIdx := fun _ => 0
           loopUsed := false, loopPred := false, loopIdx := 0, loopTag := 0 }

end Verif.HandOff

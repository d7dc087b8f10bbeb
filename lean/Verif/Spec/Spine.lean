import Verif.Spec.BranchWindow
import Verif.Spec.RenWindow
import Verif.Spec.DispatchGroup
import Verif.Spec.RobQueue
import Verif.Model.Exu
/-
The in-order part of the back end put together: decode (`Idu`), rename (`Ren`), dispatch (`Dispatch`), the reorder buffer
(`Rob`) and the branch arbitration of the execution unit, wired as in back-end/BackTop.cpp:37-154 and run in the order of
BackTop.cpp:269-394.  The stages are the models of Verif/Model, unchanged.  What is left open (`Cyc`): the instruction
buffer, the load/store unit's and the issue queues' capacity, wake-ups, interrupts, and which operations finish when.

Simplification: the fields of an instruction that the stages only hand on (destination register, its physical register, the
one it replaces, the branch tag) are kept once, in `info`, under the number the instruction got at decode; that number is
the payload (`ftq`, `id`) that the models of dispatch and the reorder buffer hand on.
-/
namespace Verif.Spine
open Verif.Decode (DecInst decodeEntry)
open Verif.Dispatch (expectMask)
open Verif.BranchWindow (Flight)
open Verif.RenWindow (Entry toEntry)

/-- Parameters: physical registers, map entries, branches per cycle, dispatch limits (`dis.banks` is the group width and the
number of banks of the reorder buffer), lines of the reorder buffer. -/
structure Cfg where
  P : Nat
  A : Nat
  maxBr : Nat
  dis : Dispatch.Cfg
  L : Nat

/-- What is asked of the parameters: as many banks as the group is wide, a power of two; a map entry for each of the 33
registers of the decoder; a reorder buffer. -/
structure Good (k : Cfg) : Prop where
  lines : 0 < k.L
  banks : ∃ m, k.dis.banks = 2 ^ m
  regs : 32 < k.A
  pregs : k.A ≤ k.P

/-- A decoded instruction in the latches of rename (`DecRenInst`), numbered in decode order. -/
structure DInst (n : Nat) where
  uid : Nat
  dec : DecInst
  brId : Nat
  brMask : BitVec n

variable {n : Nat}

/-- `is_branch`, back-end/include/util.h:111. -/
def isBranch (d : DecInst) : Bool := d.type == .br || d.type == .jalr

/-- What rename reads of it. -/
def toInst (d : DInst n) : Ren.Inst :=
  ⟨d.dec.destEn, d.dec.destAreg, d.dec.src1Areg, d.dec.src2Areg, isBranch d.dec, d.brId⟩

/-- The registers of the four stages. -/
structure St (n : Nat) where
  idu : Idu.State n
  /-- `br_latch.redirect_rob_idx` -/
  redirect : Nat
  regs : Ren.Regs
  lat : List (Option (DInst n))
  dis : Dispatch.State n
  rob : Rob.State
  info : Nat → Entry
  /-- number of the next instruction -/
  next : Nat

def init (n : Nat) (k : Cfg) : St n :=
  ⟨Idu.init n, 0, Ren.init k.P k.A, List.replicate k.dis.banks none, Dispatch.init n k.dis.banks, Rob.init k.dis.banks,
    fun _ => ⟨false, 0, 0, 0, none⟩, 0⟩

/-- What the rest of the machine supplies in one cycle. -/
structure Cyc (n : Nat) where
  /-- the head of the instruction buffer: word, fetch page fault -/
  ib : List (Option (BitVec 32 × Bool))
  stqTail : Nat
  stqTailFlag : Bool
  stqFree : Nat
  ldqFree : Nat
  ldqAllocValid : Nat → Bool
  ldqAllocIdx : Nat → Nat
  ready : Decode.Iq → Nat
  wakes : List Nat
  frontStall : Bool
  intReq : Bool
  storePending : Bool
  /-- operations finishing outside the branch ports -/
  wbs : List Rob.Wb
  /-- operations finishing on the branch ports, not squashed this cycle (back-end/Exu/Exu.cpp:458, 493-500) -/
  res : List (Exu.Op n)

/-- `RobStoredInst::type` as far as `Rob` looks. -/
def tyOf : Decode.InstType → Rob.Ty
  | .csr => .csr | .ecall => .ecall | .mret => .mret | .sret => .sret | .sfenceVma => .sfenceVma
  | .fenceI => .fenceI | .fence => .fence | .ebreak => .ebreak | .wfi => .wfi | _ => .other

/-- `dis2rob->uop[i]`, Dispatch.cpp:143, 217-251 and `to_dis_rob_inst`, back-end/include/Dispatch.h:52-84. -/
def toUop (a : Dispatch.Alloc n) : Rob.Uop :=
  ⟨a.inst.ftq, a.robIdx, a.robFlag, tyOf a.inst.dec.type, expectMask a.inst.dec, 0#3, a.inst.dec.diag, a.inst.dec.pageFault,
    false, false, a.inst.dec.illegal, false⟩

/-- The report of a branch port to the reorder buffer, back-end/Exu/Exu.cpp:464-469 and Rob.cpp:533-629. -/
def brWb (o : Exu.Op n) : Rob.Wb := ⟨o.robIdx, .branch, 2#3, o.redirect, o.result, false, false, false, false⟩

/-! ### The wires of one cycle -/

/-- The decoded instructions, Idu.cpp:108-130. -/
def decoded (c : Cyc n) : List (Option DecInst) := c.ib.map (Option.map fun x => decodeEntry x.1 x.2)

/-- `dec2ren`: validity, tags and masks. -/
def decSlots (k : Cfg) (s : St n) (c : Cyc n) : List (Idu.Slot n) :=
  Idu.combDecode s.idu k.maxBr ((decoded c).map (Option.map isBranch))

/-- `dec2ren` as latched by rename: the valid slots numbered from `m` on. -/
def number : Nat → List (Option DecInst) → List (Idu.Slot n) → List (Option (DInst n))
  | m, d :: ds, sl :: sls =>
    if sl.valid then some ⟨m, d.getD {}, sl.brId, sl.brMask⟩ :: number (m + 1) ds sls else none :: number m ds sls
  | _, _, _ => []

/-- `dec_bcast->mispred`, `br_id`. -/
def mispred (s : St n) : Option Nat := if s.idu.latch.mispred then some s.idu.latch.brId else none

/-- The inputs of the reorder buffer apart from the dispatched instructions. -/
def robIn0 (s : St n) (c : Cyc n) : Rob.Input :=
  ⟨if s.idu.latch.mispred then some s.redirect else none, c.frontStall, c.intReq, c.storePending, c.wbs ++ c.res.map brWb, []⟩

/-- `rob_bcast->flush`. -/
def flush (s : St n) (c : Cyc n) : Bool := RobQueue.flushed s.rob (robIn0 s c)

/-- `rob_bcast->interrupt`. -/
def interrupt (s : St n) (c : Cyc n) : Bool :=
  match Rob.decision s.rob (robIn0 s c) with
  | .single _ int => int
  | _ => false

/-- The instructions retired (`rob_commit`). -/
def retired (s : St n) (c : Cyc n) : List Rob.Uop := RobQueue.retired s.rob (robIn0 s c)

/-- `ren2dis` before the payload is added. -/
def renSlots (k : Cfg) (s : St n) : List Ren.Slot := Ren.renameGroup k.P s.regs (s.lat.map (Option.map toInst))

/-- `ren2dis`. -/
def renOut : List Ren.Slot → List (Option (DInst n)) → List (Option (Dispatch.Inst n))
  | sl :: r, d :: ds =>
    (d.bind fun d => if sl.valid then some ⟨d.dec, sl.dest, sl.p1, sl.p2, d.brMask, d.uid⟩ else none) :: renOut r ds
  | _, _ => []

/-- The rename records of the instructions handed over, by number. -/
def records : List Ren.Slot → List (Option (DInst n)) → List (Nat × Entry)
  | sl :: r, d :: ds => (d.bind fun d => (toEntry sl).map fun e => (d.uid, e)).toList ++ records r ds
  | _, _ => []

def disIn (k : Cfg) (s : St n) (c : Cyc n) : Dispatch.Input n :=
  { stqTail := c.stqTail, stqTailFlag := c.stqTailFlag, stqFree := c.stqFree, ldqFree := c.ldqFree
    ldqAllocValid := c.ldqAllocValid, ldqAllocIdx := c.ldqAllocIdx, ready := c.ready
    robEnq := s.rob.enq, robFlag := s.rob.ef, robReady := Rob.readyOut s.rob, robEmpty := Rob.emptyOut s.rob
    robStall := Rob.stallOut s.rob, flush := flush s c, mispred := s.idu.latch.mispred
    clear := (Idu.combBranch s.idu).clear, wakes := c.wakes, ren := renOut (renSlots k s) s.lat }

def disOut (k : Cfg) (s : St n) (c : Cyc n) : Dispatch.Out n := Dispatch.comb k.dis s.dis (disIn k s c)

/-- `dis2rob->dis_fire`, with the instructions. -/
def fireRow (o : Dispatch.Out n) : Rob.Row := (o.alloc.zip o.fire).map fun x => if x.2 then some (toUop x.1) else none

def robIn (k : Cfg) (s : St n) (c : Cyc n) : Rob.Input := { robIn0 s c with fire := fireRow (disOut k s c) }

/-- `ren2dec->ready`. -/
def renReady (k : Cfg) (s : St n) (c : Cyc n) : Bool :=
  Ren.readyOut (renSlots k s) (disOut k s c).ready (flush s c) (mispred s)

/-- `rob_commit` as rename reads it. -/
def commitOf (s : St n) (u : Rob.Uop) : Ren.Commit :=
  ⟨(s.info u.id).destEn, (s.info u.id).areg, (s.info u.id).preg, (s.info u.id).old, Rob.isExc u⟩

/-- The branch arbitration, back-end/Exu/Exu.cpp:564-597. -/
def arb (c : Cyc n) : Exu.Arb n := c.res.foldl Exu.arbStep ⟨0#n, none⟩

/-- `exu2id`. -/
def exu2id (c : Cyc n) : Idu.Latch n := ⟨(arb c).worst.isSome, ((arb c).worst.map (·.brId)).getD 0, (arb c).clear⟩

def scrub (m : BitVec n) (d : DInst n) : DInst n := { d with brMask := d.brMask &&& ~~~m }

/-- `Ren::comb_pipeline`, Ren.cpp:353-397, on the whole latch. -/
def latNext (k : Cfg) (s : St n) (c : Cyc n) : List (Option (DInst n)) :=
  let clear := (Idu.combBranch s.idu).clear
  if flush s c || (mispred s).isSome then s.lat.map (fun _ => none)
  else if renReady k s c then (number s.next (decoded c) (decSlots k s c)).map (Option.map (scrub clear))
  else List.zipWith (fun sl d => if Ren.fires (disOut k s c).ready sl then none else d.map (scrub clear)) (renSlots k s) s.lat

/-- One cycle. -/
def step (k : Cfg) (s : St n) (c : Cyc n) : St n :=
  { idu := Idu.combFire s.idu k.maxBr (decSlots k s c) (renReady k s c) (flush s c) (exu2id c)
    redirect := if flush s c then 0 else ((arb c).worst.map (·.robIdx)).getD 0
    regs := Ren.combFire k.P k.A n s.regs (renSlots k s) (disOut k s c).ready (flush s c) (interrupt s c) (mispred s)
      ((retired s c).map (commitOf s))
    lat := latNext k s c
    dis := Dispatch.step k.dis s.dis (disIn k s c)
    rob := Rob.step k.dis.banks k.L s.rob (robIn k s c)
    info := if (disOut k s c).ready then
        fun m => (((records (renSlots k s) s.lat).find? (fun x => x.1 == m)).map Prod.snd).getD (s.info m)
      else s.info
    next := s.next + (Idu.fired s.idu (decSlots k s c) (renReady k s c) (flush s c)).length }

/-! ### What is seen of it -/

/-- The instructions in the reorder buffer that survive this cycle's misprediction. -/
def live (k : Cfg) (s : St n) : List Rob.Uop :=
  if s.idu.latch.mispred then RobQueue.upTo s.redirect (RobQueue.insts k.L s.rob) else RobQueue.insts k.L s.rob

/-- The execution units report a branch (it owns a tag) once, after its dispatch and unless it is squashed, with its own tag
and index; a `jal` is reported with tag 0 and is not mispredicted (C71); no other unit completes the branch part of a branch. -/
structure Valid (k : Cfg) (s : St n) (c : Cyc n) : Prop where
  width : c.ib.length = k.dis.banks
  res : ∀ o ∈ c.res,
    (∃ u ∈ live k s, u.robIdx = o.robIdx ∧ (s.info u.id).tag = some o.brId ∧ u.cplt.getLsbD 1 = false) ∨
    (o.brId = 0 ∧ o.mispred = false ∧ ∀ u ∈ RobQueue.insts k.L s.rob, u.robIdx = o.robIdx → (s.info u.id).tag = none)
  wbs : ∀ w ∈ c.wbs, w.bit.getLsbD 1 = true → ∀ u ∈ RobQueue.insts k.L s.rob, u.robIdx = w.robIdx → (s.info u.id).tag = none

inductive Reach (k : Cfg) : St n → Prop
  | init : Reach k (init n k)
  | step {s : St n} (c : Cyc n) : Reach k s → Valid k s c → Reach k (step k s c)

/-- The numbers of the instructions in the reorder buffer, waiting for dispatch, and in rename. -/
def robIds (k : Cfg) (s : St n) : List Nat := (RobQueue.insts k.L s.rob).map (·.id)
def disIds (s : St n) : List Nat := (DispatchGroup.waiting s.dis).map (·.ftq)
def latIds (s : St n) : List Nat := (s.lat.filterMap id).map (·.uid)

/-- Everything in flight, oldest first. -/
def inflight (k : Cfg) (s : St n) : List Nat := robIds k s ++ disIds s ++ latIds s

/-- The numbers given this cycle. -/
def accepted (k : Cfg) (s : St n) (c : Cyc n) : List Nat :=
  List.range' s.next ((step k s c).next - s.next)

/-- The records kept of the instructions that have been renamed, oldest first. -/
def renamed (k : Cfg) (s : St n) : List Entry := (robIds k s ++ disIds s).map s.info

/-- A run, with the numbers retired so far. -/
inductive Hist (k : Cfg) : St n → List Nat → Prop
  | init : Hist k (init n k) []
  | step {s : St n} {ret : List Nat} (c : Cyc n) : Hist k s ret → Valid k s c →
    Hist k (step k s c) (ret ++ (retired s c).map (·.id))

end Verif.Spine

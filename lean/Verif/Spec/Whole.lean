import Verif.Spec.Spine
import Verif.Spec.CoreFlow
/-
The stages of the in-order back end (`Spine`: the models of decode, rename, dispatch, reorder buffer and branch arbitration,
unchanged and wired together) running a program.  Added to the stages' registers, by the number an instruction got at decode:
its address and predicted successor (`DecRenInst::pc`, and the fetch target queue entry the branch unit compares with,
back-end/Exu/Exu.cpp:493-500), its physical source registers (`Dispatch.Inst`), whether it has executed and the successor it
found; the physical register file; and where the front end goes on (front-end redirection, BackTop.cpp:360-394).

In contrast to `Core`, where the order of the window, the cut at a misprediction, which instructions retire and when a
serialising instruction flushes are assumptions, here they are what the stages do.  What is left to the environment (`Valid`,
`CanRun`): the words fetched are the program's, fetched along the predicted path; an operation runs once the producers of its
operands have; the units' reports are honest: an instruction whose parts are all reported finished has run or faulted, and
the branch unit reports a misprediction exactly if the successor found is not the predicted one.

Simplification: an instruction runs at one instant, except that its register result may be written earlier, as in `Core`.
-/
namespace Verif.Whole
open Verif.Spine Verif.Core
open Verif.Decode (DecInst decodeEntry)

variable {n : Nat} {M : Type}

/-- The instruction types that flush the pipeline when they retire, `rob_is_flush_inst`, Rob.cpp:46-52. -/
def flushTy : Rob.Ty → Bool
  | .csr | .ecall | .mret | .sret | .sfenceVma | .fenceI | .ebreak => true
  | _ => false

/-- The decoded form of an instruction belongs to its meaning: same registers, both a branch or neither; what the meaning
calls serialising is of a flushing type. -/
structure Agrees (d : DecInst) (i : Sem M) : Prop where
  destEn : i.destEn = d.destEn
  areg : i.areg = d.destAreg
  src1 : i.src1 = d.src1Areg
  src2 : i.src2 = d.src2Areg
  isBr : i.isBr = isBranch d
  serial : i.serial = true → flushTy (tyOf d.type) = true

structure State (n : Nat) (M : Type) where
  sp : St n
  /-- address and predicted successor -/
  pay : Nat → W × W
  /-- physical source registers -/
  src : Nat → Nat × Nat
  done : Nat → Bool
  /-- the successor found -/
  act : Nat → W
  /-- the result was written before the instruction ran altogether -/
  wrote : Nat → Bool
  prf : Nat → W
  expect : W
  /-- ghost: as in `Core` -/
  past : List (Item M)
  isa : Isa M

structure Input (n : Nat) (M : Type) where
  hw : Spine.Cyc n
  /-- address and predicted successor of each slot of the instruction buffer -/
  slots : List (W × W)
  /-- where a flush continues and its effect on the external state -/
  target : W
  g : M → M

variable (prog : W → Sem M)

/-- The addresses of the instructions decoded this cycle. -/
def fresh (k : Cfg) (s : State n M) (c : Input n M) : List (W × W) :=
  ((decSlots k s.sp c.hw).zip c.slots).filterMap fun x => if x.1.valid then some x.2 else none

def pay1 (k : Cfg) (s : State n M) (c : Input n M) (u : Nat) : W × W :=
  if u < s.sp.next then s.pay u else (fresh k s c).getD (u - s.sp.next) (0#32, 0#32)

/-- The decoded instructions as `Core` sees them. -/
def fetched (k : Cfg) (s : State n M) (c : Input n M) : List (Option Fetched) :=
  (number s.sp.next (decoded c.hw) (decSlots k s.sp c.hw)).map
    (Option.map fun d => ⟨(pay1 k s c d.uid).1, (pay1 k s c d.uid).2, d.brId⟩)

/-- The physical source registers of the instructions handed to dispatch (`ren2dis->uop[i].src1_preg`, `src2_preg`). -/
def sources : List Ren.Slot → List (Option (DInst n)) → List (Nat × Nat × Nat)
  | sl :: r, d :: ds => (d.bind fun d => if sl.valid then some (d.uid, sl.p1, sl.p2) else none).toList ++ sources r ds
  | _, _ => []

/-- The branch whose misprediction is broadcast this cycle. -/
def culprit (k : Cfg) (s : State n M) : Option Nat :=
  if s.sp.idu.latch.mispred then ((RobQueue.insts k.L s.sp.rob).find? (fun u => u.robIdx == s.sp.redirect)).map (·.id) else none

/-- The instructions retired with effect, by number. -/
def retiredIds (s : State n M) (c : Input n M) : List Nat :=
  if (Spine.retired s.sp c.hw).any Rob.isExc || interrupt s.sp c.hw then [] else (Spine.retired s.sp c.hw).map (·.id)

/-- The instruction-set machine after the instructions `l`. -/
def isaAfter (s : State n M) (l : List Nat) : Isa M := l.foldl (fun σ u => exec (prog (s.pay u).1) σ) s.isa

/-- One cycle. -/
def cycle (k : Cfg) (s : State n M) (c : Input n M) : State n M :=
  let f := flush s.sp c.hw
  let σ := isaAfter prog s (retiredIds s c)
  { sp := Spine.step k s.sp c.hw
    pay := fun u => if culprit k s = some u then ((s.pay u).1, s.act u) else pay1 k s c u
    src := if (disOut k s.sp c.hw).ready then
        fun u => (((sources (renSlots k s.sp) s.sp.lat).find? (fun x => x.1 == u)).map Prod.snd).getD (s.src u)
      else s.src
    done := s.done
    act := s.act
    wrote := s.wrote
    prf := s.prf
    expect := if f then c.target else match culprit k s with
      | some u => s.act u
      | none => if renReady k s.sp c.hw then pathEnd s.expect (fetched k s c) else s.expect
    past := s.past ++ (retiredIds s c).map (fun u => .inst (s.pay u).1) ++ if f then [.jump c.target c.g] else []
    isa := if f then ⟨c.target, σ.regs, c.g σ.ext⟩ else σ }

/-- What the rest of the machine guarantees of a cycle. -/
structure Valid (k : Cfg) (s : State n M) (c : Input n M) : Prop where
  hw : Spine.Valid k s.sp c.hw
  /-- a branch port reports the instruction's own wrap flag -/
  flag : ∀ o ∈ c.hw.res, ∀ u ∈ live k s.sp, u.robIdx = o.robIdx → o.robFlag = u.robFlag
  /-- the words fetched are the program's -/
  width : c.slots.length = c.hw.ib.length
  code : ∀ (i : Nat) w pf (a : W × W), c.hw.ib[i]? = some (some (w, pf)) → c.slots[i]? = some a → Agrees (decodeEntry w pf) (prog a.1)
  /-- an instruction whose parts are all reported finished has run, or faulted; one without parts has when it retires -/
  ran : ∀ u ∈ RobQueue.insts k.L s.sp.rob, Rob.complete u = true → Rob.isExc u = false →
    (u.expect = 0#3 → u ∈ Spine.retired s.sp c.hw) → s.done u.id = true
  /-- a reported branch has run; it is reported mispredicted exactly if the predicted successor is wrong -/
  branch : ∀ o ∈ c.hw.res, ∀ u ∈ live k s.sp, u.robIdx = o.robIdx → (s.sp.info u.id).tag.isSome = true →
    s.done u.id = true ∧ o.mispred = decide (s.act u.id ≠ (s.pay u.id).2)
  /-- the front end follows the predicted path; the successor of an instruction that is no branch is known -/
  path : renReady k s.sp c.hw = true → Path s.expect (fetched k s c)
  plain : renReady k s.sp c.hw = true → ∀ f, some f ∈ fetched k s c → (prog f.pc).isBr = false →
    (prog f.pc).serial = false → ∀ m a b, (prog f.pc).next m a b = f.pn

/-- The renamed instructions in flight, oldest first. -/
def ids (k : Cfg) (s : State n M) : List Nat := robIds k s.sp ++ disIds s.sp

/-- The renamed instructions older than `u`. -/
def older (k : Cfg) (s : State n M) (u : Nat) : List Nat := (ids k s).takeWhile (· != u)

/-- The argument values instruction `u` reads. -/
def arg1 (s : State n M) (u : Nat) : W := if (prog (s.pay u).1).use1 then s.prf (s.src u).1 else 0#32
def arg2 (s : State n M) (u : Nat) : W := if (prog (s.pay u).1).use2 then s.prf (s.src u).2 else 0#32

/-- Instruction `u` executes. -/
def finish (k : Cfg) (s : State n M) (u : Nat) : State n M :=
  let i := prog (s.pay u).1
  let m := (isaAfter prog s (older k s u)).ext
  { s with
    done := fun v => if v = u then true else s.done v
    act := fun v => if v = u then i.next m (arg1 prog s u) (arg2 prog s u) else s.act v
    prf := if (s.sp.info u).destEn then Ring.upd s.prf (s.sp.info u).preg (i.value m (arg1 prog s u) (arg2 prog s u)) else s.prf }

/-- Its register result is written before it has run altogether. -/
def write (k : Cfg) (s : State n M) (u : Nat) : State n M :=
  let i := prog (s.pay u).1
  let m := (isaAfter prog s (older k s u)).ext
  { s with
    wrote := fun v => if v = u then true else s.wrote v
    prf := if (s.sp.info u).destEn then Ring.upd s.prf (s.sp.info u).preg (i.value m (arg1 prog s u) (arg2 prog s u)) else s.prf }

/-- No instruction of `l` still has to produce physical register `p`. -/
def Settled (s : State n M) (l : List Nat) (p : Nat) : Prop :=
  ∀ j ∈ l, (s.sp.info j).destEn = true → s.done j = false → s.wrote j = false → (s.sp.info j).preg ≠ p

/-- It may execute: it is in the reorder buffer, has not executed, and the producers of its sources have. -/
structure CanRun (k : Cfg) (s : State n M) (u : Nat) : Prop where
  mem : u ∈ robIds k s.sp
  fresh : s.done u = false
  one : (prog (s.pay u).1).use1 = true → Settled s (older k s u) (s.src u).1
  two : (prog (s.pay u).1).use2 = true → Settled s (older k s u) (s.src u).2

/-- Its result may be written: the producers of the sources the result depends on have run or written. -/
structure CanWrite (k : Cfg) (s : State n M) (u : Nat) : Prop where
  mem : u ∈ robIds k s.sp
  fresh : s.done u = false
  one : (prog (s.pay u).1).use1 = true → Settled s (older k s u) (s.src u).1 ∨
    ∀ m a a' b, (prog (s.pay u).1).value m a b = (prog (s.pay u).1).value m a' b
  two : (prog (s.pay u).1).use2 = true → Settled s (older k s u) (s.src u).2 ∨
    ∀ m a b b', (prog (s.pay u).1).value m a b = (prog (s.pay u).1).value m a b'

def init (n : Nat) (k : Cfg) (prf : Nat → W) (pc : W) (m : M) : State n M :=
  ⟨Spine.init n k, fun _ => (0#32, 0#32), fun _ => (0, 0), fun _ => false, fun _ => 0#32, fun _ => false, prf, pc, [], ⟨pc, prf, m⟩⟩

inductive Reach (k : Cfg) (s0 : State n M) : State n M → Prop
  | init : Reach k s0 s0
  | cycle {s} (c : Input n M) : Reach k s0 s → Valid prog k s c → Reach k s0 (cycle prog k s c)
  | run {s} {u : Nat} : Reach k s0 s → CanRun prog k s u → Reach k s0 (finish prog k s u)
  | write {s} {u : Nat} : Reach k s0 s → CanWrite prog k s u → Reach k s0 (write prog k s u)

/-! ### As `Core` sees it -/

def taskOf (s : State n M) (e : RenWindow.Entry) (u : Nat) : Task :=
  ⟨e, (s.pay u).1, (s.pay u).2, (s.src u).1, (s.src u).2, s.done u, s.act u, s.wrote u⟩

def latOf (s : State n M) : List (Option Fetched) :=
  s.sp.lat.map (Option.map fun d => ⟨(s.pay d.uid).1, (s.pay d.uid).2, d.brId⟩)

def coreOf (s : State n M) (rw : RenWindow.Sys) (l : List Nat) : Core.State M :=
  ⟨rw, latOf s, List.zipWith (taskOf s) rw.win l, s.prf, s.expect, s.past, s.isa⟩

def cycOf (k : Cfg) (s : State n M) (c : Input n M) : Core.Cyc M :=
  { ready := (disOut k s.sp c.hw).ready, flush := flush s.sp c.hw, interrupt := interrupt s.sp c.hw
    exc := (Spine.retired s.sp c.hw).any Rob.isExc, retire := (Spine.retired s.sp c.hw).length
    mispred := mispred s.sp, clear := fun t => s.sp.idu.latch.clear.getLsbD t
    dec := if renReady k s.sp c.hw then fetched k s c else [], target := c.target, g := c.g }

end Verif.Whole

import Verif.Spec.HandOff
import Verif.Spec.Whole
/-
The front end with its instruction cache, the hand-over, the queues in front of decode (`HandOff`) and the stages of the
in-order back end running a program (`Whole`), wired together as in rv_simu_mmu_v2.cpp:1060-1107 and BackTop.cpp:269-394.  Both
are used unchanged.  What each of them leaves to the other is now a wire:

* decode sees the head of the instruction buffer (PreIduQueue.cpp:92-98, Idu.cpp:108-130); address and predicted successor of
  what it sees are those of the buffer entry and of the entry of the fetch-target queue (PreIduQueue.cpp:264-286);
* the buffer is told what decode has taken, what retires and where the pipeline restarts (PreIduQueue.cpp:205-262);
* the front end is told where to go on (BackTop.cpp:337-355).

What is left to the surroundings (`Ok`): the predictor's guesses are free, the ports of the instruction cache (C80), the units'
reports (C110), and that the addresses handed over are multiples of four (C111 shows what happens otherwise).

Simplifications: those of `HandOff` and `Whole`.  The fetch-target queue is read when an instruction is decoded and not again when
it executes (its entry does not change in between, C21).
-/
namespace Verif.FullCpu
open Verif.Spine
open Verif.Core (W Sem)
open Verif.Front (instNop)
open Verif.HandOff (Insn Right)
open Verif.Fetch (In NextW)
open Verif.FetchStream (Ev IsJal jalTarget)
open Verif.ICache (World)
open Verif.Decode (decodeEntry)

variable {F n : Nat} {M : Type}

/-- Parameters: front end, instruction buffer, fetch-target queue, back end. -/
structure Cfg where
  front : Front.Cfg
  buf : Nat
  ftq : Nat
  back : Spine.Cfg

structure State (F n : Nat) (M : Type) where
  fe : HandOff.State F
  be : Whole.State n M

def init (n : Nat) (k : Cfg) (prf : Nat → W) (m : M) : State F n M :=
  ⟨{ fr := ⟨Front.St.init k.front, {}⟩, q := ⟨PreIdu.init, [], []⟩ }, Whole.init n k.back prf k.front.resetPc m⟩

/-- What the surroundings do in a cycle: the ports of the front end, those of the back end (`hw.ib` is not looked at), where a
flush continues and its effect, and the stale flush signal `comb_accept_front` sees. -/
structure Cyc (F n : Nat) (M : Type) where
  inp : In F Nat
  hw : Spine.Cyc n
  target : W
  g : M → M
  sawFlush : Bool

variable (k : Cfg)

/-- `issue->entries`, PreIduQueue.cpp:92-98. -/
def issue (s : State F n M) : List (Option PreIdu.Entry) :=
  let l := (PreIdu.offered k.buf k.back.dis.banks s.fe.q.pre).map (·.bind id)
  l ++ List.replicate (k.back.dis.banks - l.length) none

/-- Address and predicted successor: the taken instruction of its fetch block is followed by the block's next address. -/
def address (s : State F n M) (e : PreIdu.Entry) : W × W :=
  let (_, _, taken, next) := PreIdu.lookup s.fe.q.pre e.ftqIdx e.offset
  (e.pc, if taken then next else e.pc + 4#32)

/-- The inputs of the back end. -/
def input (s : State F n M) (c : Cyc F n M) : Whole.Input n M :=
  { hw := { c.hw with ib := (issue k s).map (Option.map fun e => (e.inst, e.pageFault)) }
    slots := (issue k s).map fun o => (o.map (address s)).getD (0#32, 0#32)
    target := c.target
    g := c.g }

/-- The leading slots decode consumes: `idu_consume->fire`, Idu.cpp:216-218, 262; PreIduQueue.cpp:210-216. -/
def consumed (s : State F n M) (c : Cyc F n M) : Nat :=
  if flush s.be.sp (input k s c).hw || s.be.sp.idu.latch.mispred || !renReady k.back s.be.sp (input k s c).hw then 0
  else ((decSlots k.back s.be.sp (input k s c).hw).takeWhile (·.valid)).length

/-- `rob_bcast->fence_i`, Rob.cpp:444-471. -/
def fenceI (s : State F n M) (c : Cyc F n M) : Bool :=
  flush s.be.sp (input k s c).hw && !interrupt s.be.sp (input k s c).hw &&
    (retired s.be.sp (input k s c).hw).any fun u => decide (u.ty = .fenceI) && !Rob.isExc u

/-- What the queues in front of decode and the front end learn of the back end.  The redirecting branch is named by its place
among the instructions in flight. -/
def back (s : State F n M) (c : Cyc F n M) : HandOff.Back :=
  let f := flush s.be.sp (input k s c).hw
  { sawFlush := c.sawFlush
    flush := f
    mispred := (Whole.culprit k.back s.be).map fun u => (inflight k.back s.be.sp).idxOf u
    fire := consumed k s c
    retire := (retired s.be.sp (input k s c).hw).length
    pc := if f then c.target else ((Whole.culprit k.back s.be).map s.be.act).getD 0#32
    fenceI := fenceI k s c }

variable (prog : W → Sem M)

/-- One cycle. -/
def cycle (s : State F n M) (c : Cyc F n M) : Option (State F n M × Ev F Nat) :=
  (HandOff.cycle k.front k.buf k.ftq s.fe c.inp (back k s c)).map fun x =>
    (⟨x.1, Whole.cycle prog k.back s.be (input k s c)⟩, x.2)

instance (w : W) : Decidable (IsJal w) := inferInstanceAs (Decidable (_ = _))

/-- The surroundings hold the program: what is fetched from an address is the program's instruction there; the successor of one
that is neither a branch nor serialising is its target if it is a `jal`, otherwise the next word.  (A page that faults
delivers `nop`s marked as faulting.) -/
def Holds (w : World) : Prop :=
  ∀ i : Insn, i.pc.toNat % 4 = 0 → Right w i → (i.pf = true → i.word = instNop) →
    Whole.Agrees (decodeEntry i.word i.pf) (prog i.pc) ∧
    ((prog i.pc).isBr = false → (prog i.pc).serial = false →
      ∀ m a b, (prog i.pc).next m a b = if IsJal i.word then jalTarget i.pc i.word else i.pc + 4#32)

/-- What is left to the surroundings. -/
structure Ok (w : World) (s : State F n M) (c : Cyc F n M) : Prop where
  holds : Holds prog w
  /-- the ports of the instruction cache, as in C80 -/
  mmu : ∀ v x, c.inp.mmu v = some x → w.xlat v x
  resp : ∀ t d, c.inp.mResp = some (t, d) →
    (∃ a f, s.fe.fr.ic.e.owed t = some (a, f) ∧ (f = true → w.mem a d)) ∨ s.fe.fr.ic.e.last = some t
  probe : ∀ a, s.fe.fr.ic.e.p2 = some (a, true) → w.probed a c.inp.probe
  acc : c.inp.acc = true → s.fe.fr.ic.e.offer.isSome = true
  /-- the units' reports, as in C106 and C110 -/
  res : ∀ o ∈ c.hw.res,
    (∃ u ∈ live k.back s.be.sp, u.robIdx = o.robIdx ∧ (s.be.sp.info u.id).tag = some o.brId ∧ u.cplt.getLsbD 1 = false) ∨
    (o.brId = 0 ∧ o.mispred = false ∧
      ∀ u ∈ RobQueue.insts k.back.L s.be.sp.rob, u.robIdx = o.robIdx → (s.be.sp.info u.id).tag = none)
  wbs : ∀ x ∈ c.hw.wbs, x.bit.getLsbD 1 = true → ∀ u ∈ RobQueue.insts k.back.L s.be.sp.rob, u.robIdx = x.robIdx →
    (s.be.sp.info u.id).tag = none
  flag : ∀ o ∈ c.hw.res, ∀ u ∈ live k.back s.be.sp, u.robIdx = o.robIdx → o.robFlag = u.robFlag
  ran : ∀ u ∈ RobQueue.insts k.back.L s.be.sp.rob, Rob.complete u = true → Rob.isExc u = false →
    (u.expect = 0#3 → u ∈ Spine.retired s.be.sp (input k s c).hw) → s.be.done u.id = true
  branch : ∀ o ∈ c.hw.res, ∀ u ∈ live k.back s.be.sp, u.robIdx = o.robIdx → (s.be.sp.info u.id).tag.isSome = true →
    s.be.done u.id = true ∧ o.mispred = decide (s.be.act u.id ≠ (s.be.pay u.id).2)

/-- The addresses handed over are multiples of four. -/
def Four (e : Ev F Nat) : Prop := ∀ o, e.out = some o → ∀ j, o.valid j = true → (o.pc j).toNat % 4 = 0

/-- The executions: what has been seen of the front end (latest first), what the surroundings hold, the state. -/
inductive Reach (s0 : State F n M) : List (Ev F Nat) → World → State F n M → Prop
  | init (w : World) : Reach s0 [] w s0
  | cycle {tr w w' s s' e} (c : Cyc F n M) : Reach s0 tr w s → Ok k prog w s c → NextW w w' (HandOff.drive s.fe.bo c.inp) →
      cycle k prog s c = some (s', e) → Four e → Reach s0 (e :: tr) w' s'
  | run {tr w s} {u : Nat} : Reach s0 tr w s → Whole.CanRun prog k.back s.be u →
      Reach s0 tr w { s with be := Whole.finish prog k.back s.be u }
  | write {tr w s} {u : Nat} : Reach s0 tr w s → Whole.CanWrite prog k.back s.be u →
      Reach s0 tr w { s with be := Whole.write prog k.back s.be u }

/-- The addresses of the instructions in flight: as the fetch-target side has them, and as the back end has them. -/
def pcsQueue (s : State F n M) : List W := s.fe.q.flight.map (·.entry.pc)
def pcsStages (s : State F n M) : List W := (inflight k.back s.be.sp).map fun u => (s.be.pay u).1

end Verif.FullCpu

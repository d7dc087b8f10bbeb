import Verif.Spec.Progress
/-
Does the back end come to a halt?  The machine is that of `Progress`, unchanged: decode, rename, dispatch, the issue queues, the
wake-up bus and the reorder buffer.  Here are the words for what may be outstanding elsewhere (in the execution and memory units), for
what it means that something moves, and what is asked of the rest of the machine for ever (`Fair`).
-/
namespace Verif.Alive
open Verif.Spine
open Verif.Decode (Iq decompose)
open Verif.Waker (State)

variable {n : Nat}

/-- What is required of the parameters: every queue has a slot, a dispatch port and, for each kind of operation sent to it, an issue port;
the load and the store queue have a dispatch port; there is a physical register to rename to and a branch tag; a branch can be
decoded. -/
structure Sized (n : Nat) (k : Waker.Cfg) : Prop where
  slots : ∀ q, 0 < k.sc.size q
  dports : ∀ q, 0 < k.sc.sp.dis.ports q
  ports : ∀ d, ∀ m ∈ decompose d, ∃ p ∈ k.sc.ports m.iq, p.cap (k.sc.kind m.op) = true
  loads : 0 < k.sc.sp.dis.ldPorts
  stores : 0 < k.sc.sp.dis.stPorts
  pregs : k.sc.sp.A < k.sc.sp.P
  tags : 1 < n
  brs : 0 < k.sc.sp.maxBr

/-- The inputs of the in-order part (apart from the wake-ups). -/
def hw (k : Waker.Cfg) (s : State n) (c : Waker.Cyc n) : Spine.Cyc n := Sched.hw k.sc s.sc ⟨c.hw, c.fuReady⟩

/-- All operations of instruction `u` have been issued. -/
def Issued (s : State n) (u : Nat) : Prop := ∀ q m, Sched.part s.sc u q = some m → u ∈ s.sc.out q

/-- The load and store queues have room. -/
def Room (c : Waker.Cyc n) : Prop := 0 < c.hw.stqFree ∧ 0 < c.hw.ldqFree ∧ c.hw.ldqAllocValid 0 = true

/-- Something is outstanding outside: an instruction all of whose operations have been issued is not finished, a result is on its way,
or a fence waits for stores to be written. -/
def Outstanding (k : Waker.Cfg) (s : State n) (c : Waker.Cyc n) : Prop :=
  (∃ v ∈ RobQueue.insts k.sc.sp.L s.sc.sp.rob, Issued s v.id ∧ Rob.complete v = false) ∨
  (∃ j ∈ robIds k.sc.sp s.sc.sp, s.sc.ann j = false ∧ Progress.OnWay k s j) ∨
  (∃ v, (RobQueue.insts k.sc.sp.L s.sc.sp.rob).head? = some v ∧ Rob.isFence v = true ∧ c.hw.storePending = true)

/-- Something moves in the cycle from `s` to `s'`: an instruction retires, an operation is issued, an instruction goes from dispatch to the
reorder buffer or from rename to dispatch, or one is decoded. -/
def Moves (k : Waker.Cfg) (s : State n) (c : Waker.Cyc n) (s' : State n) : Prop :=
  retired s.sc.sp (hw k s c) ≠ [] ∨ (∃ q, Sched.issued k.sc s.sc ⟨c.hw, c.fuReady⟩ q ≠ []) ∨
  (∃ u ∈ disIds s.sc.sp, u ∈ robIds k.sc.sp s'.sc.sp) ∨ (∃ u ∈ latIds s.sc.sp, u ∈ disIds s'.sc.sp) ∨ s.sc.sp.next < s'.sc.sp.next

/-- An endless run. -/
structure Run (k : Waker.Cfg) (s : Nat → State n) (c : Nat → Waker.Cyc n) : Prop where
  init : s 0 = Waker.init n k
  valid : ∀ t, Progress.Valid k (s t) (c t)
  step : ∀ t, Waker.step k (s t) (c t) = some (s (t + 1))

/-- What the rest of the machine does for ever: again and again there is a cycle without misprediction in which the units accept
work; an instruction all of whose operations have been issued is finished in the end; what the load part of an atomic instruction fetches is announced; again
and again there is a cycle without misprediction in which, if a fence is the oldest instruction, no store is pending; again and again,
when the reorder buffer is empty, the load and store queues have room. -/
structure Fair (k : Waker.Cfg) (s : Nat → State n) (c : Nat → Waker.Cyc n) : Prop where
  units : ∀ t, ∃ t' ≥ t, (s t').sc.sp.idu.latch.mispred = false ∧ ∀ p o, (c t').fuReady p o = true
  finishes : ∀ t, ∀ u ∈ robIds k.sc.sp (s t).sc.sp, Issued (s t) u → ∃ t' ≥ t, ∀ t'' ≥ t',
    ∀ v ∈ RobQueue.insts k.sc.sp.L (s t'').sc.sp.rob, v.id = u → Rob.complete v = true
  loads : ∀ t, ∀ u ∈ robIds k.sc.sp (s t).sc.sp, ((s t).sc.inst u).dec.type = .amo →
    (∃ q m, Sched.part (s t).sc u q = some m ∧ m.inst.destEn = true ∧ u ∈ (s t).sc.out q) →
    ∃ t' ≥ t, u ∈ robIds k.sc.sp (s t').sc.sp → (s t').sc.ann u = true
  stores : ∀ t, ∃ t' ≥ t, (s t').sc.sp.idu.latch.mispred = false ∧
    ∀ v, (RobQueue.insts k.sc.sp.L (s t').sc.sp.rob).head? = some v → Rob.isFence v = true → (c t').hw.storePending = false
  room : ∀ t, ∃ t' ≥ t, robIds k.sc.sp (s t').sc.sp = [] → Room (c t')

end Verif.Alive

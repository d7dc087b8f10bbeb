import Verif.Model.Device
/-
What the devices are supposed to show after any history of stores and cycles.
-/
namespace Verif.Device.Spec
open Verif.Device
open Verif.RefMem (wordOf uartBase uartIer plicClaim timerLow timerHigh timerCmpLow timerCmpHigh)

/-- The data of the last store to `p` (0 if there is none). -/
def last (l : List Ev) (p : BitVec 32) : BitVec 32 :=
  l.foldl (fun v e => match e with
    | .store _ q d _ => if q = p then d else v
    | _ => v) 0#32

/-- Setting a half of the clock: from then on it runs on from there. -/
def tell (c : BitVec 64 → BitVec 64) : Ev → BitVec 64 → BitVec 64
  | .store n q d _ => fun now =>
      if q = timerLow then ((c n).extractLsb' 32 32 ++ d : BitVec 64) + (now - n)
      else if q = timerHigh then (d ++ (c n).extractLsb' 0 32 : BitVec 64) + (now - n)
      else c now
  | _ => c

/-- The clock after the history `l`, as a function of the simulation time. -/
def clock (l : List Ev) : BitVec 64 → BitVec 64 := l.foldl tell (fun now => now)

/-- The time at which the timer interrupt is due. -/
def alarm (l : List Ev) : BitVec 64 := last l timerCmpHigh ++ last l timerCmpLow

/-- The characters sent to the UART. -/
def printed (l : List Ev) : List (BitVec 8) :=
  l.filterMap fun e => match e with
    | .store _ q d _ => if q = uartBase then some (d.setWidth 8) else none
    | _ => none

/-- The `len` bytes from `a` are RAM. -/
def InRam (a len : BitVec 32) : Prop := len ≠ 0#32 ∧ 0x80000000 ≤ a.toNat ∧ a.toNat + len.toNat ≤ 0xC0000000

instance (a len : BitVec 32) : Decidable (InRam a len) := by unfold InRam; infer_instance

/-- An interrupt is pending: it was raised and has not been completed since. -/
def Pending (raise : List Ev → Ev → Prop) (done : Ev → Prop) (l : List Ev) : Prop :=
  ∃ pre e post, l = pre ++ e :: post ∧ raise pre e ∧ ∀ x ∈ post, ¬ done x

/-- A store that completes the interrupt `id` at the interrupt controller. -/
def Completes (id : BitVec 8) (e : Ev) : Prop := ∃ n d f3, e = .store n plicClaim d f3 ∧ d.setWidth 8 = id

/-- The UART interrupt is raised by enabling it. -/
def UartRaise (_ : List Ev) (e : Ev) : Prop := ∃ n d f3, e = .store n uartIer d f3 ∧ d.setWidth 8 = 7#8

/-- The DMA interrupt is raised by a transfer started with interrupts enabled. -/
def DmaRaise (pre : List Ev) (e : Ev) : Prop := ∃ n d f3, e = .store n dmaCtrlAddr d f3 ∧ d.getLsbD 0 = true ∧
  d.getLsbD 1 = true ∧ InRam (last pre dmaSrcAddr) (last pre dmaLenAddr) ∧ InRam (last pre dmaDstAddr) (last pre dmaLenAddr)

def UartPending : List Ev → Prop := Pending UartRaise (Completes 10#8)
def DmaPending : List Ev → Prop := Pending DmaRaise (Completes 11#8)

end Verif.Device.Spec

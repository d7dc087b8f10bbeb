import Verif.Model.MmioPort
/-
How a device access has to go, cycle by cycle, said without the registers of the port: `Log` reads a run from left to right
and keeps what is owed.  A run that stops in the middle of an access is fine (`nil`).
-/
namespace Verif.MmioSpec
open Verif.Mmio Verif.Device

/-- A flush removes loads, never the store of an access that has started. -/
def Alive (c : Cyc) (a : Acc) : Prop := c.kill = false ∨ a.load = false

/-- What a modelled device says to the access in this cycle; a store gets 0. -/
def answer (c : Cyc) (a : Acc) : BitVec 32 := if a.load then c.dev a.addr a.f3 else 0#32

/-- Bytes accessed, by the low two bits of func3. -/
def bytes (f3 : BitVec 3) : Nat := match f3.toNat % 4 with | 0 => 1 | 1 => 2 | _ => 4

/-- The write that a store has to put on the AXI port: as many low bytes as it stores, at its address. -/
def posted (a : Acc) : Req :=
  .write a.addr (bytes a.f3) (BitVec.ofNat 32 (a.wdata.toNat % 2 ^ (8 * bytes a.f3))) (BitVec.ofNat 64 (2 ^ bytes a.f3 - 1))

/-- What is owed. -/
inductive Stage where
  /-- nothing -/
  | free
  /-- completion of `a` with `v`, `n` cycles later -/
  | due (n : Nat) (a : Acc) (v : BitVec 32)
  /-- the write of the store `a`, not yet taken by the interconnect -/
  | asking (a : Acc)
  /-- the interconnect has the write of `a` and has not answered -/
  | waiting (a : Acc)

inductive Log : Stage → List Obs → Prop
  | nil (g) : Log g []
  /-- Nothing starts: nothing completes and nothing is requested. -/
  | idle {c rest} : c.start = none → Log .free rest → Log .free (⟨c, none, none⟩ :: rest)
  /-- An access to a modelled device starts: it completes two cycles later with what the device says now. -/
  | begun {c a rest} : c.start = some a → modeled a.addr = true → Alive c a → Log (.due 1 a (answer c a)) rest →
      Log .free (⟨c, none, none⟩ :: rest)
  | dropped {c a rest} : c.start = some a → ¬ Alive c a → Log .free rest → Log .free (⟨c, none, none⟩ :: rest)
  /-- A store to any other device starts. -/
  | posts {c a rest} : c.start = some a → modeled a.addr = false → a.load = false → Log (.asking a) rest →
      Log .free (⟨c, none, none⟩ :: rest)
  | soon {c n a v rest} : c.start = none → Alive c a → Log (.due n a v) rest → Log (.due (n + 1) a v) (⟨c, none, none⟩ :: rest)
  /-- A flushed load never completes. -/
  | flushed {c n a v rest} : c.start = none → ¬ Alive c a → Log .free rest → Log (.due (n + 1) a v) (⟨c, none, none⟩ :: rest)
  | served {c a v rest} : c.start = none → Log .free rest → Log (.due 0 a v) (⟨c, some (a, v), none⟩ :: rest)
  /-- The write is shown until it is taken, and never again after that. -/
  | asks {c a rest} : c.start = none → c.wAcc = false → Log (.asking a) rest → Log (.asking a) (⟨c, none, some (posted a)⟩ :: rest)
  | asked {c a rest} : c.start = none → c.wAcc = true → Log (.waiting a) rest → Log (.asking a) (⟨c, none, some (posted a)⟩ :: rest)
  | waits {c a rest} : c.start = none → c.wResp = false → Log (.waiting a) rest → Log (.waiting a) (⟨c, none, none⟩ :: rest)
  | answered {c a rest} : c.start = none → c.wResp = true → Log (.due 1 a 0#32) rest → Log (.waiting a) (⟨c, none, none⟩ :: rest)

/-- When accesses start: not while one is under way and not in the cycle in which one completes; loads only from modelled
devices. -/
def Orderly : Sys → List Cyc → Prop
  | _, [] => True
  | s, c :: cs => (∀ a, c.start = some a → s.unc = none ∧ (a.load = true → modeled a.addr = true)) ∧ Orderly (step s c) cs

end Verif.MmioSpec

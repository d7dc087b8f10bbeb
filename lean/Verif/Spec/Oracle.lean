import Verif.Model.Oracle
import Verif.Spec.HandOff
/-
What a user of the oracle wants: the core is offered exactly the instructions a reference machine executes from the last redirect
on, with predictions that are always right, and nothing behind an instruction whose outcome the oracle leaves to the core.
-/
namespace Verif.Oracle
open Verif.HandOff
open Verif.Front (W32 Out)

variable {W : Nat}

/-- What is expected of the machine: reading back what was written; a page fault of the fetch is an exception; a device
access is no jump. -/
structure Machine.Sane (M : Machine) : Prop where
  get_set : ∀ a m, M.get (M.set a m) = a
  fault : ∀ now m m', M.step now m = some m' → (M.info m').pf = true → (M.info m').exc = true
  io : ∀ now m m', M.step now m = some m' → (M.info m').io = true → ((M.info m').br && (M.info m').taken) = false

/-- The step from `m` to `m'` says that it jumps, or goes to the next instruction. -/
def Goes (M : Machine) (m m' : M.S) : Prop := ((M.info m').br && (M.info m').taken) = true ∨ M.pc m' = M.pc m + 4#32

/-- `l` is what the machine executes from `m` to `m'`: each instruction at the address the machine is at, the word it executes
there, the fault it sees, and a predicted successor that is where the machine goes; and an instruction that traps or is a CSR
instruction is the last. -/
inductive Follows (M : Machine) : M.S → List Insn → M.S → Prop
  | nil (m) : Follows M m [] m
  | cons {m m1 m' now i r} : M.step now m = some m1 → i.pc = M.pc m → i.word = (M.info m1).inst → i.pf = (M.info m1).pf →
      ((M.info m1).halts = false → Goes M m m1 → i.pn = M.pc m1) → ((M.info m1).halts = true → r = []) → Follows M m1 r m' →
      Follows M m (i :: r) m'

/-- The hand-over with the oracle behind it; `start`: the machine at the last redirect, or at the beginning. -/
structure Sys (M : Machine) (W : Nat) where
  o : OState W
  s : St M
  start : M.S

/-- One cycle.  `i`: what the oracle reads besides the redirect. -/
def Sys.cycle (M : Machine) (MI N : Nat) (t : Sys M W) (i : In) (c : Back) : Option (Sys M W × Option (Out W Nat)) := do
  let i := { i with refetch := t.o.bo.redirect, addr := t.o.bo.pc }
  let (s, out) ← if asks t.o.bo t.o.p then call M W false i t.s else some (t.s, none)
  let o ← ocycle MI N t.o out c
  return (⟨o, s, if t.o.bo.redirect then restart M i t.s.m else t.start⟩, out)

/-- The executions, with all that has been handed over since the last redirect. -/
inductive Sys.Reach (M : Machine) (MI N : Nat) : List Insn → Sys M W → Prop
  | init (m : M.S) : Sys.Reach M MI N [] ⟨{ q := ⟨PreIdu.init, [], []⟩ }, ⟨m, false⟩, m⟩
  | step {del t t' out} (i : In) (c : Back) : Sys.Reach M MI N del t → t.cycle M MI N i c = some (t', out) →
      FetchWindow.Valid t.o.q (window (takeOracle t.o.bo t.o.p out).2 c) →
      Sys.Reach M MI N (odeliver t.o out del) t'

end Verif.Oracle

/-
What an instruction should see when it reads a register.  `Sys` closes the register file with its
environment and keeps, independently of it, the value last delivered for each register.  `Core`
puts the execution ports of `Verif.Spec.ExuQueue` in front of it.
-/
import Verif.Model.Prf
import Verif.Spec.ExuQueue
namespace Verif.Prf.Spec
open Verif.Exu Verif.Exu.Spec

/-- `o` is going to write register `p`. -/
def Writes {n : Nat} (p : Nat) (o : Op n) : Prop := o.destEn = true ∧ o.dest = p

instance {n : Nat} (p : Nat) (o : Op n) : Decidable (Writes p o) := by unfold Writes; infer_instance

/-- The value of `p` after a cycle's deliveries: that of the last one which was not cancelled. -/
def deliver {n : Nat} (c : Ctl n) (p : Nat) (v : BitVec 32) : List (Option (Op n)) → BitVec 32
  | [] => v
  | some o :: rest => deliver c p (if Writes p o ∧ ¬ cancelled c o then o.result else v) rest
  | none :: rest => deliver c p v rest

/-- The register file and the value last delivered for each register. -/
structure Sys (n : Nat) where
  prf : State n
  val : Nat → BitVec 32

def Sys.step {n : Nat} (c : Ctl n) (entry : List (Option (Op n))) (s : Sys n) : Sys n :=
  ⟨Prf.step c entry s.prf, fun p => deliver c p (s.val p) entry⟩

/-- Every state reachable under any broadcasts and any deliveries. -/
inductive Reach {n : Nat} : Sys n → Prop
  | init (width : Nat) : Reach ⟨Prf.init n width, fun _ => 0#32⟩
  | step (c : Ctl n) (entry : List (Option (Op n))) (s : Sys n) : Reach s → Reach (s.step c entry)

/-! ### With the execution ports -/

/-- Execution ports (each with the accounts of its units) and register file. -/
structure Core (n : Nat) where
  ports : List (List (Exu.Spec.Unit n))
  reg : Sys n

/-- What happens in a cycle: broadcasts, operation issued to each port, what the load/store
unit writes back, the CSR value read. -/
structure Input (n : Nat) where
  c : Ctl n
  inc : Nat → Option (Op n)
  lsu : List (Option (Op n))
  csr : Option (BitVec 32)

/-- The result unit `i` of port `k` broadcasts. -/
def Core.offer {n : Nat} (t : Nat) (s : Core n) (x : Input n) (k i : Nat) : Option (Op n) :=
  ((s.ports[k]?).bind (fun us => us[i]?)).bind (fun u => offerOf x.c t u.cell)

/-- All results broadcast in a cycle, port by port (the code numbers the units by kind; the
order matters only when two units broadcast for the same register). -/
def Core.bypass {n : Nat} (t : Nat) (s : Core n) (x : Input n) : List (Option (Op n)) :=
  s.ports.flatten.map (fun u => offerOf x.c t u.cell)

/-- The completion taken from port `k`. -/
def winner {n : Nat} (t : Nat) (x : Input n) (us : List (Exu.Spec.Unit n)) : Option (Op n) :=
  portWinner x.c t (us.map (·.cell))

/-- What is handed to the register file: first the arithmetic ports (`alu` of them, which come first),
then the load/store unit's write-backs (Exu.cpp:519-556). -/
def Core.entry {n : Nat} (opCsr alu t : Nat) (s : Core n) (x : Input n) : List (Option (Op n)) :=
  (s.ports.take alu).map (fun us => aluEntry opCsr x.csr (winner t x us)) ++ x.lsu

def Core.step {n : Nat} (opCsr alu t : Nat) (s : Core n) (x : Input n) : Core n :=
  ⟨s.ports.mapIdx (fun k us => portStep x.c t (x.inc k) us), s.reg.step x.c (s.entry opCsr alu t x)⟩

/-- The issue rules hold at every port. -/
def Core.Valid {n : Nat} (t : Nat) (s : Core n) (x : Input n) : Prop :=
  ∀ k us, s.ports[k]? = some us → Exu.Spec.Valid x.c t (x.inc k) us

inductive Core.Reach {n : Nat} (opCsr alu : Nat) : Nat → Core n → Prop
  | init (t width : Nat) (xss : List (List (Cell n))) : (∀ xs ∈ xss, PortOk xs) →
      Core.Reach opCsr alu t ⟨xss.map (·.map (fun x => ⟨x, [], Log.empty⟩)),
        ⟨Prf.init n width, fun _ => 0#32⟩⟩
  | step (t : Nat) (s : Core n) (x : Input n) : Core.Reach opCsr alu t s → s.Valid t x →
      Core.Reach opCsr alu (t + 1) (s.step opCsr alu t x)

/-- Nobody except possibly unit `own` broadcasts, completes or writes back for register `p`: the
register has one producer at a time (rename: C12, C13). -/
def Core.Quiet {n : Nat} (p : Nat) (own : Option (Nat × Nat)) (t : Nat) (s : Core n) (x : Input n) : Prop :=
  (∀ k i o, s.offer t x k i = some o → Writes p o → own = some (k, i)) ∧
  ∀ o, some o ∈ x.lsu → ¬ Writes p o

/-- `Available p v t s x st`: in cycle `t` (state `s`, inputs `x`) the result `v` of the current producer of
`p` has been broadcast at least once.  `st = some (k, i, o)`: the producer `o` is still in unit `i` of
arithmetic port `k`; `st = none`: it has left. -/
inductive Core.Available {n : Nat} (opCsr alu p : Nat) (v : BitVec 32) :
    Nat → Core n → Input n → Option (Nat × Nat × Op n) → Prop
  | first (t : Nat) (s : Core n) (x : Input n) (k i : Nat) (o : Op n) :
      Core.Reach opCsr alu t s → s.Valid t x → k < alu → s.offer t x k i = some o → Writes p o →
      o.result = v → o.op ≠ opCsr → s.Quiet p (some (k, i)) t x →
      Available opCsr alu p v t s x (some (k, i, o))
  /-- not taken by its port, not cancelled in the next cycle: still there -/
  | keep (t : Nat) (s : Core n) (x x' : Input n) (k i : Nat) (o : Op n) :
      Available opCsr alu p v t s x (some (k, i, o)) →
      (∃ j, j < i ∧ (s.offer t x k j).isSome) → (s.step opCsr alu t x).Valid (t + 1) x' →
      ¬ cancelled x'.c o → (s.step opCsr alu t x).Quiet p (some (k, i)) (t + 1) x' →
      Available opCsr alu p v (t + 1) (s.step opCsr alu t x) x' (some (k, i, resolve x'.c o))
  /-- taken by its port -/
  | take (t : Nat) (s : Core n) (x x' : Input n) (k i : Nat) (o : Op n) :
      Available opCsr alu p v t s x (some (k, i, o)) →
      (∀ j, j < i → s.offer t x k j = none) → (s.step opCsr alu t x).Valid (t + 1) x' →
      (s.step opCsr alu t x).Quiet p none (t + 1) x' →
      Available opCsr alu p v (t + 1) (s.step opCsr alu t x) x' none
  | rest (t : Nat) (s : Core n) (x x' : Input n) :
      Available opCsr alu p v t s x none → (s.step opCsr alu t x).Valid (t + 1) x' →
      (s.step opCsr alu t x).Quiet p none (t + 1) x' →
      Available opCsr alu p v (t + 1) (s.step opCsr alu t x) x' none

end Verif.Prf.Spec

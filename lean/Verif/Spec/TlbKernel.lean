import Verif.Model.TlbPacked

/-
Two TLBs side by side: `Model/Tlb`, which states the rules of translation on values, and `Model/TlbPacked`, which runs
every cycle through arrays of bits.  Both are fed the same cycles; an `Out` is everything a cycle shows to the rest of the
processor.
-/
namespace Verif.TlbKernel
open Verif.Tlb (Ctx Result Ask)

/-- What a cycle shows: the answer of every port, the calls to the walker's port, and a failed assertion. -/
structure Out where
  answers : List (Option Result)
  calls : Ptw.In
  bad : Bool

/-- The requests of the ports as the rules see them: the first `ldu` ports of a data TLB load, the others store; an
instruction TLB fetches. -/
def asks (dtlb : Bool) (ldu : Nat) : Nat → List (Bool × BitVec 32) → List (Option Ask)
  | _, [] => []
  | k, p :: ps => (if p.1 then some ⟨p.2, if dtlb then (if k < ldu then 1 else 2) else 0⟩ else none) :: asks dtlb ldu (k + 1) ps

/-- A cycle of the data TLB in the words of the rules. -/
def KOp.plain (ldu : Nat) : KOp → Tlb.DOp
  | .fence => .fence
  | .cancel => .cancel
  | .translate c ps => .translate c (asks true ldu 0 ps)

/-- A cycle: what the walker's port shows, what an idle port's response field happens to hold, and what the TLB is told. -/
structure Cyc (α : Type) where
  view : Ptw.View
  junk : KResp := {}
  op : α

/-- The data TLB by the rules. -/
def plainD (cap ldu : Nat) : Tlb.State → List (Cyc KOp) → Tlb.State × List Out
  | s, [] => (s, [])
  | s, x :: xs =>
    let r := Tlb.dtlbCycle cap (s.start x.view) (x.op.plain ldu)
    let t := plainD cap ldu (r.1.seq cap) xs
    (t.1, ⟨r.2, r.1.calls, r.1.bad⟩ :: t.2)

/-- The data TLB through the arrays; `none`: it read past the end of one. -/
def packedD (cap ldu n : Nat) : KState → List (Cyc KOp) → Option (KState × List Out)
  | s, [] => some (s, [])
  | s, x :: xs => do
    let r ← kdtlbCycle cap ldu n (s.start (KView.of x.junk x.view)) x.op
    let t ← packedD cap ldu n r.1.seq xs
    return (t.1, ⟨r.2, r.1.calls, r.1.bad⟩ :: t.2)

/-- The instruction TLB by the rules. -/
def plainI (cap : Nat) : Tlb.State → List (Cyc Tlb.IOp) → Tlb.State × List Out
  | s, [] => (s, [])
  | s, x :: xs =>
    let r := Tlb.itlbCycle cap (s.start x.view) x.op
    let t := plainI cap (r.1.seq cap) xs
    (t.1, ⟨r.2, r.1.calls, r.1.bad⟩ :: t.2)

/-- The instruction TLB through the arrays. -/
def packedI (cap ldu : Nat) : KState → List (Cyc Tlb.IOp) → Option (KState × List Out)
  | s, [] => some (s, [])
  | s, x :: xs => do
    let r ← kitlbCycle cap ldu (s.start (KView.of x.junk x.view)) x.op
    let t ← packedI cap ldu r.1.seq xs
    return (t.1, ⟨r.2, r.1.calls, r.1.bad⟩ :: t.2)

end Verif.TlbKernel

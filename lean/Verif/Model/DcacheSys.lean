import Verif.Model.Dcache

/-
The data cache of Verif/Model/Dcache.lean together with the memory behind it.

The interconnect is an interface: a read request presented by the cache may be taken between two cycles, its
line is read from memory at any later moment, and the response may be delivered in any later cycle, in any
order; likewise a write request is taken, carried out and acknowledged.  The cache is told in the cycle after
the hand-over that a request was taken (`req_accepted`).  At most one read request is taken per cycle, and
only the cache writes the memory.
-/
namespace Verif.Dcache

/-- An outstanding read: the line once it has been read. -/
structure Rd where
  addr : BitVec 32
  data : Option Line := none
  acked : Bool := false

/-- An outstanding write. -/
structure Wr where
  addr : BitVec 32
  data : Line
  done : Bool := false
  acked : Bool := false

/-- The cache, the memory by line address, and the interconnect. -/
structure Sys where
  d : State
  mem : BitVec 32 → Line
  rd : Nat → Option Rd
  wr : Option Wr

def Sys.init (mem : BitVec 32 → Line) : Sys := { d := {}, mem := mem, rd := fun _ => none, wr := none }

inductive Ev
  /-- the read request is taken -/
  | rdTake
  /-- the line of an outstanding read is read -/
  | rdRead (i : Nat)
  /-- the write request is taken -/
  | wrTake
  /-- the write is carried out -/
  | wrWrite
  /-- one cycle of the cache; `resp`: read response delivered, `ack`: write response delivered -/
  | tick (slow : Bool) (loads : List Ld) (stores : List St) (resp : Option Nat) (ack : Bool)

/-- Inputs of a cycle. -/
def Sys.input (s : Sys) (slow : Bool) (loads : List Ld) (stores : List St) (resp : Option Nat) (ack : Bool) : Input :=
  { wbAccepted := match s.wr with | some w => !w.acked | none => false
    wbResp := ack
    rdAccepted := (List.range mshrN).find? fun i => match s.rd i with | some r => !r.acked | none => false
    rdResp := resp.bind fun i => (s.rd i).bind fun r => r.data.map fun l => (i, l)
    slow := slow, loads := loads, stores := stores }

/-- The interconnect after a cycle. -/
def Sys.rdAfter (s : Sys) (resp : Option Nat) (taken : Bool) : Nat → Option Rd := fun i =>
  if taken = true ∧ resp = some i then none else (s.rd i).map fun r => { r with acked := true }

def Sys.wrAfter (s : Sys) (ack : Bool) : Option Wr := if ack then none else s.wr.map fun w => { w with acked := true }

/-- One event, with what the processor sees.  `none`: an assertion fails. -/
def Sys.step (s : Sys) : Ev → Option (Sys × Output)
  | .rdTake =>
    match s.d.m.axiReq with
    | some (i, a) => some ({ s with rd := upd s.rd i (some { addr := a }) }, {})
    | none => some (s, {})
  | .rdRead i => some ({ s with rd := upd s.rd i ((s.rd i).map fun r => { r with data := some (s.mem r.addr) }) }, {})
  | .wrTake =>
    match s.d.wb.axiReq with
    | some (a, l) => some ({ s with wr := some { addr := a, data := l } }, {})
    | none => some (s, {})
  | .wrWrite =>
    match s.wr with
    | some w => some ({ s with mem := fun a => if a = w.addr then w.data else s.mem a, wr := some { w with done := true } }, {})
    | none => some (s, {})
  | .tick slow loads stores resp ack =>
    (tick s.d (s.input slow loads stores resp ack)).map fun (d, o) =>
      ({ s with d := d, rd := s.rdAfter resp o.rdTaken, wr := s.wrAfter ack }, o)

/-- What the interconnect guarantees. -/
def Sys.Valid (s : Sys) : Ev → Prop
  | .rdTake => s.d.m.axiReq ≠ none ∧ ∀ i, i < mshrN → ∀ r, s.rd i = some r → r.acked = true
  | .rdRead i => ∃ r, s.rd i = some r ∧ r.data = none
  | .wrTake => s.d.wb.axiReq ≠ none ∧ s.wr = none
  | .wrWrite => ∃ w, s.wr = some w ∧ w.done = false
  | .tick _ _ _ resp ack =>
    (∀ i, resp = some i → ∃ r l, s.rd i = some r ∧ r.data = some l) ∧ (ack = true → ∃ w, s.wr = some w ∧ w.done = true)

/-- Reachable states. -/
inductive Sys.Reach (mem : BitVec 32 → Line) : Sys → Prop
  | init : Reach mem (Sys.init mem)
  | step {s s' : Sys} {o : Output} (e : Ev) : Reach mem s → s.Valid e → s.step e = some (s', o) → Reach mem s'

end Verif.Dcache

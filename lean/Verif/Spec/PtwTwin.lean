import Verif.Model.PtwTwin

/-
How the bits at the edge of the packed walker are to be read, and what of them may differ from the walker's own
inputs and outputs (layout: PtwCompactCoreKernel.h:68-97; narrowing: MemPtwBlock.h:122-129).
-/
namespace Verif.PtwTwin

open Verif.Ptw (Client)
open Verif.PtwKernel
open Verif.PtwBlock (Two Req Resp MemIn WalkIn PortIn Owner Event Feedback In MemOut WalkOut Out State)

/-- Sixty-four bits as a number. -/
def word64 (b : Bits) (l : Nat) : BitVec 64 := readUint b (l + 32) 32 ++ readUint b l 32

/-- Event slot `i` of the external inputs. -/
def extEvent (b : Bits) (i : Nat) : Event :=
  { valid := b (tEventBase i + 0)
    owner := ownerOf (readUint b (tEventBase i + 1) 2)
    data := readUint b (tEventBase i + 3) 32
    replay := (readUint b (tEventBase i + 35) 2).setWidth 8
    id := word64 b (tEventBase i + 69) }

/-- A memory port of the external inputs. -/
def extMem (b : Bits) (c : Client) : MemIn :=
  { valid := b (tMemBase c + 0), addr := readUint b (tMemBase c + 1) 32, consumed := b (tMemBase c + 33) }

/-- A walk port of the external inputs. -/
def extWalk (b : Bits) (c : Client) : WalkIn :=
  { valid := b (tWalkBase c + 0)
    req := { vaddr := readUint b (tWalkBase c + 1) 32, satp := readUint b (tWalkBase c + 33) 32 }
    consumed := b (tWalkBase c + 97) }

/-- The external inputs of a cycle with `n` event slots. -/
def extIn (n : Nat) (b : Bits) : In :=
  { port := { mem := ⟨extMem b .dtlb, extMem b .itlb⟩, walk := ⟨extWalk b .dtlb, extWalk b .itlb⟩ }
    fb :=
      { grantValid := b (tGrantBase + 0)
        grantOwner := ownerOf (readUint b (tGrantBase + 1) 2)
        grantId := word64 b (tGrantBase + 3)
        events := (List.range (min n (readUint b tCountBase 8).toNat)).map (extEvent b)
        wakeD := b (tWakeBase n + 0)
        wakeI := b (tWakeBase n + 1)
        wakeW := b (tWakeBase n + 2) }
    flush := ⟨b (tWalkBase .dtlb + 98), b (tWalkBase .itlb + 98)⟩ }

/-- A memory port of the external outputs. -/
def outMem (b : Bits) (c : Client) : MemOut :=
  { ready := b (memOutBase c + 0), respValid := b (memOutBase c + 1), respData := readUint b (memOutBase c + 2) 32
    pending := b (arbOutBase + 33 + idx c), addr := readUint b (arbOutBase + 35 + 32 * idx c) 32 }

/-- A walk port of the external outputs. -/
def outWalk (b : Bits) (c : Client) : WalkOut :=
  { ready := b (walkOutBase c + 0), respValid := b (walkOutBase c + 1)
    resp := { fault := b (walkOutBase c + 2), vaddr := readUint b (walkOutBase c + 3) 32
              leaf := readUint b (walkOutBase c + 35) 32
              level := (readUint b (walkOutBase c + 67) 8).setWidth 8 } }

/-- The external outputs. -/
def outOf (b : Bits) : Out :=
  { mem := ⟨outMem b .dtlb, outMem b .itlb⟩
    walk := ⟨outWalk b .dtlb, outWalk b .itlb⟩
    issue := b (arbOutBase + 0)
    addr := readUint b (arbOutBase + 1) 32 }

/-- An answer that is not there says nothing. -/
def blankW (w : WalkOut) : WalkOut := { w with resp := if w.respValid then w.resp else {} }

/-- The outputs with the answers that are not there taken out. -/
def blank (o : Out) : Out := { o with walk := ⟨blankW o.walk.d, blankW o.walk.i⟩ }

/-- Word addresses, and page-table entries without the two bits for software. -/
def narrowM (m : MemOut) : MemOut :=
  { m with respData := m.respData &&& 0xFFFFFCFF#32, addr := m.addr &&& 0xFFFFFFFC#32 }

/-- Page addresses, and page-table entries without the two bits for software. -/
def narrowW (w : WalkOut) : WalkOut :=
  { w with resp := { w.resp with vaddr := w.resp.vaddr &&& 0xFFFFF000#32, leaf := w.resp.leaf &&& 0xFFFFFCFF#32 } }

/-- What the packed form keeps of the outputs. -/
def narrow (o : Out) : Out :=
  { o with mem := ⟨narrowM o.mem.d, narrowM o.mem.i⟩, walk := ⟨narrowW o.walk.d, narrowW o.walk.i⟩ }

/-! ### Side by side -/

/-- The walker after `t` cycles on the external inputs `ext`. -/
def blockAt (n : Nat) (ext : Nat → Bits) : Nat → State
  | 0 => {}
  | t + 1 => (blockAt n ext t).step (extIn n (ext t))

/-- The register of the circuit after `t` cycles on the same inputs, from all bits clear; `m`: the match bits, `junk`:
what the output arrays hold before. -/
def regAt (n : Nat) (ext : Nat → Bits) (m : Nat → Bool) (junk : Nat → Bits) : Nat → Bits
  | 0 => fun _ => false
  | t + 1 => twinStep n (regAt n ext m junk t) (ext t) (m t) (junk t)

/-- The outputs of the circuit and of the walker say the same after `t` cycles. -/
def Agree (n : Nat) (ext : Nat → Bits) (m : Nat → Bool) (junk : Nat → Bits) (t : Nat) : Prop :=
  ∀ e j, blank (outOf (twinOut n (regAt n ext m junk t) e j)) = narrow (blank (blockAt n ext t).out)

/-- The walker's read is granted in this cycle. -/
def walkGrant (f : Feedback) : Bool := f.grantValid && f.grantOwner == .walk

/-- The event carries the identifier of the read the walker is waiting for at the beginning of the cycle: the match
bit as MemPtwBlock.h:122-123 describes it. -/
def plainMatch (b : State) (e : Event) : Bool := b.idValid && e.id == b.id

/-- The match bit that has to be there: as described, but the other way round, and against the identifier just
granted, when the walker's read is granted in this cycle. -/
def rightMatch (b : State) (f : Feedback) (e : Event) : Bool :=
  if walkGrant f then e.id != f.grantId else plainMatch b e

/-- The walker's read is granted only if it asks for one. -/
def GrantDue (b : State) (i : In) : Prop := walkGrant i.fb = true → (b.begin_ i.port).out.issue = true

/-- At most one event. -/
def OneEvent (i : In) : Prop := (i.fb.events.filter (·.valid)).length ≤ 1

/-- The match bit is the one that has to be there. -/
def MatchRight (b : State) (i : In) (m : Bool) : Prop :=
  ∀ e ∈ i.fb.events, e.valid = true → e.owner = .walk → m = rightMatch b i.fb e

/-- The match bit is the one described. -/
def MatchPlain (b : State) (i : In) (m : Bool) : Prop :=
  ∀ e ∈ i.fb.events, e.valid = true → e.owner = .walk → m = plainMatch b e

/-- The read of a walk for the instruction side is not replayed. -/
def NoReplayI (b : State) (i : In) : Prop :=
  ∀ e ∈ i.fb.events, e.valid = true → e.owner = .walk → e.replay ≠ 0#8 →
    ((b.begin_ i.port).grant i.fb).isActiveReq e.id = true → (b.begin_ i.port).owner = .dtlb

/-- A cycle the packed form can follow. -/
structure Ok (b : State) (i : In) (m : Bool) : Prop where
  due : GrantDue b i
  one : OneEvent i
  told : MatchRight b i m
  mild : NoReplayI b i

end Verif.PtwTwin

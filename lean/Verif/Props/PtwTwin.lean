import Verif.Proofs.PtwSim

/-
C116: the packed page-table walker — the step function from bits to bits, its register of 308 bits and the wiring
around it — shows the same outputs as the walker of the simulator when both are fed the same inputs.
-/
namespace Verif.Props

open Verif.Ptw (Client Phase)
open Verif.PtwKernel
open Verif.PtwBlock (Owner Event In State Out)
open Verif.PtwTwin

/-! ### Concrete inputs -/

/-- Bits with the given values at the given places. -/
def twinBits (l : List (Nat × Nat)) : Bits := fun k => l.any fun x => decide (x.1 ≤ k) && x.2.testBit (k - x.1)

/-- Inputs cycle by cycle, from a list. -/
def twinExt (l : List (List (Nat × Nat))) : Nat → Bits := fun t => twinBits (l.getD t [])

/-- Match bits from a list. -/
def twinMatch (l : List Bool) : Nat → Bool := fun t => l.getD t false

/-- A walk request. -/
def twinWalk (c : Client) (vaddr satp : Nat) : List (Nat × Nat) :=
  [(tWalkBase c, 1), (tWalkBase c + 1, vaddr), (tWalkBase c + 33, satp)]
/-- A read request. -/
def twinRead (c : Client) (addr : Nat) : List (Nat × Nat) := [(tMemBase c, 1), (tMemBase c + 1, addr)]
/-- A grant. -/
def twinGrant (owner id : Nat) : List (Nat × Nat) := [(tGrantBase, 1), (tGrantBase + 1, owner), (tGrantBase + 3, id)]
/-- An event in a slot. -/
def twinEvent (slot owner data replay id : Nat) : List (Nat × Nat) :=
  [(tEventBase slot, 1), (tEventBase slot + 1, owner), (tEventBase slot + 3, data), (tEventBase slot + 35, replay),
   (tEventBase slot + 69, id)]
/-- The number of event slots in use. -/
def twinCount (k : Nat) : List (Nat × Nat) := [(tCountBase, k)]
/-- A flush. -/
def twinFlush (c : Client) : List (Nat × Nat) := [(tWalkBase c + 98, 1)]

/-- The state in the register after `t` cycles, without going through the bits. -/
def twinState (n : Nat) (ext : Nat → Bits) (m : Nat → Bool) : Nat → KState
  | 0 => canon {}
  | t + 1 =>
    let k := twinState n ext m t
    canon (k.run (pPort (extIn n (ext t)).port) (pFeedback (extIn n (ext t)).fb (m t) k.id) (extIn n (ext t)).flush)

theorem twinState_eq (n : Nat) (ext : Nat → Bits) (m : Nat → Bool) (junk : Nat → Bits) (t : Nat) :
    decodeState (regAt n ext m junk t) = twinState n ext m t := by
  induction t with
  | zero => exact clear_state
  | succ t ih =>
    show decodeState (twinStep _ _ _ _ _) = _
    rw [twinStep_state, ih]
    rfl

theorem twinOut_eq (n : Nat) (ext : Nat → Bits) (m : Nat → Bool) (junk : Nat → Bits) (t : Nat) (e j : Bits) :
    outOf (twinOut n (regAt n ext m junk t) e j) = kOut (twinState n ext m t) := by
  rw [outOf_twin, twinState_eq]

instance (b : State) (i : In) : Decidable (GrantDue b i) := by unfold GrantDue; infer_instance
instance (i : In) : Decidable (OneEvent i) := by unfold OneEvent; infer_instance
instance (b : State) (i : In) (m : Bool) : Decidable (MatchRight b i m) := by unfold MatchRight; infer_instance
instance (b : State) (i : In) (m : Bool) : Decidable (MatchPlain b i m) := by unfold MatchPlain; infer_instance
instance (b : State) (i : In) : Decidable (NoReplayI b i) := by unfold NoReplayI; infer_instance

/-! ### The claim -/

/-- **C116.**  Whatever the inputs and whatever the output arrays held before: as long as every cycle so far was one
the packed form can follow (`Ok`), the circuit and the walker show the same — the same ports ready, the same answers
there, the same read asked for at the same address — up to the low bits of addresses and the two software bits of
page-table entries, which the packed form does not carry.

Missing: cycles outside `Ok`.  `C116_plain_match_fails`, `C116_replay_fails` and `C116_two_events_fails` show that the
two then come apart. -/
theorem C116_twin_partial (n : Nat) (ext : Nat → Bits) (m : Nat → Bool) (junk : Nat → Bits) (t : Nat)
    (h : ∀ s, s < t → Ok (blockAt n ext s) (extIn n (ext s)) (m s)) : Agree n ext m junk t :=
  fun _ _ => out_eq (sim_all h) _ _ _

/-- **C116**, within a cycle: stepping the circuit on the ports alone, without feedback and flushes, shows what the
walker shows after `comb_begin`, which is what the memory system arbitrates on.

Missing: as above. -/
theorem C116_begin_partial (n : Nat) (ext : Nat → Bits) (m : Nat → Bool) (junk : Nat → Bits) (t : Nat)
    (h : ∀ s, s < t → Ok (blockAt n ext s) (extIn n (ext s)) (m s)) (p : Bits)
    (hg : (extIn n p).fb.grantValid = false) (he : ∀ e ∈ (extIn n p).fb.events, e.valid = false)
    (hw : (extIn n p).fb.wakeD = false ∧ (extIn n p).fb.wakeI = false ∧ (extIn n p).fb.wakeW = false)
    (hf : (extIn n p).flush = ⟨false, false⟩) (m' : Bool) (e j j' : Bits) :
    blank (outOf (twinOut n (twinStep n (regAt n ext m junk t) p m' j) e j')) =
      narrow (blank ((blockAt n ext t).begin_ (extIn n p).port).out) := by
  have hno : (extIn n p).fb.events.filter (·.valid) = [] := List.filter_eq_nil_iff.mpr fun a ha => by simp [he a ha]
  have hok : Ok (blockAt n ext t) (extIn n p) m' :=
    { due := fun hc => by unfold walkGrant at hc; rw [hg] at hc; cases hc
      one := by unfold OneEvent; rw [hno]; exact Nat.zero_le _
      told := fun e he' hv => by rw [he e he'] at hv; cases hv
      mild := fun e he' hv => by rw [he e he'] at hv; cases hv }
  rw [out_eq (sim_step (sim_all h) hok)]
  have hs : (blockAt n ext t).step (extIn n p) = (blockAt n ext t).begin_ (extIn n p).port := by
    unfold State.step State.finish State.grant
    rw [hg, hf]
    simp only [Bool.false_eq_true, if_false]
    rw [events_none hno]
    unfold State.wakeups State.seq
    rw [hw.1, hw.2.1, hw.2.2]
    rfl
  rw [hs]

/-- A run that meets the hypotheses: a two-level walk for the data side, thrown away while its second read is under way; a
walk for the instruction side, whose read is granted in the very cycle the answer to the first arrives; an uncached
read beside it; the walk ends in a superpage. -/
def twinRun : List (List (Nat × Nat)) :=
  [twinWalk .dtlb 0x00C03ABC 0x80012345 ++ twinGrant 3 7,
   twinCount 1 ++ twinEvent 0 3 0x20001001 0 7 ++ twinRead .itlb 0x1236,
   twinGrant 3 8,
   twinFlush .dtlb ++ twinGrant 2 9,
   twinCount 2 ++ twinEvent 1 3 0x200010CF 0 8 ++ twinWalk .itlb 0x40400123 0x80012345 ++ twinGrant 3 10,
   twinCount 1 ++ twinEvent 0 2 0x55555555 0 9,
   twinCount 1 ++ twinEvent 0 3 0x2FF0030B 0 10,
   []]

/-- Match bits for it. -/
def twinRunMatch : Nat → Bool := twinMatch [false, true, false, false, true, false, true, false]

example : ∀ s, s < 7 → Ok (blockAt 2 (twinExt twinRun) s) (extIn 2 (twinExt twinRun s)) (twinRunMatch s) := by
  have h : ∀ s, s < 7 → GrantDue (blockAt 2 (twinExt twinRun) s) (extIn 2 (twinExt twinRun s)) ∧
      OneEvent (extIn 2 (twinExt twinRun s)) ∧
      MatchRight (blockAt 2 (twinExt twinRun) s) (extIn 2 (twinExt twinRun s)) (twinRunMatch s) ∧
      NoReplayI (blockAt 2 (twinExt twinRun) s) (extIn 2 (twinExt twinRun s)) := by decide +kernel
  exact fun s hs => ⟨(h s hs).1, (h s hs).2.1, (h s hs).2.2.1, (h s hs).2.2.2⟩

example : (blockAt 2 (twinExt twinRun) 2).read = some 0x8000400C#32 ∧
    (blockAt 2 (twinExt twinRun) 7).walk.i.respValid = true ∧
    (blockAt 2 (twinExt twinRun) 7).walk.i.resp = { fault := false, vaddr := 0x40400123#32, leaf := 0x2FF0030B#32, level := 1#8 } ∧
    (kOut (twinState 2 (twinExt twinRun) twinRunMatch 7)).walk.i.resp =
      { fault := false, vaddr := 0x40400000#32, leaf := 0x2FF0000B#32, level := 1#8 } ∧
    (kOut (twinState 2 (twinExt twinRun) twinRunMatch 7)).mem.i.respData = 0x55555455#32 := by decide +kernel

/-- **C116**, identifiers: what the wrapper needs to work out the match bit reaches it: the identifier of a grant and
that of the first event there are passed on unchanged, whatever the register holds. -/
theorem C116_ids (n : Nat) (reg ext junk : Bits) :
    word64 (glued n reg ext junk) (cGrantBase + 3) = (extIn n ext).fb.grantId ∧
    ∀ e, (extIn n ext).fb.events.find? (·.valid) = some e → word64 (glued n reg ext junk) (cEventBase + 35) = e.id := by
  constructor
  · exact word64_congr fun i hi => by rw [Nat.add_assoc, glue_grant _ _ _ _ _ (by omega), ← Nat.add_assoc]
  · intro e he
    rw [extIn_first] at he
    cases h : selected n ext with
    | none => rw [h] at he; cases he
    | some s =>
      rw [h] at he
      cases he
      exact word64_congr fun i hi => glue_eventId _ _ _ _ h _ hi

example : (extIn 2 (twinExt twinRun 4)).fb.grantId = 10#64 ∧
    ((extIn 2 (twinExt twinRun 4)).fb.events.find? (·.valid)).map (·.id) = some 8#64 := by decide +kernel

/-! ### Where the two come apart -/

/-- **C116**, match bit: taken as described, one answer can be mistaken for another.  If the answer to a walk that was
thrown away arrives in the cycle in which the read of the next walk is granted, the circuit takes it for the answer to
the next walk and shows that walk as done; the walker drops it and goes on waiting. -/
theorem C116_plain_match_fails : ∃ n ext m t,
    (∀ s, s < t → GrantDue (blockAt n ext s) (extIn n (ext s)) ∧ OneEvent (extIn n (ext s)) ∧
      MatchPlain (blockAt n ext s) (extIn n (ext s)) (m s) ∧ NoReplayI (blockAt n ext s) (extIn n (ext s))) ∧
    ∀ junk e j, (outOf (twinOut n (regAt n ext m junk t) e j)).walk.d.respValid = true ∧
      (blockAt n ext t).out.walk.d.respValid = false ∧ (blockAt n ext t).out.walk.d.ready = false := by
  refine ⟨2, twinExt [twinWalk .dtlb 0x00C03000 0x80012345 ++ twinGrant 3 7, twinFlush .dtlb,
    twinWalk .dtlb 0x40400000 0x80012345 ++ twinGrant 3 8 ++ twinCount 1 ++ twinEvent 0 3 0x2FF0000B 0 7],
    twinMatch [], 3, by decide +kernel, fun junk e j => ?_⟩
  rw [twinOut_eq]
  decide +kernel

/-- **C116**, replay: when the read of a walk for the instruction side is replayed, the circuit forgets whose walk it
is and asks for the table entry of the data side's last address instead. -/
theorem C116_replay_fails : ∃ n ext m t,
    (∀ s, s < t → GrantDue (blockAt n ext s) (extIn n (ext s)) ∧ OneEvent (extIn n (ext s)) ∧
      MatchRight (blockAt n ext s) (extIn n (ext s)) (m s)) ∧
    ∀ junk e j, (blockAt n ext t).out.issue = true ∧ (outOf (twinOut n (regAt n ext m junk t) e j)).issue = true ∧
      (outOf (twinOut n (regAt n ext m junk t) e j)).addr ≠ (blockAt n ext t).out.addr := by
  refine ⟨2, twinExt [twinWalk .itlb 0x40400000 0x80012345 ++ twinGrant 3 7, twinCount 1 ++ twinEvent 0 3 0 2 7],
    twinMatch [false, true], 2, by decide +kernel, fun junk e j => ?_⟩
  rw [twinOut_eq]
  decide +kernel

/-- **C116**, two events: of two events in a cycle the circuit takes the first and loses the second; a read answered
that way is never answered there. -/
theorem C116_two_events_fails : ∃ n ext m t,
    (∀ s, s < t → GrantDue (blockAt n ext s) (extIn n (ext s)) ∧
      MatchRight (blockAt n ext s) (extIn n (ext s)) (m s) ∧ NoReplayI (blockAt n ext s) (extIn n (ext s))) ∧
    ∀ junk e j, (blockAt n ext t).out.mem.i.respValid = true ∧
      (outOf (twinOut n (regAt n ext m junk t) e j)).mem.i.respValid = false := by
  refine ⟨2, twinExt [twinRead .dtlb 0x1000 ++ twinRead .itlb 0x2000 ++ twinGrant 1 7, twinGrant 2 8,
    twinCount 2 ++ twinEvent 0 1 5 0 7 ++ twinEvent 1 2 6 0 8],
    twinMatch [], 3, by decide +kernel, fun junk e j => ?_⟩
  rw [twinOut_eq]
  decide +kernel

/-! ### Packing -/

/-- **C116**, one bit at a time: the function that works out a single bit of the step gives, for each bit of the
register, the bit the whole step gives, whatever the output array held before. -/
theorem C116_bitwise (pi po : Bits) (k : Nat) (hk : k < stateWidth) : eval pi po k = evalBit pi k := by
  unfold eval evalBit
  rw [encodeState_apply]
  rw [if_pos hk]

/-- **C116**, packing: unpacking the register and packing it again gives back every bit. -/
theorem C116_pack (r po : Bits) (k : Nat) (hk : k < stateWidth) : encodeState po (decodeState r) k = r k := by
  rw [encodeState_apply, if_pos hk]
  exact stateBit_decode r k hk

example : encodeState (fun _ => true) (decodeState (fun k => k % 3 == 0)) 300 = true ∧
    encodeState (fun _ => true) (decodeState (fun k => k % 3 == 0)) 301 = false := by
  constructor <;> rw [C116_pack _ _ _ (by decide)] <;> rfl

example : evalBit (wrap (fun _ => false) (twinBits [(cWalkInBase .dtlb, 1), (cWalkInBase .dtlb + 1, 0x12345)]) false) 0 = true ∧
    evalBit (wrap (fun _ => false) (twinBits [(cWalkInBase .dtlb, 1), (cWalkInBase .dtlb + 1, 0x12345)]) false) 1 = false := by
  decide +kernel

end Verif.Props

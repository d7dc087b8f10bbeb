import Verif.Proofs.PtwBits
import Verif.Spec.PtwTwin

/-
What the step of the packed walker sees of the external inputs, and what the external outputs show of its register.
-/
namespace Verif.PtwTwin

open Verif.Ptw (Client)
open Verif.PtwKernel
open Verif.PtwBlock (Two MemClient WalkClient Req Resp MemIn WalkIn PortIn Owner Event Feedback In MemOut WalkOut Out)

section
variable (n : Nat) (reg ext junk : Bits)

theorem glued_in (k : Nat) (hk : k < cInWidth) :
    glued n reg ext junk k = glueIn n (clearBits junk (cInWidth + outWidth)) (join n ext (visible reg junk)) k := by
  unfold glued topGlue
  rw [copyBits_apply, if_neg (by omega)]

theorem join_ext (out : Bits) (k : Nat) (hk : k < tInWidth n) : join n ext out k = ext k := by
  unfold join; rw [if_pos hk]

theorem tIn (n k : Nat) (h : k < 344) : k < tInWidth n := by unfold tInWidth; omega

theorem tEvt (n i k : Nat) (h : k < 133) (hi : i < n) : tEventBase i + k < tInWidth n := by
  unfold tInWidth tEventBase tCountBase tGrantBase
  have : (i + 1) * 133 ≤ n * 133 := Nat.mul_le_mul_right _ hi
  omega

theorem tWake (n k : Nat) (h : k < 3) : tWakeBase n + k < tInWidth n := by
  unfold tInWidth tWakeBase tCountBase tGrantBase
  omega

theorem selected_ext (out : Bits) : selected n (join n ext out) = selected n ext := by
  unfold selected
  rw [readUint_congr (a := join n ext out) (b := ext) (l := tCountBase) (m := tCountBase) (w := 8)
    (fun i hi => join_ext _ _ _ _ (tIn n _ (by unfold tCountBase tGrantBase; omega)))]
  generalize hl : List.range n = l
  have hm : ∀ i ∈ l, i < n := fun i hi => List.mem_range.mp (hl ▸ hi)
  clear hl
  induction l with
  | nil => rfl
  | cons x l ih =>
    rw [List.find?_cons, List.find?_cons, join_ext _ _ _ _ (tEvt n x 0 (by omega) (hm x (by simp))),
      ih fun i hi => hm i (by simp [hi])]

/-- A bit of the ports, of the grant or of the wake-ups: the event does not matter. -/
theorem glueIn_noEvent (b pi : Bits) (k : Nat) (hk : k < cEventBase ∨ cEventBase + 99 ≤ k) :
    glueIn n b pi k = copyBits (copyBits (glueClient (glueClient (clearBits b cInWidth) pi .dtlb) pi .itlb) cGrantBase pi
      tGrantBase (3 + 64)) cWakeBase pi (tWakeBase n) 3 k := by
  unfold glueIn
  cases selected n pi with
  | none => rfl
  | some i =>
    simp only [copyBits_apply, writeUint_apply, writeBit_apply]
    simp (disch := omega) only [if_neg]

end

/-- Work out one bit of the ports, the grant or the wake-ups. -/
local macro "glue_bit" : tactic => `(tactic| (
  rw [glued_in _ _ _ _ _ (by
      simp only [cMemInBase, cWalkInBase, cGrantBase, cEventBase, cWakeBase, cInWidth, idx]; omega),
    glueIn_noEvent _ _ _ _ (by
      simp only [cMemInBase, cWalkInBase, cEventBase, cGrantBase, cWakeBase, idx]; omega)]
  simp only [glueClient, copyBits_apply, writeUint_apply, writeBit_apply, cMemInBase, cWalkInBase, cGrantBase, cWakeBase,
    tMemBase, tWalkBase, tGrantBase, idx, Nat.zero_mul, Nat.one_mul, Nat.reduceMul, Nat.reduceAdd, Nat.zero_add, Nat.add_zero]
  simp (disch := omega) only [if_pos, if_neg, if_true, if_false]))

section
variable (n : Nat) (reg ext junk : Bits)

theorem glue_memValid (c : Client) : glued n reg ext junk (cMemInBase c + 0) = ext (tMemBase c + 0) := by
  cases c <;>
  · glue_bit
    exact join_ext _ _ _ _ (tIn _ _ (by omega))

theorem glue_memConsumed (c : Client) : glued n reg ext junk (cMemInBase c + 31) = ext (tMemBase c + 33) := by
  cases c <;>
  · glue_bit
    exact join_ext _ _ _ _ (tIn _ _ (by omega))

theorem glue_memAddr (c : Client) (i : Nat) (hi : i < 30) :
    glued n reg ext junk (cMemInBase c + 1 + i) = (readUint ext (tMemBase c + 1) 32).getLsbD (i + 2) := by
  cases c <;>
  · glue_bit
    rw [BitVec.getLsbD_ushiftRight, readUint_congr (a := join n ext _) (b := ext)
      (fun i hi => join_ext _ _ _ _ (tIn n _ (by omega)))]
    rw [show 2 + (_ + i - _) = i + 2 by omega]

theorem glue_walkValid (c : Client) : glued n reg ext junk (cWalkInBase c + 0) = ext (tWalkBase c + 0) := by
  cases c <;>
  · glue_bit
    exact join_ext _ _ _ _ (tIn _ _ (by omega))

theorem glue_walkConsumed (c : Client) : glued n reg ext junk (cWalkInBase c + 43) = ext (tWalkBase c + 97) := by
  cases c <;>
  · glue_bit
    exact join_ext _ _ _ _ (tIn _ _ (by omega))

theorem glue_walkFlush (c : Client) : glued n reg ext junk (cWalkInBase c + 44) = ext (tWalkBase c + 98) := by
  cases c <;>
  · glue_bit
    exact join_ext _ _ _ _ (tIn _ _ (by omega))

theorem glue_walkVaddr (c : Client) (i : Nat) (hi : i < 20) :
    glued n reg ext junk (cWalkInBase c + 1 + i) = (readUint ext (tWalkBase c + 1) 32).getLsbD (i + 12) := by
  cases c <;>
  · glue_bit
    rw [m20, BitVec.getLsbD_ushiftRight, readUint_congr (a := join n ext _) (b := ext)
      (fun i hi => join_ext _ _ _ _ (tIn n _ (by omega)))]
    simp only [Nat.add_sub_cancel_left]
    simp only [hi, decide_true, Bool.true_and]
    rw [Nat.add_comm 12 i]

theorem glue_walkSatp (c : Client) (i : Nat) (hi : i < 22) :
    glued n reg ext junk (cWalkInBase c + 21 + i) = (readUint ext (tWalkBase c + 33) 32).getLsbD i := by
  cases c <;>
  · glue_bit
    rw [m22, readUint_congr (a := join n ext _) (b := ext)
      (fun i hi => join_ext _ _ _ _ (tIn n _ (by omega)))]
    simp only [Nat.add_sub_cancel_left]
    simp only [hi, decide_true, Bool.true_and]

theorem glue_grant (i : Nat) (hi : i < 67) : glued n reg ext junk (cGrantBase + i) = ext (tGrantBase + i) := by
  glue_bit
  rw [Nat.add_sub_cancel_left]
  exact join_ext _ _ _ _ (tIn _ _ (by omega))

theorem glue_wake (i : Nat) (hi : i < 3) : glued n reg ext junk (cWakeBase + i) = ext (tWakeBase n + i) := by
  glue_bit
  rw [Nat.add_sub_cancel_left]
  exact join_ext _ _ _ _ (tWake _ _ hi)

/-! ### The event -/

/-- Without an event the event bits are clear. -/
theorem glue_noEvent (h : selected n ext = none) (i : Nat) (hi : i < 99) :
    glued n reg ext junk (cEventBase + i) = false := by
  rw [glued_in _ _ _ _ _ (by simp only [cEventBase, cGrantBase, cInWidth]; omega)]
  unfold glueIn
  rw [selected_ext, h]
  simp only [glueClient, copyBits_apply, writeUint_apply, writeBit_apply, clearBits_apply, cMemInBase, cWalkInBase,
    cGrantBase, cWakeBase, cEventBase, cInWidth, idx, Nat.zero_mul, Nat.one_mul, Nat.reduceMul, Nat.reduceAdd, Nat.zero_add, Nat.add_zero]
  simp (disch := omega) only [if_pos, if_neg, if_true, if_false]

/-- With an event in slot `s` they are that slot's. -/
theorem glue_event {s : Nat} (h : selected n ext = some s) (i : Nat) (hi : i < 35) :
    glued n reg ext junk (cEventBase + i) =
      if i = 0 then true
      else if i < 3 then ext (tEventBase s + i)
      else if i < 33 then (packPte (readUint ext (tEventBase s + 3) 32)).getLsbD (i - 3)
      else ext (tEventBase s + (i + 2)) := by
  have hs : s < n := by
    have := List.mem_of_find?_eq_some h
    exact List.mem_range.mp this
  rw [glued_in _ _ _ _ _ (by simp only [cEventBase, cGrantBase, cInWidth]; omega)]
  unfold glueIn
  rw [selected_ext, h]
  simp only [copyBits_apply, writeUint_apply, writeBit_apply, cWakeBase, cGrantBase, cEventBase,
    Nat.reduceMul, Nat.reduceAdd, Nat.zero_add, Nat.add_zero]
  rcases Nat.eq_zero_or_pos i with h0 | h0
  · subst h0
    simp (disch := omega) only [if_pos, if_neg, if_true, if_false, Nat.add_zero]
  rcases Nat.lt_or_ge i 3 with h1 | h1
  · simp (disch := omega) only [if_pos, if_neg, if_true, if_false]
    rw [show tEventBase s + 1 + (221 + i - 222) = tEventBase s + i by omega]
    exact join_ext _ _ _ _ (tEvt _ _ _ (by omega) hs)
  rcases Nat.lt_or_ge i 33 with h2 | h2
  · simp (disch := omega) only [if_pos, if_neg, if_true, if_false]
    rw [readUint_congr (a := join n ext _) (b := ext)
      (fun i hi => by rw [Nat.add_assoc]; exact join_ext _ _ _ _ (tEvt n s _ (by omega) hs))]
    rw [show 221 + i - 224 = i - 3 by omega]
  · simp (disch := omega) only [if_pos, if_neg, if_true, if_false]
    rw [show tEventBase s + 35 + (221 + i - 254) = tEventBase s + (i + 2) by omega]
    exact join_ext _ _ _ _ (tEvt _ _ _ (by omega) hs)

/-- The identifier of the event in slot `s` is passed on. -/
theorem glue_eventId {s : Nat} (h : selected n ext = some s) (i : Nat) (hi : i < 64) :
    glued n reg ext junk (cEventBase + 35 + i) = ext (tEventBase s + 69 + i) := by
  have hs : s < n := by
    have := List.mem_of_find?_eq_some h
    exact List.mem_range.mp this
  rw [glued_in _ _ _ _ _ (by simp only [cEventBase, cGrantBase, cInWidth]; omega)]
  unfold glueIn
  rw [selected_ext, h]
  simp only [copyBits_apply, cWakeBase, cGrantBase, cEventBase, Nat.reduceMul, Nat.reduceAdd]
  simp (disch := omega) only [if_pos, if_neg]
  rw [Nat.add_sub_cancel_left, Nat.add_assoc]
  exact join_ext _ _ _ _ (tEvt _ _ _ (by omega) hs)

theorem word64_congr {a b : Bits} {l m : Nat} (h : ∀ i, i < 64 → a (l + i) = b (m + i)) : word64 a l = word64 b m := by
  have h1 : readUint a (l + 32) 32 = readUint b (m + 32) 32 :=
    readUint_congr fun i hi => by rw [Nat.add_assoc, h _ (by omega), ← Nat.add_assoc]
  have h2 : readUint a l 32 = readUint b m 32 := readUint_congr fun i hi => h i (by omega)
  unfold word64
  rw [h1, h2]

/-! ### What the step decodes -/

variable (m : Bool)

theorem wrap_state (cin : Bits) (k : Nat) (hk : k < stateWidth) : wrap reg cin m k = reg k := by
  unfold wrap; rw [if_pos hk]

theorem wrap_port (cin : Bits) (k : Nat) (hk : k < 154) : wrap reg cin m (stateWidth + k) = cin k := by
  unfold wrap
  rw [if_neg (by omega), if_pos (by unfold grantBase; omega), Nat.add_sub_cancel_left]

theorem wrap_grant (cin : Bits) (k : Nat) (hk : k < 3) : wrap reg cin m (grantBase + k) = cin (cGrantBase + k) := by
  unfold wrap
  rw [if_neg (by unfold grantBase; omega), if_neg (by omega), if_pos (by unfold eventBase; omega), Nat.add_sub_cancel_left]

theorem wrap_event (cin : Bits) (k : Nat) (hk : k < 35) : wrap reg cin m (eventBase + k) = cin (cEventBase + k) := by
  unfold wrap
  rw [if_neg (by unfold eventBase grantBase; omega), if_neg (by unfold eventBase; omega), if_neg (by omega),
    if_pos (by omega), Nat.add_sub_cancel_left]

theorem wrap_match (cin : Bits) : wrap reg cin m (eventBase + 35) = m := by
  unfold wrap
  rw [if_neg (by unfold eventBase grantBase; omega), if_neg (by unfold eventBase; omega), if_neg (by omega),
    if_neg (by omega), if_pos rfl]

theorem wrap_wake (cin : Bits) (k : Nat) (hk : k < 3) : wrap reg cin m (wakeBase + k) = cin (cWakeBase + k) := by
  unfold wrap
  rw [if_neg (by unfold wakeBase grantBase; omega), if_neg (by unfold wakeBase; omega),
    if_neg (by unfold eventBase wakeBase; omega),
    if_neg (by unfold eventBase wakeBase; omega), if_neg (by unfold eventBase wakeBase; omega), Nat.add_sub_cancel_left]

theorem memInBase_eq (c : Client) : memInBase c = stateWidth + cMemInBase c := rfl
theorem walkInBase_eq (c : Client) : walkInBase c = stateWidth + cWalkInBase c := by
  cases c <;> rfl

/-- A memory port as the step sees it. -/
def pMem (i : MemIn) : MemIn := { i with addr := i.addr &&& 0xFFFFFFFC#32 }
/-- A walk port as the step sees it. -/
def pWalk (i : WalkIn) : WalkIn :=
  { i with req := { vaddr := i.req.vaddr &&& 0xFFFFF000#32, satp := i.req.satp &&& 0x3FFFFF#32 } }
/-- The ports as the step sees them. -/
def pPort (p : PortIn) : PortIn := { mem := ⟨pMem p.mem.d, pMem p.mem.i⟩, walk := ⟨pWalk p.walk.d, pWalk p.walk.i⟩ }
/-- An event as the step sees it; `id`: the identifier decoded from the state. -/
def pEvent (e : Event) (m : Bool) (id : BitVec 64) : Event :=
  { e with data := e.data &&& 0xFFFFFCFF#32, id := if m then id else id ^^^ 1#64 }
/-- The feedback as the step sees it: of the events only the first valid one. -/
def pFeedback (f : Feedback) (m : Bool) (id : BitVec 64) : Feedback :=
  { f with
    grantId := 1#64
    events := match f.events.find? (·.valid) with
      | some e => [pEvent e m id]
      | none => [] }

local notation "PI" => wrap reg (glued n reg ext junk) m

theorem dec_mem (c : Client) : decodeMemIn PI (memInBase c) = pMem (extMem ext c) := by
  have hb : cMemInBase c + 31 < 154 := by cases c <;> simp [cMemInBase, idx]
  have h1 : PI (memInBase c + 0) = ext (tMemBase c + 0) := by
    rw [memInBase_eq, Nat.add_assoc, wrap_port _ _ _ _ (by omega), glue_memValid]
  have h2 : readWordAddr PI (memInBase c + 1) = readUint ext (tMemBase c + 1) 32 &&& 0xFFFFFFFC#32 := by
    refine readUint_shl (by omega) mFC fun i hi => ?_
    rw [memInBase_eq, Nat.add_assoc, Nat.add_assoc, wrap_port _ _ _ _ (by omega), ← Nat.add_assoc,
      glue_memAddr _ _ _ _ _ _ hi]
  have h3 : PI (memInBase c + 31) = ext (tMemBase c + 33) := by
    rw [memInBase_eq, Nat.add_assoc, wrap_port _ _ _ _ (by omega), glue_memConsumed]
  unfold decodeMemIn
  rw [h1, h2, h3]
  rfl

theorem dec_walk (c : Client) : decodeWalkIn PI (walkInBase c) = pWalk (extWalk ext c) := by
  have hb : cWalkInBase c + 44 < 154 := by cases c <;> simp [cWalkInBase, idx]
  have h1 : PI (walkInBase c + 0) = ext (tWalkBase c + 0) := by
    rw [walkInBase_eq, Nat.add_assoc, wrap_port _ _ _ _ (by omega), glue_walkValid]
  have h2 : readUint PI (walkInBase c + 1) 20 <<< 12 = readUint ext (tWalkBase c + 1) 32 &&& 0xFFFFF000#32 := by
    refine readUint_shl (by omega) mF000 fun i hi => ?_
    rw [walkInBase_eq, Nat.add_assoc, Nat.add_assoc, wrap_port _ _ _ _ (by omega), ← Nat.add_assoc,
      glue_walkVaddr _ _ _ _ _ _ hi]
  have h3 : readUint PI (walkInBase c + 21) 22 = readUint ext (tWalkBase c + 33) 32 &&& 0x3FFFFF#32 := by
    refine readUint_of (fun i hi => ?_) fun i hi => by
      rw [m22, decide_eq_false (by omega), Bool.false_and]
    rw [walkInBase_eq, Nat.add_assoc, Nat.add_assoc, wrap_port _ _ _ _ (by omega), ← Nat.add_assoc,
      glue_walkSatp _ _ _ _ _ _ hi, m22, decide_eq_true hi, Bool.true_and]
  have h4 : PI (walkInBase c + 43) = ext (tWalkBase c + 97) := by
    rw [walkInBase_eq, Nat.add_assoc, wrap_port _ _ _ _ (by omega), glue_walkConsumed]
  unfold decodeWalkIn
  rw [h1, h2, h3, h4]
  rfl

theorem dec_port : decodePort PI = pPort (extIn n ext).port := by
  unfold decodePort pPort extIn
  rw [dec_mem, dec_mem, dec_walk, dec_walk]

theorem dec_flush : decodeFlush PI = (extIn n ext).flush := by
  unfold decodeFlush extIn
  rw [walkInBase_eq, walkInBase_eq, Nat.add_assoc, Nat.add_assoc, wrap_port _ _ _ _ (by decide),
    wrap_port _ _ _ _ (by decide), glue_walkFlush, glue_walkFlush]

theorem dec_state : decodeState PI = decodeState reg :=
  decodeState_congr fun k hk => wrap_state _ _ _ _ hk

theorem extIn_first : (extIn n ext).fb.events.find? (·.valid) = (selected n ext).map (extEvent ext) := by
  show List.find? _ ((List.range (min n (readUint ext tCountBase 8).toNat)).map (extEvent ext)) = _
  rw [List.find?_map]
  congr 1
  unfold selected
  generalize (readUint ext tCountBase 8).toNat = c
  have key : ∀ (p : Nat → Bool) (n : Nat), (List.range (min n c)).find? p =
      (List.range n).find? (fun i => decide (i < c) && p i) := by
    intro p n
    induction n with
    | zero => simp
    | succ n ih =>
      rw [List.range_succ, List.find?_append, ← ih]
      by_cases h : n < c
      · rw [show min (n + 1) c = n + 1 by omega, List.range_succ, List.find?_append, show min n c = n by omega]
        simp [h]
      · rw [show min (n + 1) c = min n c by omega]
        simp [h]
  exact key _ n

theorem dec_event {s : Nat} (h : selected n ext = some s) (id : BitVec 64) :
    decodeEvent PI id = pEvent (extEvent ext s) m id := by
  have hv : ext (tEventBase s + 0) = true := by
    have := List.find?_some h
    simp only [Bool.and_eq_true] at this
    exact this.2
  have h1 : PI (eventBase + 0) = ext (tEventBase s + 0) := by
    rw [wrap_event _ _ _ _ (by omega), glue_event _ _ _ _ h _ (by omega), hv, if_pos rfl]
  have h2 : readUint PI (eventBase + 1) 2 = readUint ext (tEventBase s + 1) 2 := by
    refine readUint_congr fun i hi => ?_
    rw [Nat.add_assoc, wrap_event _ _ _ _ (by omega), glue_event _ _ _ _ h _ (by omega), if_neg (by omega),
      if_pos (by omega), Nat.add_assoc]
  have h3 : unpackPte (readUint PI (eventBase + 3) 30) = readUint ext (tEventBase s + 3) 32 &&& 0xFFFFFCFF#32 := by
    refine readUint_pte fun i hi => ?_
    rw [Nat.add_assoc, wrap_event _ _ _ _ (by omega), glue_event _ _ _ _ h _ (by omega), if_neg (by omega),
      if_neg (by omega), if_pos (by omega), Nat.add_sub_cancel_left]
  have h4 : readUint PI (eventBase + 33) 2 = readUint ext (tEventBase s + 35) 2 := by
    refine readUint_congr fun i hi => ?_
    rw [Nat.add_assoc, wrap_event _ _ _ _ (by omega), glue_event _ _ _ _ h _ (by omega), if_neg (by omega),
      if_neg (by omega), if_neg (by omega), show tEventBase s + (33 + i + 2) = tEventBase s + 35 + i by omega]
  unfold decodeEvent
  rw [h1, h2, h3, h4, wrap_match]
  rfl

theorem decodeEvent_valid (b : Bits) (id : BitVec 64) : (decodeEvent b id).valid = b (eventBase + 0) := rfl

theorem dec_feedback (id : BitVec 64) : decodeFeedback PI id = pFeedback (extIn n ext).fb m id := by
  have hg : ∀ i, i < 3 → PI (grantBase + i) = ext (tGrantBase + i) := fun i hi => by
    rw [wrap_grant _ _ _ _ hi, glue_grant _ _ _ _ _ (by omega)]
  have hw : ∀ i, i < 3 → PI (wakeBase + i) = ext (tWakeBase n + i) := fun i hi => by
    rw [wrap_wake _ _ _ _ hi, glue_wake _ _ _ _ _ hi]
  have ho : readUint PI (grantBase + 1) 2 = readUint ext (tGrantBase + 1) 2 :=
    readUint_congr fun i hi => by rw [Nat.add_assoc, hg _ (by omega), Nat.add_assoc]
  have he : (if (decodeEvent PI id).valid then [decodeEvent PI id] else []) =
      (match (selected n ext).map (extEvent ext) with | some e => [pEvent e m id] | none => []) := by
    cases h : selected n ext with
    | none =>
      have h1 : PI (eventBase + 0) = false :=
        (wrap_event reg m _ 0 (by omega)).trans (glue_noEvent n reg ext junk h 0 (by omega))
      have : (decodeEvent PI id).valid = false := (decodeEvent_valid _ _).trans h1
      rw [this]; rfl
    | some s =>
      rw [dec_event _ _ _ _ _ h]
      have : (pEvent (extEvent ext s) m id).valid = true := by
        have := List.find?_some h
        simp only [Bool.and_eq_true] at this
        exact this.2
      rw [this]; rfl
  have h0 := hg 0 (by omega)
  have w0 := hw 0 (by omega)
  have w1 := hw 1 (by omega)
  have w2 := hw 2 (by omega)
  unfold decodeFeedback pFeedback
  rw [extIn_first, h0, w0, w1, w2, ho, he]
  rfl

/-- The next contents of the register, as a state. -/
theorem twinStep_state : decodeState (twinStep n reg ext m junk) =
    canon ((decodeState reg).run (pPort (extIn n ext).port) (pFeedback (extIn n ext).fb m (decodeState reg).id)
      (extIn n ext).flush) := by
  unfold twinStep
  rw [decode_eval]
  unfold evalState
  simp only [dec_state, dec_port, dec_feedback, dec_flush]

end
end Verif.PtwTwin

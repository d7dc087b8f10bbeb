import Verif.Proofs.Device
import Verif.Proofs.RefMem
/-
C85–C87: the timer, the UART and the interrupt controller, the DMA engine.
-/
namespace Verif.Props
open Verif.Device Verif.Device.Spec Verif.Device.Proofs
open Verif.RefMem (wordOf uartBase uartIer plicClaim timerLow timerHigh timerCmpLow timerCmpHigh)
open Verif.Spec.ByteMem (Size byteOf aligned loadCode)

/-- C85: after any history, at any time, the timer registers read as the halves of the clock and of the alarm. -/
theorem C85_timer (m : BitVec 32 → BitVec 32) (l : List Ev) (now : BitVec 64) (f3 : BitVec 3) :
    let s := run l (.init m)
    read now s timerHigh f3 ++ read now s timerLow f3 = clock l now ∧
    read now s timerCmpHigh f3 ++ read now s timerCmpLow f3 = alarm l := by
  have h := inv_run m l
  have hh : ∀ x : BitVec 64, ((x >>> 32).setWidth 32 ++ x.setWidth 32 : BitVec 64) = x := by
    intro x
    apply BitVec.eq_of_getLsbD_eq
    intro i hi
    rw [BitVec.getLsbD_append, BitVec.getLsbD_setWidth, BitVec.getLsbD_setWidth, BitVec.getLsbD_ushiftRight]
    by_cases h : i < 32
    · rw [if_pos h, decide_eq_true h]; simp
    · have e : 32 + (i - 32) = i := by omega
      rw [if_neg h, e, decide_eq_true (show i - 32 < 32 by omega)]; simp
  dsimp only
  constructor
  · rw [h.clock now]
    exact hh _
  · rw [h.alarm]
    exact hh _

/-- C85: the timer line says, after every cycle and after every store to a timer register, whether the clock has reached
the alarm. -/
theorem C85_line (m : BitVec 32 → BitVec 32) (l : List Ev) (e : Ev) (now : BitVec 64)
    (he : e = .tick now ∨ ∃ p d f3, e = .store now p d f3 ∧
      (p = timerLow ∨ p = timerHigh ∨ p = timerCmpLow ∨ p = timerCmpHigh)) :
    (run (l ++ [e]) (.init m)).timerLine = some (decide ((alarm (l ++ [e])).toNat ≤ (clock (l ++ [e]) now).toNat)) := by
  have h := inv_run m (l ++ [e])
  rw [h.clock now, h.alarm]
  rw [run_snoc]
  obtain ⟨m1, m2, m3, m4, _⟩ := modeled_regs
  have hf : ∀ {a : BitVec 32}, modeled a = true → ¬ modeled a = false := by intro a h1 h2; rw [h1] at h2; cases h2
  rcases he with rfl | ⟨p, d, f3, rfl, hp⟩
  · rfl
  · rcases hp with rfl | rfl | rfl | rfl
    · show (store _ _ _ _ _).timerLine = some (decide ((regs (store _ _ _ _ _)).cmp.toNat ≤ (now + (regs (store _ _ _ _ _)).off).toNat))
      unfold store
      rw [if_neg (hf m1), if_pos rfl]
      rfl
    · show (store _ _ _ _ _).timerLine = some (decide ((regs (store _ _ _ _ _)).cmp.toNat ≤ (now + (regs (store _ _ _ _ _)).off).toNat))
      unfold store
      rw [if_neg (hf m2), if_neg (by decide), if_pos rfl]
      rfl
    · show (store _ _ _ _ _).timerLine = some (decide ((regs (store _ _ _ _ _)).cmp.toNat ≤ (now + (regs (store _ _ _ _ _)).off).toNat))
      unfold store
      rw [if_neg (hf m3), if_neg (by decide), if_neg (by decide), if_pos rfl]
      rfl
    · show (store _ _ _ _ _).timerLine = some (decide ((regs (store _ _ _ _ _)).cmp.toNat ≤ (now + (regs (store _ _ _ _ _)).off).toNat))
      unfold store
      rw [if_neg (hf m4), if_neg (by decide), if_neg (by decide), if_neg (by decide), if_pos rfl]
      rfl

/-- C86: the characters printed are those stored to the UART's data register, in order. -/
theorem C86_output (m : BitVec 32 → BitVec 32) (l : List Ev) : (run l (.init m)).out.reverse = printed l := (inv_run m l).out

theorem claim_read (now : BitVec 64) (s : State) : read now s plicClaim 2#3 = s.mem plicClaim := by
  unfold Device.read
  have hm : ¬ modeled plicClaim = false := by decide
  rw [if_neg hm, if_neg (by decide), if_neg (by decide), if_neg (by decide), if_neg (by decide), if_neg (by decide),
    if_neg (by decide), if_neg (by decide), if_neg (by decide), if_neg (by decide)]
  unfold readLanes
  have e1 : wordOf plicClaim = plicClaim := by decide
  have e2 : ∀ x : BitVec 32, x >>> 0 &&& 0xFFFFFFFF#32 ||| 0#32 = x := by
    intro x
    apply BitVec.eq_of_toNat_eq
    have : (0xFFFFFFFF#32).toNat = 2 ^ 32 - 1 := rfl
    simp only [BitVec.toNat_or, BitVec.toNat_and, this, Nat.and_two_pow_sub_one_eq_mod, BitVec.toNat_ushiftRight, Nat.shiftRight_zero]
    have := x.isLt
    have z : (0#32).toNat = 0 := rfl
    rw [z, Nat.or_zero]
    omega
  exact e2 _

/-- C86: after a cycle the claim register reads 11 while the DMA interrupt is pending, else 10 while that of the UART is, else
0; the external interrupt line is up exactly while one of them is. -/
theorem C86_claim (m : BitVec 32 → BitVec 32) (l : List Ev) (n now : BitVec 64) :
    let s := run (l ++ [.tick n]) (.init m)
    (DmaPending l → read now s plicClaim 2#3 = 11#32) ∧
    (¬ DmaPending l → UartPending l → read now s plicClaim 2#3 = 10#32) ∧
    (¬ DmaPending l → ¬ UartPending l → read now s plicClaim 2#3 = 0#32) ∧
    (s.extLine = some true ↔ DmaPending l ∨ UartPending l) ∧
    (s.extLine = some false ↔ ¬ (DmaPending l ∨ UartPending l)) := by
  have h := inv_run m l
  have hu : (run l (.init m)).uartIrq = true ↔ UartPending l := h.uart
  have hd : (run l (.init m)).dmaIrq = true ↔ DmaPending l := h.dma
  rw [← hu, ← hd]
  dsimp only
  rw [claim_read, run_snoc]
  generalize run l (.init m) = s
  have hr : (step s (.tick n)).mem plicClaim = if s.dmaIrq then 11#32 else if s.uartIrq then 10#32 else 0#32 := by
    show (if plicClaim = wordOf plicClaim then (if s.dmaIrq then 11#32 else if s.uartIrq then 10#32 else 0#32) else s.mem plicClaim) = _
    rw [if_pos (by decide)]
  have hl : (step s (.tick n)).extLine = some (decide ((if s.dmaIrq then 11#32 else if s.uartIrq then 10#32 else 0#32) ≠ 0#32)) := rfl
  rw [hr, hl]
  cases s.dmaIrq <;> cases s.uartIrq <;> decide

/-- C86: an interrupt stays pending until it is completed, and completing one leaves the other alone. -/
theorem C86_pending (l : List Ev) (e : Ev) :
    (UartPending (l ++ [e]) ↔ UartRaise l e ∨ UartPending l ∧ ¬ Completes 10#8 e) ∧
    (DmaPending (l ++ [e]) ↔ DmaRaise l e ∨ DmaPending l ∧ ¬ Completes 11#8 e) := ⟨pending_snoc l e, pending_snoc l e⟩

/-- The registers with an effect of their own. -/
def Special (p : BitVec 32) : Prop :=
  p ∈ [timerLow, timerHigh, timerCmpLow, timerCmpHigh, dmaSrcAddr, dmaDstAddr, dmaLenAddr, dmaCtrlAddr, dmaStatusAddr]

instance (p : BitVec 32) : Decidable (Special p) := inferInstanceAs (Decidable (p ∈ _))

theorem byteAt_byteOf (m : BitVec 32 → BitVec 32) (a : BitVec 32) : byteAt m a = byteOf (m (wordOf a)) (a.toNat % 4) := by
  unfold byteAt byteOf
  apply BitVec.eq_of_toNat_eq
  rw [BitVec.toNat_setWidth, BitVec.toNat_ushiftRight, BitVec.toNat_ofNat, Nat.shiftRight_eq_div_pow, Nat.pow_mul]

theorem mask_strb (sz : Size) (f3 : BitVec 3) (hf : f3 &&& 3#3 = sz.code) (o : Nat) (ho : o + sz.bytes ≤ 4) :
    maskOf f3 <<< (o * 8) = RefMem.strbMask (RefMem.strbOf sz <<< o) := by
  have key : ∀ f3 : BitVec 3, ∀ o : Fin 4, (f3 &&& 3#3 = 0#3 → maskOf f3 <<< (o.val * 8) = RefMem.strbMask (RefMem.strbOf .byte <<< o.val)) ∧
      (f3 &&& 3#3 = 1#3 → o.val + 2 ≤ 4 → maskOf f3 <<< (o.val * 8) = RefMem.strbMask (RefMem.strbOf .half <<< o.val)) ∧
      (f3 &&& 3#3 = 2#3 → o.val + 4 ≤ 4 → maskOf f3 <<< (o.val * 8) = RefMem.strbMask (RefMem.strbOf .word <<< o.val)) := by
    decide +kernel
  have h4 : o < 4 := by have : 0 < sz.bytes := by cases sz <;> decide
                        omega
  have k := key f3 ⟨o, h4⟩
  cases sz
  · exact k.1 hf
  · exact k.2.1 hf ho
  · exact k.2.2 hf ho

theorem data_byte (sz : Size) (f3 : BitVec 3) (hf : f3 &&& 3#3 = sz.code) (d : BitVec 32) (i : Nat) (hi : i < sz.bytes) :
    byteOf (maskData d f3) i = byteOf d i := by
  unfold maskData
  rw [hf]
  cases sz
  · rw [if_pos (by decide)]
    have : i = 0 := by simp [Size.bytes] at hi; exact hi
    rw [this]; exact RefMem.byteOf_ff d
  · rw [if_neg (by decide), if_pos (by decide)]; exact RefMem.byteOf_ffff d i hi
  · rw [if_neg (by decide), if_neg (by decide)]

/-- C86: every other device register is memory for loads: the bytes, sign- or zero-extended. -/
theorem C86_plain_load (now : BitVec 64) (s : State) (sz : Size) (sg : Bool) (f3 : BitVec 3) (hf : loadCode sz sg = some f3)
    (p : BitVec 32) (ha : aligned sz p) (hm : modeled p = true) (hp : ¬ Special p) :
    read now s p f3 = Spec.ByteMem.load (byteAt s.mem) sz sg p := by
  have hb := RefMem.align_cases sz p ha
  rw [RefMem.spec_load_eq (byteAt s.mem) sz sg p (s.mem (wordOf p)) ha (fun i hi => by
    rw [byteAt_byteOf, RefMem.wordOf_add p i (by omega), RefMem.add_mod4 p i (by omega)])]
  simp only [Special, List.mem_cons, List.not_mem_nil, or_false, not_or] at hp
  obtain ⟨h1, h2, h3, h4, h5, h6, h7, h8, h9⟩ := hp
  unfold Device.read
  rw [if_neg (by simp [hm]), if_neg h1, if_neg h2, if_neg h3, if_neg h4, if_neg h5, if_neg h6, if_neg h7, if_neg h8, if_neg h9]
  unfold readLanes pmemRead
  rw [RefMem.off_toNat, RefMem.low_eq]
  generalize s.mem (wordOf p) >>> (p.toNat % 4 * 8) = D
  cases sz <;> cases sg <;> simp [loadCode] at hf <;> subst hf
  · exact RefMem.and_ff D
  · exact RefMem.ext_byte D
  · exact RefMem.and_ffff D
  · exact RefMem.ext_half D
  · show (D &&& 0xFFFFFFFF#32) ||| 0#32 = (BitVec.ofNat 32 (D.toNat % 2 ^ 32)).signExtend 32
    rw [RefMem.and_all, BitVec.or_zero, BitVec.signExtend_eq_setWidth_of_le _ (by decide)]
    apply BitVec.eq_of_toNat_eq
    have := D.isLt
    rw [BitVec.toNat_setWidth, BitVec.toNat_ofNat]
    omega

/-- C86: and for stores, except that the UART's data and interrupt-enable registers and the claim register act as said
above. -/
theorem C86_plain_store (n : BitVec 64) (s : State) (sz : Size) (f3 : BitVec 3) (hf : f3 &&& 3#3 = sz.code)
    (p d : BitVec 32) (ha : aligned sz p) (hm : modeled p = true) (hp : ¬ Special p)
    (hq : p ≠ uartBase ∧ p ≠ uartIer ∧ p ≠ plicClaim) :
    byteAt (store n p d f3 s).mem = Spec.ByteMem.store (byteAt s.mem) sz p d ∧
    { store n p d f3 s with mem := s.mem } = s := by
  have hal := RefMem.align_cases sz p ha
  simp only [Special, List.mem_cons, List.not_mem_nil, or_false, not_or] at hp
  obtain ⟨h1, h2, h3, h4, h5, h6, h7, h8, h9⟩ := hp
  have e : store n p d f3 s = { s with mem := pmemWrite s.mem p ((pmemRead s.mem p &&& ~~~(maskOf f3 <<< ((p &&& 3#32).toNat * 8))) |||
      ((maskData d f3 <<< ((p &&& 3#32).toNat * 8)) &&& (maskOf f3 <<< ((p &&& 3#32).toNat * 8)))) } := by
    unfold store
    rw [if_neg (by simp [hm]), if_neg h1, if_neg h2, if_neg h3, if_neg h4, if_neg h5, if_neg h6, if_neg h7, if_neg h8, if_neg h9]
    unfold storePlain
    rw [if_neg hq.1, if_neg hq.2.1, if_neg hq.2.2]
  rw [e]
  refine ⟨?_, rfl⟩
  funext a
  rw [byteAt_byteOf]
  unfold Spec.ByteMem.store
  dsimp only
  unfold pmemWrite pmemRead
  have hlt : a.toNat % 4 < 4 := Nat.mod_lt _ (by decide)
  by_cases hw : wordOf a = wordOf p
  · rw [if_pos hw, RefMem.off_toNat]
    have hs : maskOf f3 <<< (p.toNat % 4 * 8) = RefMem.strbMask (RefMem.strbOf sz <<< (p.toNat % 4)) := mask_strb sz f3 hf _ hal
    rw [hs, BitVec.and_comm (maskData d f3 <<< _), BitVec.and_comm (s.mem _), BitVec.or_comm,
      RefMem.merge_byte sz _ d _ _ _ hal hlt (data_byte sz f3 hf d)]
    by_cases hr : p.toNat % 4 ≤ a.toNat % 4 ∧ a.toNat % 4 < p.toNat % 4 + sz.bytes
    · rw [if_pos hr, if_pos ((RefMem.in_range_iff a _ _ hal).mpr ⟨hw, hr⟩), RefMem.sub_toNat a _ hw hr.1]
    · rw [if_neg hr, if_neg (fun x => hr ((RefMem.in_range_iff a _ _ hal).mp x).2), byteAt_byteOf, hw]
  · rw [if_neg hw, if_neg (fun x => hw ((RefMem.in_range_iff a _ _ hal).mp x).1), byteAt_byteOf]

/-- C87: the registers that describe a transfer read as last written. -/
theorem C87_registers (m : BitVec 32 → BitVec 32) (l : List Ev) (now : BitVec 64) (f3 : BitVec 3) :
    let s := run l (.init m)
    read now s dmaSrcAddr f3 = last l dmaSrcAddr ∧ read now s dmaDstAddr f3 = last l dmaDstAddr ∧
    read now s dmaLenAddr f3 = last l dmaLenAddr := by
  have h := inv_run m l
  exact ⟨h.src.symm, h.dst.symm, h.len.symm⟩

/-- C87: storing to the status register clears the bits stored. -/
theorem C87_status (m : BitVec 32 → BitVec 32) (l : List Ev) (n now : BitVec 64) (d : BitVec 32) (f3 g3 : BitVec 3) (i : Nat)
    (hi : i < 32) :
    (read now (run (l ++ [.store n dmaStatusAddr d f3]) (.init m)) dmaStatusAddr g3).getLsbD i =
      ((read now (run l (.init m)) dmaStatusAddr g3).getLsbD i && !d.getLsbD i) := by
  rw [run_snoc]
  generalize run l (.init m) = s
  have h : ∀ s : State, read now s dmaStatusAddr g3 = s.dmaStatus := fun s => rfl
  have h' : (step s (.store n dmaStatusAddr d f3)).dmaStatus = s.dmaStatus &&& ~~~d := rfl
  rw [h, h, h', BitVec.getLsbD_and, BitVec.getLsbD_not, decide_eq_true hi, Bool.true_and]

/-- C87: starting a transfer between two ranges of RAM copies the bytes as they were, even if the ranges overlap, changes
nothing else but the claim register, and reports that it is done.  A transfer with any other range changes no memory
and reports an error. -/
theorem C87_transfer (m : BitVec 32 → BitVec 32) (l : List Ev) (n now : BitVec 64) (d : BitVec 32) (f3 : BitVec 3)
    (hd : d.getLsbD 0 = true) :
    let src := last l dmaSrcAddr
    let dst := last l dmaDstAddr
    let len := last l dmaLenAddr
    let s := run l (.init m)
    let t := run (l ++ [.store n dmaCtrlAddr d f3]) (.init m)
    (InRam src len → InRam dst len → read now t dmaStatusAddr 2#3 = 2#32 ∧
      ∀ a, wordOf a ≠ plicClaim → byteAt t.mem a =
        if dst.toNat ≤ a.toNat ∧ a.toNat < dst.toNat + len.toNat then byteAt s.mem (src + (a - dst)) else byteAt s.mem a) ∧
    (¬ (InRam src len ∧ InRam dst len) → read now t dmaStatusAddr 2#3 = 4#32 ∧ t.mem = s.mem) := by
  have h := inv_run m l
  have e1 : last l dmaSrcAddr = (run l (.init m)).dmaSrc := h.src
  have e2 : last l dmaDstAddr = (run l (.init m)).dmaDst := h.dst
  have e3 : last l dmaLenAddr = (run l (.init m)).dmaLen := h.len
  dsimp only
  rw [e1, e2, e3, run_snoc]
  generalize run l (.init m) = s
  have hb := (bits01 d).1.2 hd
  have hst : step s (.store n dmaCtrlAddr d f3) = startDma { s with dmaCtrl := d &&& 2#32 } := by
    show store n dmaCtrlAddr d f3 s = _
    unfold store
    have hm : ¬ modeled dmaCtrlAddr = false := by decide
    rw [if_neg hm, if_neg (by decide), if_neg (by decide), if_neg (by decide), if_neg (by decide), if_neg (by decide),
      if_neg (by decide), if_neg (by decide), if_pos rfl]
    dsimp only
    rw [if_pos hb]
  rw [hst]
  unfold startDma
  constructor
  · intro h1 h2
    rw [if_pos ⟨h1.1, (isRam_iff _ _).2 h1, (isRam_iff _ _).2 h2⟩]
    have hcp : ∀ a, byteAt (copy s.mem s.dmaSrc s.dmaDst s.dmaLen.toNat) a = _ :=
      fun a => byteAt_copy s.mem s.dmaSrc s.dmaDst s.dmaLen.toNat (by have := h2.2.2; omega) a
    dsimp only
    split
    · refine ⟨rfl, ?_⟩
      intro a ha
      rw [← hcp a]
      unfold byteAt
      have hne : ¬ wordOf a = wordOf plicClaim := by rw [show wordOf plicClaim = plicClaim from by decide]; exact ha
      have e : ∀ (t : State), (updExt t).mem (wordOf a) = t.mem (wordOf a) := fun t => if_neg hne
      rw [e]
    · exact ⟨rfl, fun a _ => hcp a⟩
  · intro hn
    rw [if_neg (fun k => hn ⟨(isRam_iff _ _).1 k.2.1, (isRam_iff _ _).1 k.2.2⟩)]
    exact ⟨rfl, rfl⟩

/-! ### Concrete runs -/
namespace DevRun

/-- Memory that holds the address in every word. -/
def mem : BitVec 32 → BitVec 32 := id

/-- The clock is set to 1000 at time 10, the alarm to 1005, a character is sent, the UART interrupt enabled. -/
def script : List Ev :=
  [.store 10#64 timerHigh 0#32 2#3, .store 10#64 timerLow 1000#32 2#3, .store 10#64 timerCmpLow 1005#32 2#3,
    .store 11#64 uartBase 0x48#32 0#3, .store 11#64 uartIer 7#32 0#3]

/-- C85, C86: at time 14 the alarm has not been reached, at time 15 it has; the interrupt is that of the UART. -/
example : clock script 14#64 = 1004#64 ∧ alarm script = 1005#64 ∧
    (run (script ++ [.tick 14#64]) (.init mem)).timerLine = some false ∧
    (run (script ++ [.tick 15#64]) (.init mem)).timerLine = some true ∧
    (run script (.init mem)).out = [0x48#8] ∧
    read 15#64 (run (script ++ [.tick 15#64]) (.init mem)) plicClaim 2#3 = 10#32 := by decide +kernel

example : UartPending script ∧ ¬ UartPending (script ++ [.store 20#64 plicClaim 10#32 2#3]) := by
  refine ⟨⟨script.take 4, .store 11#64 uartIer 7#32 0#3, [], rfl, ⟨_, _, _, rfl, by decide⟩, by simp⟩, ?_⟩
  rw [(C86_pending _ _).1]
  rintro (⟨_, _, _, h, _⟩ | ⟨_, h⟩)
  · cases h
  · exact h ⟨_, _, _, rfl, by decide⟩

/-- A transfer of 6 bytes from 0x80000100 to 0x80000103, overlapping. -/
def dma : List Ev :=
  [.store 1#64 dmaSrcAddr 0x80000100#32 2#3, .store 1#64 dmaDstAddr 0x80000103#32 2#3, .store 1#64 dmaLenAddr 6#32 2#3]

/-- C87: byte 0x80000107 becomes what byte 0x80000104 was. -/
example : InRam (last dma dmaSrcAddr) (last dma dmaLenAddr) ∧ InRam (last dma dmaDstAddr) (last dma dmaLenAddr) ∧
    byteAt (run (dma ++ [.store 2#64 dmaCtrlAddr 3#32 2#3]) (.init mem)).mem 0x80000107#32 = 0x04#8 ∧
    byteAt mem 0x80000107#32 = 0x80#8 ∧
    (run (dma ++ [.store 2#64 dmaCtrlAddr 3#32 2#3]) (.init mem)).extLine = some true ∧
    read 2#64 (run (dma ++ [.store 2#64 dmaLenAddr 0#32 2#3, .store 2#64 dmaCtrlAddr 3#32 2#3]) (.init mem)) dmaStatusAddr 2#3 = 4#32 := by
  decide +kernel

/-- A byte load of a timer or DMA register returns the whole register, and a byte store replaces all of it: the width is
ignored. -/
theorem C85_width_ignored : ∃ l : List Ev, read 0#64 (run l (.init mem)) dmaSrcAddr 4#3 = 0x80000100#32 ∧
    (∀ s now p d f3 g3, modeled p = true → (p = dmaSrcAddr ∨ p = timerCmpLow) → store now p d f3 s = store now p d g3 s) := by
  refine ⟨dma, by decide +kernel, ?_⟩
  rintro s now p d f3 g3 _ (rfl | rfl) <;> rfl

/-- A halfword store to the UART's scratch registers, read back as a signed byte. -/
example : read 0#64 (store 0#64 (uartBase + 6#32) 0x1234F0AB#32 1#3 (.init fun _ => 0#32)) (uartBase + 7#32) 0#3 = 0xFFFFFFF0#32 ∧
    ¬ Special (uartBase + 6#32) ∧ modeled (uartBase + 6#32) = true := by decide +kernel

end DevRun
end Verif.Props

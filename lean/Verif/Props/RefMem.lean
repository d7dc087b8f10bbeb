import Verif.Proofs.RefMem

/-! # C33, C34, C50: loads, stores and atomics -/
namespace Verif.Props
open Verif.RefMem Verif.Spec.ByteMem

/-- The address lies in the word of a device register with side effects: UART data/interrupt-enable,
PLIC claim, timer and timer-compare. -/
def Device (p : BitVec 32) : Prop :=
  p.toNat - p.toNat % 4 ∈ [0x10000000, 0x0c201004, 0x1fd0e000, 0x1fd0e004, 0x1fd0e008, 0x1fd0e00c]

instance (p) : Decidable (Device p) := inferInstanceAs (Decidable (_ ∈ _))

theorem word_eq_iff (p w : BitVec 32) : wordOf p = w ↔ p.toNat - p.toNat % 4 = w.toNat := by
  have h := wordOf_toNat p
  constructor
  · rintro rfl; omega
  · intro e; apply BitVec.eq_of_toNat_eq; omega

theorem not_device {p : BitVec 32} (h : ¬ Device p) :
    ¬ timerWord p ∧ p ≠ uartBase ∧ p ≠ uartIer ∧ p ≠ plicClaim := by
  simp only [Device, List.mem_cons, List.not_mem_nil, or_false, not_or] at h
  obtain ⟨h1, h2, h3, h4, h5, h6⟩ := h
  refine ⟨?_, ?_, ?_, ?_⟩
  · simp only [timerWord, word_eq_iff, not_or]
    exact ⟨h3, h4, h5, h6⟩
  · rintro rfl; exact h1 (by decide)
  · rintro rfl; exact h1 (by decide)
  · rintro rfl; exact h2 (by decide)

theorem storeWord_frame (now : BitVec 64) (s : State) (a d : BitVec 32) :
    (storeWord now s a d).storeAddr = s.storeAddr ∧ (storeWord now s a d).storeData = s.storeData ∧
    (storeWord now s a d).resValid = s.resValid ∧ (storeWord now s a d).resAddr = s.resAddr ∧
    (storeWord now s a d).store = s.store ∧ (storeWord now s a d).storeStrb = s.storeStrb ∧
    (storeWord now s a d).out = s.out ∧ (storeWord now s a d).mip = s.mip ∧ (storeWord now s a d).sip = s.sip := by
  unfold storeWord writeTimer
  dsimp only
  repeat' split
  all_goals exact ⟨rfl, rfl, rfl, rfl, rfl, rfl, rfl, rfl, rfl⟩

theorem maskedWrite_frame (now : BitVec 64) (s : State) :
    (maskedWrite now s).storeAddr = s.storeAddr ∧ (maskedWrite now s).storeData = s.storeData ∧
    (maskedWrite now s).resValid = s.resValid ∧ (maskedWrite now s).resAddr = s.resAddr := by
  unfold maskedWrite
  dsimp only
  split
  · have := storeWord_frame now s s.storeAddr (strbMask (s.storeStrb <<< (s.storeAddr &&& 3#32).toNat) &&&
      s.storeData <<< ((s.storeAddr &&& 3#32).toNat * 8) |||
      ~~~strbMask (s.storeStrb <<< (s.storeAddr &&& 3#32).toNat) &&& loadWord s s.storeAddr)
    exact ⟨this.1, this.2.1, this.2.2.1, this.2.2.2.1⟩
  · exact ⟨rfl, rfl, rfl, rfl⟩

theorem dropReservation_frame (s : State) :
    (dropReservation s).storeAddr = s.storeAddr ∧ (dropReservation s).storeData = s.storeData ∧
    (dropReservation s).store = s.store ∧ (dropReservation s).storeStrb = s.storeStrb ∧
    (dropReservation s).resAddr = s.resAddr ∧ ∀ a, loadWord (dropReservation s) a = loadWord s a := by
  unfold dropReservation
  split
  · exact ⟨rfl, rfl, rfl, rfl, rfl, fun _ => rfl⟩
  · exact ⟨rfl, rfl, rfl, rfl, rfl, fun _ => rfl⟩

/-- Away from device registers `store_data` is the masked write. -/
theorem storeData_plain (now : BitVec 64) (s : State) (h : ¬ Device s.storeAddr) :
    storeData now s = shiftFields (maskedWrite now (dropReservation s)) := by
  obtain ⟨-, h1, h2, h3⟩ := not_device h
  have e : (maskedWrite now (dropReservation s)).storeAddr = s.storeAddr := by
    rw [(maskedWrite_frame now _).1, (dropReservation_frame s).1]
  unfold storeData
  have t1 : uartTx now (maskedWrite now (dropReservation s)) = maskedWrite now (dropReservation s) := by
    unfold uartTx; rw [if_neg (by rw [e]; exact h1)]
  have t2 : uartIer7 now (maskedWrite now (dropReservation s)) = maskedWrite now (dropReservation s) := by
    unfold uartIer7; rw [if_neg (by rw [e]; exact fun h => h2 h.1)]
  have t3 : uartIer5 now (maskedWrite now (dropReservation s)) = maskedWrite now (dropReservation s) := by
    unfold uartIer5; rw [if_neg (by rw [e]; exact fun h => h2 h.1)]
  have t4 : plicDone now (maskedWrite now (dropReservation s)) = maskedWrite now (dropReservation s) := by
    unfold plicDone; rw [if_neg (by rw [e]; exact fun h => h3 h.1)]
  rw [t1, t2, t3, t4]

/-- Word-level effect of `store_data` away from device registers. -/
theorem storeData_word (now : BitVec 64) (s : State) (h : ¬ Device s.storeAddr) (hs : s.store = true) (b : BitVec 32) :
    loadWord (storeData now s) b =
      if wordOf b = wordOf s.storeAddr then
        (strbMask (s.storeStrb <<< (s.storeAddr &&& 3#32).toNat) &&& s.storeData <<< ((s.storeAddr &&& 3#32).toNat * 8)) |||
          (~~~strbMask (s.storeStrb <<< (s.storeAddr &&& 3#32).toNat) &&& loadWord s s.storeAddr)
      else loadWord s b := by
  rw [storeData_plain now s h]
  show loadWord (maskedWrite now (dropReservation s)) b = _
  obtain ⟨e1, e2, e3, e4, -, e6⟩ := dropReservation_frame s
  unfold maskedWrite
  dsimp only
  rw [e3, hs, if_pos rfl, e1, e2, e4, loadWord_storeWord _ _ _ _ _ (not_device h).1]
  simp only [e6]

/-- A cancelled store leaves the word memory as it was (away from device registers). -/
theorem storeData_off (now : BitVec 64) (s : State) (h : ¬ Device s.storeAddr) (hs : s.store = false) (b : BitVec 32) :
    loadWord (storeData now s) b = loadWord s b := by
  rw [storeData_plain now s h]
  show loadWord (maskedWrite now (dropReservation s)) b = _
  obtain ⟨-, -, e3, -, -, e6⟩ := dropReservation_frame s
  unfold maskedWrite
  dsimp only
  rw [e3, hs]
  simp [e6]

/-- Byte-level effect of `store_data`. -/
theorem storeData_view (now : BitVec 64) (s : State) (sz : Size) (v : BitVec 32) (h : ¬ Device s.storeAddr)
    (hs : s.store = true) (ha : aligned sz s.storeAddr) (hstrb : s.storeStrb = strbOf sz)
    (hd : ∀ i, i < sz.bytes → byteOf s.storeData i = byteOf v i) :
    view (storeData now s) = Spec.ByteMem.store (view s) sz s.storeAddr v := by
  have hal := align_cases sz _ ha
  funext a
  unfold view Spec.ByteMem.store
  rw [storeData_word now s h hs]
  have hlt : a.toNat % 4 < 4 := Nat.mod_lt _ (by decide)
  by_cases hw : wordOf a = wordOf s.storeAddr
  · rw [if_pos hw, hstrb, off_toNat, merge_byte sz _ v _ _ _ hal hlt hd]
    by_cases hr : s.storeAddr.toNat % 4 ≤ a.toNat % 4 ∧ a.toNat % 4 < s.storeAddr.toNat % 4 + sz.bytes
    · rw [if_pos hr, if_pos ((in_range_iff a _ _ hal).mpr ⟨hw, hr⟩), sub_toNat a _ hw hr.1]
    · rw [if_neg hr, if_neg (fun x => hr ((in_range_iff a _ _ hal).mp x).2), ← loadWord_congr s hw]
  · rw [if_neg hw, if_neg (fun x => hw ((in_range_iff a _ _ hal).mp x).1)]

/-- **C33 (reference model, stores).**  A store of any size at any aligned address that is not a device
register turns the memory a program can read into the one with exactly the named bytes replaced. -/
theorem C33_ref_store (now : BitVec 64) (s : State) (sz : Size) (p v : BitVec 32) (ha : aligned sz p)
    (hd : ¬ Device p) :
    ∃ s', storeInst now s sz.code p v = some s' ∧ view s' = Spec.ByteMem.store (view s) sz p v := by
  have hal : p &&& alignMask sz.code = 0#32 := (alignMask_iff sz p sz.code (by cases sz <;> rfl)).mpr ha
  unfold storeInst
  rw [if_neg (by simp [hal])]
  refine ⟨_, rfl, ?_⟩
  let d := if sz.code = 0#3 then v &&& 0xFF#32 else if sz.code = 1#3 then v &&& 0xFFFF#32 else v
  let w := if sz.code = 0#3 then 1#32 else if sz.code = 1#3 then 3#32 else 15#32
  let t : State := { begin s with store := true, storeAddr := p, storeData := d, storeStrb := w }
  have key := storeData_view now t sz v hd rfl ha
      (by cases sz <;> rfl)
      (by
        intro i hi
        cases sz
        · have : i = 0 := by simp only [Size.bytes] at hi; omega
          subst this; exact byteOf_ff v
        · exact byteOf_ffff v i hi
        · rfl)
  exact key

/-- A misaligned store stops the simulation. -/
theorem C33_ref_store_misaligned (now : BitVec 64) (s : State) (sz : Size) (p v : BitVec 32) :
    storeInst now s sz.code p v = none ↔ ¬ aligned sz p := by
  have hal := alignMask_iff sz p sz.code (by cases sz <;> rfl)
  unfold storeInst
  by_cases h : p &&& alignMask sz.code = 0#32
  · simp [h, hal.mp h]
  · simp only [h, ne_eq, not_false_eq_true, if_true, true_iff]
    exact fun x => h (hal.mpr x)

/-- **C33 (reference model, loads).**  A load of any size at any aligned address that is not a timer
register returns the named bytes, sign- or zero-extended. -/
theorem C33_ref_load (now : BitVec 64) (s : State) (sz : Size) (sg : Bool) (f3 : BitVec 3)
    (hf : loadCode sz sg = some f3) (p : BitVec 32) (ha : aligned sz p) (hd : ¬ Device p) :
    RefMem.load now s f3 p = some (Spec.ByteMem.load (view s) sz sg p) := by
  have hlow : f3 &&& 3#3 = sz.code := by cases sz <;> cases sg <;> simp [loadCode] at hf <;> subst hf <;> rfl
  have hal : p &&& alignMask f3 = 0#32 := (alignMask_iff sz p f3 hlow).mpr ha
  have hb := align_cases sz p ha
  rw [spec_load_eq (view s) sz sg p (loadWord s p) ha (fun i hi => view_add s p i (by omega))]
  have hnt : p ≠ timerLow ∧ p ≠ timerHigh ∧ p ≠ timerCmpLow ∧ p ≠ timerCmpHigh := by
    refine ⟨?_, ?_, ?_, ?_⟩ <;> (rintro rfl; exact hd (by decide))
  have hw : loadWord s (p &&& ~~~3#32) = loadWord s p := loadWord_congr s (wordOf_idem p)
  unfold RefMem.load
  rw [if_neg (by simp [hal])]
  dsimp only
  rw [if_neg hnt.1, if_neg hnt.2.1, if_neg hnt.2.2.1, if_neg hnt.2.2.2, hw, off_toNat, hlow]
  have hsel := select_low (loadWord s ((p &&& ~~~3#32) + 4#32)) (loadWord s p) (p.toNat % 4) sz.bytes
    (by cases sz <;> simp [Size.bytes]) hb
  generalize hD : ((((loadWord s ((p &&& ~~~3#32) + 4#32)).setWidth 64 <<< 32) ||| (loadWord s p).setWidth 64 :
    BitVec 64) >>> (p.toNat % 4 * 8)).setWidth 32 = D at hsel ⊢
  rw [← hsel]
  cases sz <;> cases sg <;> simp [loadCode] at hf <;> subst hf
  · exact congrArg some (and_ff D)
  · exact congrArg some (ext_byte D)
  · exact congrArg some (and_ffff D)
  · exact congrArg some (ext_half D)
  · refine congrArg some ?_
    show (D &&& 0xFFFFFFFF#32) ||| 0#32 = (BitVec.ofNat 32 (D.toNat % 2 ^ 32)).signExtend 32
    rw [and_all, BitVec.or_zero, BitVec.signExtend_eq_setWidth_of_le _ (by decide)]
    apply BitVec.eq_of_toNat_eq
    have := D.isLt
    rw [BitVec.toNat_setWidth, BitVec.toNat_ofNat]
    omega

/-- A misaligned load stops the simulation. -/
theorem C33_ref_load_misaligned (now : BitVec 64) (s : State) (sz : Size) (sg : Bool) (f3 : BitVec 3)
    (hf : loadCode sz sg = some f3) (p : BitVec 32) : RefMem.load now s f3 p = none ↔ ¬ aligned sz p := by
  have hlow : f3 &&& 3#3 = sz.code := by cases sz <;> cases sg <;> simp [loadCode] at hf <;> subst hf <;> rfl
  have hal := alignMask_iff sz p f3 hlow
  unfold RefMem.load
  by_cases h : p &&& alignMask f3 = 0#32
  · simp [h, hal.mp h]
  · simp only [h, ne_eq, not_false_eq_true, if_true, true_iff]
    exact fun x => h (hal.mpr x)

/-- Bytes just stored, read back. -/
theorem store_value (m : Mem) (sz : Size) (p v : BitVec 32) :
    ∀ n, n ≤ sz.bytes → value (Spec.ByteMem.store m sz p v) p n = v.toNat % 256 ^ n := by
  intro n hn
  have h4 : sz.bytes ≤ 4 := by cases sz <;> decide
  induction n with
  | zero => simp [value, Nat.mod_one]
  | succ n ih =>
    have e : (p + BitVec.ofNat 32 n - p).toNat = n := by
      rw [BitVec.add_comm, BitVec.add_sub_cancel, BitVec.toNat_ofNat]
      omega
    rw [value, ih (by omega), Spec.ByteMem.store, e, if_pos (by omega), byteOf_toNat, Nat.pow_succ, Nat.mod_mul,
      Nat.mul_comm]

/-- **C33 (round trip).**  A load of the same size and address directly after a store returns the stored
bytes, extended as the load says. -/
theorem C33_round_trip (now now' : BitVec 64) (s : State) (sz : Size) (sg : Bool) (f3 : BitVec 3)
    (hf : loadCode sz sg = some f3) (p v : BitVec 32) (ha : aligned sz p) (hd : ¬ Device p) :
    (storeInst now s sz.code p v).bind (fun s' => RefMem.load now' s' f3 p) =
      some (match sz, sg with
        | .byte, true => (v.setWidth 8).signExtend 32
        | .byte, false => (v.setWidth 8).setWidth 32
        | .half, true => (v.setWidth 16).signExtend 32
        | .half, false => (v.setWidth 16).setWidth 32
        | .word, _ => v) := by
  obtain ⟨s', h1, h2⟩ := C33_ref_store now s sz p v ha hd
  rw [h1]
  show RefMem.load now' s' f3 p = _
  rw [C33_ref_load now' s' sz sg f3 hf p ha hd, h2]
  congr 1
  unfold Spec.ByteMem.load
  rw [store_value _ _ _ _ _ (Nat.le_refl _)]
  cases sz <;> cases sg <;> simp [loadCode] at hf <;> simp only [Size.bytes]
  · apply BitVec.eq_of_toNat_eq; simp
  · simp only [if_true]; congr 1; apply BitVec.eq_of_toNat_eq; simp
  · apply BitVec.eq_of_toNat_eq; simp
  · simp only [if_true]; congr 1; apply BitVec.eq_of_toNat_eq; simp
  · simp only [if_true]; rw [BitVec.signExtend_eq_setWidth_of_le _ (by decide)]; apply BitVec.eq_of_toNat_eq; simp; exact v.isLt

/-! ## The core's byte lanes -/

theorem word_base (p : BitVec 32) (i : Nat) :
    p + BitVec.ofNat 32 i = (p - BitVec.ofNat 32 (p.toNat % 4)) + BitVec.ofNat 32 (p.toNat % 4 + i) := by
  rw [BitVec.ofNat_add, ← BitVec.add_assoc, BitVec.sub_add_cancel]

theorem value_byte (m : Mem) (q : BitVec 32) (j : Nat) (hj : j < 4) :
    m (q + BitVec.ofNat 32 j) = byteOf (BitVec.ofNat 32 (value m q 4)) j := by
  apply BitVec.eq_of_toNat_eq
  rw [byteOf_toNat, BitVec.toNat_ofNat]
  simp only [value]
  have a0 := (m (q + BitVec.ofNat 32 0)).isLt
  have a1 := (m (q + BitVec.ofNat 32 1)).isLt
  have a2 := (m (q + BitVec.ofNat 32 2)).isLt
  have a3 := (m (q + BitVec.ofNat 32 3)).isLt
  have : j = 0 ∨ j = 1 ∨ j = 2 ∨ j = 3 := by omega
  rcases this with rfl | rfl | rfl | rfl <;> omega

theorem word_byte (m : Mem) (p : BitVec 32) (i : Nat) (hi : p.toNat % 4 + i < 4) :
    m (p + BitVec.ofNat 32 i) = byteOf (word m p) (p.toNat % 4 + i) := by
  rw [word_base, value_byte m _ _ hi]
  rfl

theorem mask_one : Lane.maskForWidth 1 = 0xFF#32 := by decide
theorem mask_two : Lane.maskForWidth 2 = 0xFFFF#32 := by decide
theorem mask_four : Lane.maskForWidth 4 = 0xFFFFFFFF#32 := by decide
theorem sign_one : (1#32 <<< (1 * 8 - 1)) = 0x80#32 := by decide
theorem sign_two : (1#32 <<< (2 * 8 - 1)) = 0x8000#32 := by decide
theorem not_ff : ~~~0xFF#32 = 0xFFFFFF00#32 := by decide
theorem not_ffff : ~~~0xFFFF#32 = 0xFFFF0000#32 := by decide
theorem width_code : Lane.memWidth 0#3 = 1 ∧ Lane.memWidth 1#3 = 2 ∧ Lane.memWidth 2#3 = 4 ∧ Lane.memWidth 4#3 = 1 ∧
    Lane.memWidth 5#3 = 2 := by decide
theorem ff_80 : 0xFF#32 &&& 0x80#32 = 0x80#32 := by decide
theorem ffff_8000 : 0xFFFF#32 &&& 0x8000#32 = 0x8000#32 := by decide

theorem extract_signed_byte (raw p : BitVec 32) : Lane.extractData raw p 0#3 =
    (raw >>> ((p &&& 3#32).toNat * 8) &&& 0xFF#32) |||
      (if raw >>> ((p &&& 3#32).toNat * 8) &&& 0x80#32 ≠ 0#32 then 0xFFFFFF00#32 else 0#32) := by
  unfold Lane.extractData
  simp only [width_code, mask_one, sign_one, not_ff, BitVec.and_assoc, ff_80]
  rw [if_pos (by decide)]
  split
  · rfl
  · rw [BitVec.or_zero]

theorem extract_signed_half (raw p : BitVec 32) : Lane.extractData raw p 1#3 =
    (raw >>> ((p &&& 3#32).toNat * 8) &&& 0xFFFF#32) |||
      (if raw >>> ((p &&& 3#32).toNat * 8) &&& 0x8000#32 ≠ 0#32 then 0xFFFF0000#32 else 0#32) := by
  unfold Lane.extractData
  simp only [width_code, mask_two, sign_two, not_ffff, BitVec.and_assoc, ffff_8000]
  rw [if_pos (by decide)]
  split
  · rfl
  · rw [BitVec.or_zero]

theorem extract_word (raw p : BitVec 32) : Lane.extractData raw p 2#3 = raw >>> ((p &&& 3#32).toNat * 8) := by
  unfold Lane.extractData
  simp only [width_code, mask_four, and_all]
  rw [if_neg (by decide)]

theorem extract_byte (raw p : BitVec 32) : Lane.extractData raw p 4#3 = raw >>> ((p &&& 3#32).toNat * 8) &&& 0xFF#32 := by
  unfold Lane.extractData
  simp only [width_code, mask_one]
  rw [if_neg (by decide)]

theorem extract_half (raw p : BitVec 32) : Lane.extractData raw p 5#3 = raw >>> ((p &&& 3#32).toNat * 8) &&& 0xFFFF#32 := by
  unfold Lane.extractData
  simp only [width_code, mask_two]
  rw [if_neg (by decide)]

/-- **C33 (core, loads).**  The value the load unit extracts from the memory word around the address is
the named bytes, sign- or zero-extended. -/
theorem C33_core_load (m : Mem) (sz : Size) (sg : Bool) (f3 : BitVec 3) (hf : loadCode sz sg = some f3)
    (p : BitVec 32) (ha : aligned sz p) :
    Lane.extractData (word m p) p f3 = Spec.ByteMem.load m sz sg p := by
  have hb := align_cases sz p ha
  have hp := p.isLt
  have hw := word_byte m p
  rw [spec_load_eq m sz sg p (word m p) ha (fun i hi => hw i (by omega)), low_eq]
  have e32 : ∀ D : BitVec 32, D = (BitVec.ofNat 32 (D.toNat % 2 ^ 32)).signExtend 32 := by
    intro D
    rw [BitVec.signExtend_eq_setWidth_of_le _ (by decide)]
    apply BitVec.eq_of_toNat_eq
    have := D.isLt
    rw [BitVec.toNat_setWidth, BitVec.toNat_ofNat]
    omega
  cases sz <;> cases sg <;> simp [loadCode] at hf <;> subst hf
  · rw [extract_byte, off_toNat, and_ff]; rfl
  · rw [extract_signed_byte, off_toNat, ext_byte]; rfl
  · rw [extract_half, off_toNat, and_ffff]; rfl
  · rw [extract_signed_half, off_toNat, ext_half]; rfl
  · rw [extract_word, off_toNat, if_pos rfl]
    exact e32 _

/-- **C33 (core, stores).**  Replacing, in the memory word around the address, the lanes the strobe selects
by the lanes of the aligned data changes exactly the named bytes. -/
theorem C33_core_store (m : Mem) (sz : Size) (p v : BitVec 32) (ha : aligned sz p) (a : BitVec 32) :
    (if a.toNat / 4 = p.toNat / 4 ∧ (Lane.storeStrb p sz.code).getLsbD (a.toNat % 4) = true
      then byteOf (Lane.alignStoreData v p sz.code) (a.toNat % 4) else m a) =
      Spec.ByteMem.store m sz p v a := by
  have hal := align_cases sz p ha
  have hlt : a.toNat % 4 < 4 := Nat.mod_lt _ (by decide)
  have hplt : p.toNat % 4 < 4 := Nat.mod_lt _ (by decide)
  have hw : a.toNat / 4 = p.toNat / 4 ↔ wordOf a = wordOf p := by
    constructor
    · intro h; apply BitVec.eq_of_toNat_eq; simp only [wordOf_toNat, h]
    · intro h; have := congrArg BitVec.toNat h; simp only [wordOf_toNat] at this; omega
  have hs : (Lane.storeStrb p sz.code).getLsbD (a.toNat % 4) =
      decide (p.toNat % 4 ≤ a.toNat % 4 ∧ a.toNat % 4 < p.toNat % 4 + sz.bytes) := by
    have key : ∀ (o j : Fin 4), ∀ sz ∈ [Size.byte, Size.half, Size.word], o.val + sz.bytes ≤ 4 →
        (if sz.code &&& 3#3 = 0#3 then 1#8 <<< o.val else if sz.code &&& 3#3 = 1#3 then 3#8 <<< o.val
          else if sz.code &&& 3#3 = 2#3 then 15#8 else 0#8 : BitVec 8).getLsbD j.val =
          decide (o.val ≤ j.val ∧ j.val < o.val + sz.bytes) := by decide
    unfold Lane.storeStrb
    dsimp only
    rw [off_toNat]
    exact key ⟨_, hplt⟩ ⟨_, hlt⟩ sz (by cases sz <;> simp) hal
  have hd : ∀ j, p.toNat % 4 ≤ j → j < p.toNat % 4 + sz.bytes →
      byteOf (Lane.alignStoreData v p sz.code) j = byteOf v (j - p.toNat % 4) := by
    intro j h1 h2
    unfold Lane.alignStoreData
    dsimp only
    rw [off_toNat]
    cases sz <;> simp only [Size.bytes] at *
    · show byteOf ((v &&& 0xFF#32) <<< (p.toNat % 4 * 8)) j = _
      rw [byteOf_shl _ _ _ (by omega) h1]
      have : j - p.toNat % 4 = 0 := by omega
      rw [this, byteOf_ff]
    · show byteOf ((v &&& 0xFFFF#32) <<< (p.toNat % 4 * 8)) j = _
      rw [byteOf_shl _ _ _ (by omega) h1, byteOf_ffff _ _ (by omega)]
    · show byteOf v j = _
      have : p.toNat % 4 = 0 := by omega
      rw [this]; rfl
  simp only [hs, hw, decide_eq_true_eq]
  unfold Spec.ByteMem.store
  by_cases hr : (a - p).toNat < sz.bytes
  · have h3 := (in_range_iff a p _ hal).mp hr
    rw [if_pos ⟨h3.1, h3.2⟩, if_pos hr, hd _ h3.2.1 h3.2.2, sub_toNat a p h3.1 h3.2.1]
  · rw [if_neg hr, if_neg (fun h => hr ((in_range_iff a p _ hal).mpr ⟨h.1, h.2⟩))]

/-! ## Atomics -/

/-- The nine read-modify-write instructions. -/
inductive AmoOp
  | add | swap | xor | or | and | min | max | minu | maxu
  deriving DecidableEq, Repr

/-- `funct5`, RISC-V manual. -/
def AmoOp.code : AmoOp → BitVec 5
  | .add => 0b00000#5
  | .swap => 0b00001#5
  | .xor => 0b00100#5
  | .or => 0b01000#5
  | .and => 0b01100#5
  | .min => 0b10000#5
  | .max => 0b10100#5
  | .minu => 0b11000#5
  | .maxu => 0b11100#5

/-- The value written to memory, from the manual. -/
def AmoOp.result (op : AmoOp) (old v : BitVec 32) : BitVec 32 :=
  match op with
  | .add => old + v
  | .swap => v
  | .xor => old ^^^ v
  | .or => old ||| v
  | .and => old &&& v
  | .min => BitVec.ofInt 32 (Min.min old.toInt v.toInt)
  | .max => BitVec.ofInt 32 (Max.max old.toInt v.toInt)
  | .minu => BitVec.ofNat 32 (Min.min old.toNat v.toNat)
  | .maxu => BitVec.ofNat 32 (Max.max old.toNat v.toNat)

theorem loadWord_view (s : State) (p : BitVec 32) (h : p.toNat % 4 = 0) :
    loadWord s p = Spec.ByteMem.load (view s) .word false p := by
  have ha : aligned .word p := h
  rw [spec_load_eq (view s) .word false p (loadWord s p) ha (fun i hi => view_add s p i (by
    simp only [Size.bytes] at hi; omega))]
  apply BitVec.eq_of_toNat_eq
  have := (loadWord s p).isLt
  simp only [Size.bytes, h]
  simp
  omega

theorem min_signed (a b : BitVec 32) : (if b.slt a then b else a) = BitVec.ofInt 32 (Min.min a.toInt b.toInt) := by
  rw [BitVec.slt_eq_decide]
  by_cases h : b.toInt < a.toInt
  · rw [if_pos (by simpa using h), Int.min_eq_right (by omega), BitVec.ofInt_toInt]
  · rw [if_neg (by simpa using h), Int.min_eq_left (by omega), BitVec.ofInt_toInt]

theorem max_signed (a b : BitVec 32) : (if b.slt a then a else b) = BitVec.ofInt 32 (Max.max a.toInt b.toInt) := by
  rw [BitVec.slt_eq_decide]
  by_cases h : b.toInt < a.toInt
  · rw [if_pos (by simpa using h), Int.max_eq_left (by omega), BitVec.ofInt_toInt]
  · rw [if_neg (by simpa using h), Int.max_eq_right (by omega), BitVec.ofInt_toInt]

theorem min_unsigned (a b : BitVec 32) : (if a.ult b then a else b) = BitVec.ofNat 32 (Min.min a.toNat b.toNat) := by
  rw [BitVec.ult_eq_decide]
  by_cases h : a.toNat < b.toNat
  · rw [if_pos (by simpa using h), Nat.min_eq_left (by omega)]; simp
  · rw [if_neg (by simpa using h), Nat.min_eq_right (by omega)]; simp

theorem max_unsigned (a b : BitVec 32) : (if b.ult a then a else b) = BitVec.ofNat 32 (Max.max a.toNat b.toNat) := by
  rw [BitVec.ult_eq_decide]
  by_cases h : b.toNat < a.toNat
  · rw [if_pos (by simpa using h), Nat.max_eq_left (by omega)]; simp
  · rw [if_neg (by simpa using h), Nat.max_eq_right (by omega)]; simp

/-- The nine read-modify-write instructions of the model, in one formula. -/
theorem amo_rmw (now : BitVec 64) (s : State) (op : AmoOp) (p v : BitVec 32) (h4 : p.toNat % 4 = 0) :
    amo now s op.code p v = some (some (loadWord s p),
      storeData now { begin s with store := true, storeAddr := p, storeStrb := 15#32,
                                   storeData := op.result (loadWord s p) v }) := by
  unfold amo
  rw [if_neg (by omega)]
  cases op
  · rfl
  · rfl
  · rfl
  · rfl
  · rfl
  · simp only [AmoOp.result, ← min_signed]; rfl
  · simp only [AmoOp.result, ← max_signed]; rfl
  · simp only [AmoOp.result, ← min_unsigned]; rfl
  · simp only [AmoOp.result, ← max_unsigned]; rfl

/-- **C50.**  A read-modify-write instruction at any aligned address that is not a device register returns
the word that was there, replaces it by the result the manual defines and changes no other byte. -/
theorem C50_amo (now : BitVec 64) (s : State) (op : AmoOp) (p v : BitVec 32) (ha : aligned .word p)
    (hd : ¬ Device p) :
    ∃ s', amo now s op.code p v = some (some (Spec.ByteMem.load (view s) .word false p), s') ∧
      view s' = Spec.ByteMem.store (view s) .word p (op.result (Spec.ByteMem.load (view s) .word false p) v) := by
  have h4 : p.toNat % 4 = 0 := ha
  rw [← loadWord_view s p h4, amo_rmw now s op p v h4]
  refine ⟨_, rfl, ?_⟩
  let t : State := { begin s with store := true, storeAddr := p, storeStrb := 15#32, storeData := op.result (loadWord s p) v }
  exact storeData_view now t .word (op.result (loadWord s p) v) hd rfl ha rfl (fun _ _ => rfl)

/-- A misaligned atomic stops the simulation. -/
theorem C50_misaligned (now : BitVec 64) (s : State) (f5 : BitVec 5) (p v : BitVec 32) :
    amo now s f5 p v = none ↔ ¬ aligned .word p := by
  unfold amo
  show _ ↔ ¬ p.toNat % 4 = 0
  by_cases h : p.toNat % 4 ≠ 0
  · rw [if_pos h]; exact ⟨fun _ => h, fun _ => rfl⟩
  · rw [if_neg h]; exact ⟨fun e => (by cases e), fun e => absurd e h⟩

/-! ## Reservations -/

/-- Memory instructions executed by the program (physical addresses). -/
inductive Op
  | load (f3 : BitVec 3) (p : BitVec 32)
  | store (sz : Size) (p v : BitVec 32)
  | rmw (op : AmoOp) (p v : BitVec 32)
  | lr (p : BitVec 32)
  | sc (p v : BitVec 32)

/-- One instruction of the reference model; `none`: the simulation stops. -/
def Op.exec (now : BitVec 64) (s : State) : Op → Option State
  | .load f3 p => (RefMem.load now s f3 p).map (fun _ => begin s)
  | .store sz p v => storeInst now s sz.code p v
  | .rmw op p v => (amo now s op.code p v).map (·.2)
  | .lr p => (amo now s 2#5 p 0#32).map (·.2)
  | .sc p v => (amo now s 3#5 p v).map (·.2)

/-- `Runs s0 h s`: executing the instructions `h` (newest first) from `s0` gives `s`. -/
inductive Runs (s0 : State) : List Op → State → Prop
  | nil : Runs s0 [] s0
  | cons {h s s'} (now : BitVec 64) (op : Op) : Runs s0 h s → op.exec now s = some s' → Runs s0 (op :: h) s'

/-- Does the instruction end a reservation of `p`?  Another load-reserved replaces it, every
store-conditional ends it, and so does a store or read-modify-write to that very address. -/
def Op.ends (p : BitVec 32) : Op → Prop
  | .load _ _ => False
  | .store _ q _ => q = p
  | .rmw _ q _ => q = p
  | .lr q => q ≠ p
  | .sc _ _ => True

/-- A reservation of `p` is held after `h`: some load-reserved of `p` was not followed by an instruction
that ends it. -/
def Live (p : BitVec 32) (h : List Op) : Prop :=
  ∃ newer older, h = newer ++ Op.lr p :: older ∧ ∀ op ∈ newer, ¬ op.ends p

theorem not_live_nil (p : BitVec 32) : ¬ Live p [] := by
  rintro ⟨n, o, h, -⟩
  cases n <;> simp at h

theorem live_cons (p : BitVec 32) (op : Op) (h : List Op) :
    Live p (op :: h) ↔ op = .lr p ∨ (¬ op.ends p ∧ Live p h) := by
  constructor
  · rintro ⟨n, o, e, hn⟩
    cases n with
    | nil => simp only [List.nil_append, List.cons.injEq] at e; exact .inl e.1
    | cons x n =>
      simp only [List.cons_append, List.cons.injEq] at e
      obtain ⟨rfl, rfl⟩ := e
      exact .inr ⟨hn _ (by simp), n, o, rfl, fun y hy => hn y (by simp [hy])⟩
  · rintro (rfl | ⟨h1, n, o, rfl, hn⟩)
    · exact ⟨[], h, rfl, by simp⟩
    · refine ⟨op :: n, o, rfl, ?_⟩
      intro y hy
      rcases List.mem_cons.mp hy with rfl | hy
      · exact h1
      · exact hn y hy

theorem storeData_res (now : BitVec 64) (s : State) :
    (storeData now s).resValid = (s.resValid && !(s.store && decide (s.resAddr = s.storeAddr))) ∧
    (storeData now s).resAddr = s.resAddr := by
  have h1 : ∀ t, (uartTx now t).resValid = t.resValid ∧ (uartTx now t).resAddr = t.resAddr := by
    intro t; unfold uartTx; dsimp only; split
    · have := storeWord_frame now t uartBase (loadWord t uartBase &&& 0xffffff00#32)
      exact ⟨this.2.2.1, this.2.2.2.1⟩
    · exact ⟨rfl, rfl⟩
  have h2 : ∀ t, (uartIer7 now t).resValid = t.resValid ∧ (uartIer7 now t).resAddr = t.resAddr := by
    intro t; unfold uartIer7; dsimp only; split
    · have a := storeWord_frame now t plicClaim 0xA#32
      have b := storeWord_frame now (storeWord now t plicClaim 0xA#32) uartBase
        (loadWord (storeWord now t plicClaim 0xA#32) uartBase &&& 0xfff0ffff#32)
      exact ⟨b.2.2.1.trans a.2.2.1, b.2.2.2.1.trans a.2.2.2.1⟩
    · exact ⟨rfl, rfl⟩
  have h3 : ∀ t, (uartIer5 now t).resValid = t.resValid ∧ (uartIer5 now t).resAddr = t.resAddr := by
    intro t; unfold uartIer5; split
    · have := storeWord_frame now t uartBase ((loadWord t uartBase &&& 0xfff0ffff#32) ||| 0x00030000#32)
      exact ⟨this.2.2.1, this.2.2.2.1⟩
    · exact ⟨rfl, rfl⟩
  have h4 : ∀ t, (plicDone now t).resValid = t.resValid ∧ (plicDone now t).resAddr = t.resAddr := by
    intro t; unfold plicDone; dsimp only; split
    · have := storeWord_frame now t plicClaim 0#32
      exact ⟨this.2.2.1, this.2.2.2.1⟩
    · exact ⟨rfl, rfl⟩
  have h5 : (dropReservation s).resValid = (s.resValid && !(s.store && decide (s.resAddr = s.storeAddr))) ∧
      (dropReservation s).resAddr = s.resAddr := by
    unfold dropReservation
    by_cases hd : s.resAddr = s.storeAddr <;> cases hs : s.store <;> cases hv : s.resValid <;> simp [hd, hv]
  have hm := maskedWrite_frame now (dropReservation s)
  unfold storeData shiftFields
  dsimp only
  constructor
  · rw [(h4 _).1, (h3 _).1, (h2 _).1, (h1 _).1, hm.2.2.1, h5.1]
  · rw [(h4 _).2, (h3 _).2, (h2 _).2, (h1 _).2, hm.2.2.2, h5.2]

/-- What the store-conditional returns. -/
theorem sc_cases (now : BitVec 64) (s : State) (p v : BitVec 32) (h4 : p.toNat % 4 = 0) :
    amo now s 3#5 p v =
      if s.resValid = true ∧ s.resAddr = p then
        some (some 0#32, storeData now { begin s with
          store := true, storeAddr := p, storeStrb := 15#32, storeData := v, resValid := false })
      else some (some 1#32, storeData now { begin s with
          store := false, storeAddr := p, storeStrb := 15#32, resValid := false }) := by
  unfold amo
  rw [if_neg (by omega)]
  by_cases h : s.resValid = true ∧ s.resAddr = p
  · rw [if_pos h]
    have : (s.resValid && decide (s.resAddr = p)) = true := by simp [h]
    simp [begin, this]
  · rw [if_neg h]
    have : (s.resValid && decide (s.resAddr = p)) = false := by
      cases hv : s.resValid <;> simp [hv] at h ⊢; exact h
    simp [begin, this]

theorem lr_eq (now : BitVec 64) (s : State) (p v : BitVec 32) (h4 : p.toNat % 4 = 0) :
    amo now s 2#5 p v = some (some (loadWord s p), storeData now { begin s with resValid := true, resAddr := p }) := by
  unfold amo
  rw [if_neg (by omega)]
  rfl

/-- The model's reservation registers say exactly which reservation is held. -/
theorem reservation_iff {s0 s : State} {h : List Op} (h0 : s0.resValid = false) (hr : Runs s0 h s) (p : BitVec 32) :
    (s.resValid = true ∧ s.resAddr = p) ↔ Live p h := by
  induction hr with
  | nil => simp [h0, not_live_nil]
  | @cons h s s' now op _ he ih =>
    rw [live_cons, ← ih]
    cases op with
    | load f3 q =>
      simp only [Op.exec, Option.map_eq_some_iff] at he
      obtain ⟨_, -, rfl⟩ := he
      simp [Op.ends, begin]
    | store sz q v =>
      simp only [Op.exec, storeInst] at he
      split at he
      · cases he
      · cases he
        rw [(storeData_res now _).1, (storeData_res now _).2]
        simp only [Op.ends, begin, Bool.true_and, Bool.and_eq_true, Bool.not_eq_true',
          reduceCtorEq, false_or]
        constructor
        · rintro ⟨⟨h1, h2⟩, rfl⟩; exact ⟨fun e => of_decide_eq_false h2 e.symm, h1, rfl⟩
        · rintro ⟨h1, h2, rfl⟩; exact ⟨⟨h2, decide_eq_false (fun e => h1 e.symm)⟩, rfl⟩
    | rmw o q v =>
      by_cases h4 : q.toNat % 4 = 0
      · rw [Op.exec, amo_rmw now s o q v h4] at he
        cases he
        rw [(storeData_res now _).1, (storeData_res now _).2]
        simp only [Op.ends, begin, Bool.true_and, Bool.and_eq_true, Bool.not_eq_true',
          reduceCtorEq, false_or]
        constructor
        · rintro ⟨⟨h1, h2⟩, rfl⟩; exact ⟨fun e => of_decide_eq_false h2 e.symm, h1, rfl⟩
        · rintro ⟨h1, h2, rfl⟩; exact ⟨⟨h2, decide_eq_false (fun e => h1 e.symm)⟩, rfl⟩
      · rw [Op.exec, (C50_misaligned now s o.code q v).mpr h4] at he; cases he
    | lr q =>
      by_cases h4 : q.toNat % 4 = 0
      · rw [Op.exec, lr_eq now s q _ h4] at he
        cases he
        rw [(storeData_res now _).1, (storeData_res now _).2]
        simp only [Op.ends, begin, Bool.false_and, Bool.not_false, Bool.and_true, true_and, Op.lr.injEq, ne_eq,
          Decidable.not_not]
        constructor
        · intro e; exact .inl e
        · rintro (e | ⟨e, -⟩) <;> exact e
      · rw [Op.exec, (C50_misaligned now s 2#5 q _).mpr h4] at he; cases he
    | sc q v =>
      by_cases h4 : q.toNat % 4 = 0
      · rw [Op.exec, sc_cases now s q _ h4] at he
        have hv : s'.resValid = false := by
          split at he
          · rw [Option.map_some, Option.some.injEq] at he
            rw [← he, (storeData_res now _).1, Bool.false_and]
          · rw [Option.map_some, Option.some.injEq] at he
            rw [← he, (storeData_res now _).1, Bool.false_and]
        simp [hv, Op.ends]
      · rw [Op.exec, (C50_misaligned now s 3#5 q _).mpr h4] at he; cases he

/-- **C34 (when).**  After every history of memory instructions, a store-conditional returns 0 exactly if a
reservation of the same address made by an earlier load-reserved is still held; otherwise it returns 1. -/
theorem C34_sc_iff {s0 s : State} {h : List Op} (h0 : s0.resValid = false) (hr : Runs s0 h s)
    (now : BitVec 64) (p v : BitVec 32) (ha : aligned .word p) :
    (Live p h → ∃ s', amo now s 3#5 p v = some (some 0#32, s')) ∧
    (¬ Live p h → ∃ s', amo now s 3#5 p v = some (some 1#32, s')) := by
  rw [← reservation_iff h0 hr, sc_cases now s p v ha]
  constructor
  · intro h; rw [if_pos h]; exact ⟨_, rfl⟩
  · intro h; rw [if_neg h]; exact ⟨_, rfl⟩

/-- **C34 (effect).**  A store-conditional that returns 0 replaces exactly the addressed word; one that
returns 1 leaves memory, timers, interrupt bits and console output unchanged (addresses that are not device
registers). -/
theorem C34_sc_effect (now : BitVec 64) (s s' : State) (p v r : BitVec 32) (ha : aligned .word p) (hd : ¬ Device p)
    (he : amo now s 3#5 p v = some (some r, s')) :
    (r = 0#32 ∧ view s' = Spec.ByteMem.store (view s) .word p v) ∨
    (r = 1#32 ∧ s'.ram = s.ram ∧ s'.io = s.io ∧ s'.timerOff = s.timerOff ∧ s'.timerCmp = s.timerCmp ∧
      s'.mip = s.mip ∧ s'.sip = s.sip ∧ s'.out = s.out) := by
  rw [sc_cases now s p v ha] at he
  split at he
  · cases he
    refine .inl ⟨rfl, ?_⟩
    let t : State := { begin s with store := true, storeAddr := p, storeStrb := 15#32, storeData := v, resValid := false }
    exact storeData_view now t .word v hd rfl ha rfl (fun _ _ => rfl)
  · cases he
    refine .inr ⟨rfl, ?_⟩
    rw [storeData_plain now _ hd]
    exact ⟨rfl, rfl, rfl, rfl, rfl, rfl, rfl⟩

/-- **C34 (end).**  After a store-conditional, whatever its result, no reservation is held: the next
store-conditional without a new load-reserved fails. -/
theorem C34_sc_ends {s0 s : State} {h : List Op} (h0 : s0.resValid = false) (p v q : BitVec 32)
    (newer : List Op) (hn : ∀ a, Op.lr a ∉ newer) (hr : Runs s0 (newer ++ Op.sc p v :: h) s)
    (now : BitVec 64) (w : BitVec 32) (ha : aligned .word q) :
    ∃ s', amo now s 3#5 q w = some (some 1#32, s') := by
  refine (C34_sc_iff h0 hr now q w ha).2 ?_
  clear hr
  induction newer with
  | nil =>
    rw [List.nil_append, live_cons]
    simp [Op.ends]
  | cons x n ih =>
    rw [List.cons_append, live_cons, not_or]
    refine ⟨fun e => hn q (by simp [e]), fun e => ?_⟩
    exact ih (fun a ha => hn a (by simp [ha])) e.2

/-- **C34 (load-reserved).**  A load-reserved returns the addressed word and leaves the memory unchanged,
provided the previous store of the run was not to a device register (see `C34_lr_repeats_output`). -/
theorem C34_lr (now : BitVec 64) (s : State) (p v : BitVec 32) (ha : aligned .word p) (hd : ¬ Device s.storeAddr) :
    ∃ s', amo now s 2#5 p v = some (some (Spec.ByteMem.load (view s) .word false p), s') ∧ view s' = view s := by
  have h4 : p.toNat % 4 = 0 := ha
  rw [lr_eq now s p v h4, ← loadWord_view s p h4]
  refine ⟨_, rfl, ?_⟩
  rw [storeData_plain now { begin s with resValid := true, resAddr := p } hd]
  rfl

/-! ## Concrete cases -/
namespace RefMemRun

/-- A machine with a few words in RAM and one I/O word. -/
def s0 : State :=
  { ram := fun i => if i = 4#32 then 0x89ABCDEF#32 else 0#32
    io := fun a => if a = 0x10000010#32 then some 0x1234#32 else none
    timerOff := 0#64, timerCmp := 0#64, mip := 0#32, sip := 0#32, out := []
    store := false, storeAddr := 0#32, storeData := 0#32, storeStrb := 0#32, resValid := false, resAddr := 0#32 }

/-- Run instructions, oldest first. -/
def run (s : State) : List Op → Option State
  | [] => some s
  | op :: ops => (op.exec 5#64 s).bind (fun s' => run s' ops)

theorem runs_of_run : ∀ (ops : List Op) (b : State) (h : List Op) (s : State), Runs b h s → ∀ s', run s ops = some s' →
    Runs b (ops.reverse ++ h) s' := by
  intro ops
  induction ops with
  | nil => intro b h s hr s' e; cases e; exact hr
  | cons op ops ih =>
    intro b h s hr s' e
    simp only [run, Option.bind_eq_some_iff] at e
    obtain ⟨t, h1, h2⟩ := e
    have := ih b (op :: h) t (Runs.cons 5#64 op hr h1) s' h2
    simpa using this

example : aligned .half 0x80000012#32 ∧ ¬ Device 0x80000012#32 ∧ loadCode .half true = some 1#3 := by decide
/-- The half word 0x7777 goes to bytes 2 and 3 of the word. -/
example : (storeInst 0#64 s0 1#3 0x80000012#32 0xABCD7777#32).map (fun s => loadWord s 0x80000010#32) = some 0x7777CDEF#32 := by
  decide +kernel
example : (storeInst 0#64 s0 0#3 0x80000011#32 0xFF#32).bind (fun s => RefMem.load 0#64 s 0#3 0x80000011#32) = some 0xFFFFFFFF#32 := by
  decide +kernel
example : RefMem.load 0#64 s0 1#3 0x80000012#32 = some 0xFFFF89AB#32 ∧ RefMem.load 0#64 s0 5#3 0x80000012#32 = some 0x89AB#32 ∧
    RefMem.load 0#64 s0 1#3 0x80000013#32 = none := by decide +kernel
example : Lane.extractData 0x89ABCDEF#32 0x80000012#32 1#3 = 0xFFFF89AB#32 ∧ Lane.storeStrb 0x80000012#32 1#3 = 0b1100#8 ∧
    Lane.alignStoreData 0x12345678#32 0x80000012#32 1#3 = 0x56780000#32 := by decide
example : (amo 0#64 s0 AmoOp.min.code 0x80000010#32 5#32).map (fun r => (r.1, loadWord r.2 0x80000010#32)) =
    some (some 0x89ABCDEF#32, 0x89ABCDEF#32) := by decide +kernel
example : (amo 0#64 s0 AmoOp.minu.code 0x80000010#32 5#32).map (fun r => (r.1, loadWord r.2 0x80000010#32)) =
    some (some 0x89ABCDEF#32, 5#32) := by decide +kernel

/-- A history that holds a reservation: load-reserved, then a store elsewhere and a load. -/
def held : List Op := [.lr 0x80000010#32, .store .word 0x80000020#32 1#32, .load 2#3 0x80000010#32]
example : s0.resValid = false ∧ (run s0 held).isSome = true := by decide +kernel
example : Live 0x80000010#32 held.reverse :=
  ⟨[.load 2#3 0x80000010#32, .store .word 0x80000020#32 1#32], [], rfl, by simp [Op.ends]⟩
example : ((run s0 held).bind (fun s => amo 0#64 s 3#5 0x80000010#32 7#32)).map (fun r => (r.1, loadWord r.2 0x80000010#32)) =
    some (some 0#32, 7#32) := by decide +kernel
/-- A store to the reserved word ends the reservation. -/
example : ((run s0 (held ++ [.store .word 0x80000010#32 1#32])).bind (fun s => amo 0#64 s 3#5 0x80000010#32 7#32)).map
    (fun r => (r.1, loadWord r.2 0x80000010#32)) = some (some 1#32, 1#32) := by decide +kernel
/-- A second store-conditional fails. -/
example : ((run s0 (held ++ [.sc 0x80000010#32 1#32])).bind (fun s => amo 0#64 s 3#5 0x80000010#32 7#32)).map
    (fun r => (r.1, loadWord r.2 0x80000010#32)) = some (some 1#32, 1#32) := by decide +kernel

/-- **C34 (finding).**  A store that changes bytes of the reserved word, but at another byte address, does
not end the reservation: the store-conditional succeeds although the word changed under it. -/
theorem C34_partial_store_keeps_reservation :
    ∃ s, run s0 [.lr 0x80000010#32, .store .half 0x80000012#32 1#32] = some s ∧
      loadWord s 0x80000010#32 ≠ loadWord s0 0x80000010#32 ∧
      (amo 0#64 s 3#5 0x80000010#32 7#32).map (·.1) = some (some 0#32) := by
  refine ⟨((run s0 [.lr 0x80000010#32, .store .half 0x80000012#32 1#32]).getD s0), ?_, ?_, ?_⟩
  · cases h : run s0 [.lr 0x80000010#32, .store .half 0x80000012#32 1#32] with
    | some s => rfl
    | none =>
      have : (run s0 [.lr 0x80000010#32, .store .half 0x80000012#32 1#32]).isSome = true := by decide +kernel
      rw [h] at this; cases this
  · decide +kernel
  · decide +kernel

/-- **C34 (finding).**  A failing store-conditional to the UART data register still sends a character: the
device side effects do not look at whether the store happens. -/
theorem C34_failing_sc_sends_character :
    (amo 0#64 s0 3#5 0x10000000#32 0x41#32).map (fun r => (r.1, r.2.out)) = some (some 1#32, [0x00#8]) := by
  decide +kernel

/-- **C34 (finding).**  A load-reserved repeats the device side effects of the previous store: the character
sent by the store is sent again. -/
theorem C34_lr_repeats_output :
    (run s0 [.store .byte 0x10000000#32 0x41#32]).map (·.out) = some [0x41#8] ∧
    (run s0 [.store .byte 0x10000000#32 0x41#32, .lr 0x80000010#32]).map (·.out) = some [0x41#8, 0x41#8] := by
  decide +kernel

/-- **C33 (finding).**  A byte store to the timer-compare register clears the other three bytes of its low
half: the byte is merged with the I/O word of that address instead of with the register. -/
theorem C33_timer_byte_store :
    (run { s0 with timerCmp := 0xAABBCCDD#64 } [.store .byte 0x1fd0e008#32 0x7#32]).map (·.timerCmp) = some 0x7#64 := by
  decide +kernel

/-- `run` produces histories in the sense of `Runs`. -/
example : ∃ s, Runs s0 held.reverse s := by
  cases h : run s0 held with
  | some s => exact ⟨s, by simpa using runs_of_run held s0 [] s0 .nil s h⟩
  | none =>
    have : (run s0 held).isSome = true := by decide +kernel
    rw [h] at this; cases this

end RefMemRun

end Verif.Props

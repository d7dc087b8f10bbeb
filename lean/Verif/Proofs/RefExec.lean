import Verif.Proofs.RefTrap
/- The reference model's step from the fetch to the execution of the instruction. -/
namespace Verif.RefCpu.Proofs
open Verif.Csr Verif.Csr.Spec
open Verif.RefCpu.Spec

theorem fetch_word {F : Fp.SoftFloat} {e : Env} {s : State} {w : BitVec 32} (h : Fetches e s w)
    (hb : w ≠ INST_EBREAK) : exec F e s = riscv F e { clear s with inst := w } := by
  have hf : ∀ p, RefMem.loadWord s.mem p = w → fetched F e (clear s) p = riscv F e { clear s with inst := w } := by
    intro p hp
    have : RefMem.loadWord (clear s).mem p = w := hp
    simp only [fetched, this, if_neg hb]
  unfold exec
  dsimp only
  rcases h with ⟨h1, h2⟩ | ⟨h1, p, h2, h3⟩
  · rw [if_neg (by rw [show (clear s).ctx = s.ctx from rfl, h1]; decide)]
    exact hf _ h2
  · rw [if_pos (show RefMmu.fetchTranslation (clear s).ctx = true from h1),
      show (clear s).fix e (clear s).pc 0 = .ok p from h2]
    exact hf _ h3

theorem fetch_fault {F : Fp.SoftFloat} {e : Env} {s : State} (h : RefMmu.fetchTranslation s.ctx = true)
    (hf : s.fix e s.pc 0 = .fault) : exec F e s = some (exception s.pc { clear s with pfInst := true }) := by
  unfold exec
  dsimp only
  rw [if_pos (show RefMmu.fetchTranslation (clear s).ctx = true from h),
    show (clear s).fix e (clear s).pc 0 = .fault from hf]
  rfl

theorem on_bit7 (x : BitVec 32) : x ||| MTIP = x ↔ x.getLsbD 7 = true := by
  have hm : ∀ i < 32, MTIP.getLsbD i = decide (i = 7) := by decide
  constructor
  · intro h
    rw [← h, BitVec.getLsbD_or, hm 7 (by decide)]
    simp
  · intro h
    apply BitVec.eq_of_getLsbD_eq
    intro i hi
    rw [BitVec.getLsbD_or, hm i hi]
    by_cases h7 : i = 7
    · rw [h7, h]; simp
    · simp [h7]

theorem off_bit7 (x : BitVec 32) : x &&& ~~~MTIP = x ↔ x.getLsbD 7 = false := by
  have hm : ∀ i < 32, MTIP.getLsbD i = decide (i = 7) := by decide
  constructor
  · intro h
    rw [← h, BitVec.getLsbD_and, BitVec.getLsbD_not, hm 7 (by decide)]
    simp
  · intro h
    apply BitVec.eq_of_getLsbD_eq
    intro i hi
    rw [BitVec.getLsbD_and, BitVec.getLsbD_not, hm i hi]
    by_cases h7 : i = 7
    · rw [h7, h]; simp
    · simp [h7, hi]

theorem effMip_sync {e : Env} {s : State} (h : TimerSync e s) : effMip e s (s.file .mip) = s.file .mip := by
  unfold effMip RefMem.timerNow
  by_cases hd : s.mem.timerCmp.toNat ≤ (e.now + s.mem.timerOff).toNat
  · rw [if_pos hd]
    exact (on_bit7 _).2 (h.2 hd)
  · rw [if_neg hd]
    refine (off_bit7 _).2 ?_
    cases hb : (s.file .mip).getLsbD 7 with
    | false => rfl
    | true => exact absurd (h.1 hb) hd

theorem set_same (f : File) (r : Reg) : Csr.set f r (f r) = f := by
  funext q
  unfold Csr.set
  split
  · next h => rw [h]
  · rfl

theorem syncTimer_id {e : Env} {s : State} (h : TimerSync e s) (hv : s.file .sip = s.file .mip &&& sieMask) :
    syncTimer e s = s := by
  unfold syncTimer
  dsimp only
  rw [effMip_sync h, set_same, ← hv, set_same]

/-- `RISCV` once the interrupt registers are in step with the timer. -/
theorem riscv_sync {F : Fp.SoftFloat} {e : Env} {s : State} (h : TimerSync e s)
    (hv : s.file .sip = s.file .mip &&& sieMask) (h1 : s.pfInst = false) (h4 : s.illegal = false)
    (hw : s.inst ≠ INST_WFI) :
    riscv F e s = Option.map zero0
      (if asy { s with irq := evalIrq s } = true ∨ s.inst = INST_ECALL then
        some (exception 0#32 { s with irq := evalIrq s })
      else
        let t : State := { s with irq := evalIrq s }
        let op : BitVec 7 := s.inst.extractLsb' 0 7
        if op = 0x73#7 then some (csrInst e t)
        else if op = 0x2f#7 then amoInst e t
        else if op = 0x53#7 ∨ op = 0x43#7 ∨ op = 0x4b#7 ∨ op = 0x4f#7 ∨ op = 0x47#7 then some (fpInst F t)
        else if op = 0x03#7 then loadInst e t
        else if op = 0x23#7 then storeInst e t
        else (Ref.refIM s.inst ⟨s.gpr, s.pc⟩).map fun u => { t with gpr := u.gpr, pc := u.pc }) := by
  unfold riscv
  dsimp only
  rw [syncTimer_id h hv]
  rw [if_neg (fun hh => hw hh.1)]
  rw [if_neg (by rw [h1]; decide), if_neg (by rw [h4]; decide)]

theorem evalIrq_eq {c : Csr.State} {s : State} (h : Same c s) : evalIrq s = c.irq := by
  unfold evalIrq Csr.State.irq
  rw [h.file, h.priv]

theorem asy_quiet {s : State} (hq : s.irq = noIrq) (h1 : s.pfInst = false) (h4 : s.illegal = false)
    (he : s.inst ≠ INST_ECALL) (hm : s.inst ≠ INST_MRET) (hs : s.inst ≠ INST_SRET) : asy s = false := by
  simp [asy, hq, h1, h4, he, hm, hs]

theorem asy_irq {s : State} (h : s.irq.mAny = true ∨ s.irq.sAny = true) : asy s = true := by
  unfold asy
  simp only [Irq.mAny, Irq.sAny] at h
  cases hm : (s.irq.mSoft || s.irq.mTimer || s.irq.mExt) with
  | true => simp
  | false =>
    rw [hm] at h
    have h := h.resolve_left (by simp)
    simp [h]

theorem irq_none {c : Csr.State} (h : c.interruptReq = false) : c.irq = noIrq := by
  simp only [Csr.State.interruptReq, Bool.or_eq_false_iff] at h
  obtain ⟨⟨⟨⟨⟨h1, h2⟩, h3⟩, h4⟩, h5⟩, h6⟩ := h
  cases hc : c.irq
  rw [hc] at h1 h2 h3 h4 h5 h6
  simp_all

/-- The words with special meaning have the SYSTEM opcode and function code 0. -/
theorem not_special {w : BitVec 32} (h : w.extractLsb' 0 7 ≠ 0x73#7 ∨ w.extractLsb' 12 3 ≠ 0#3) :
    w ≠ INST_EBREAK ∧ w ≠ INST_ECALL ∧ w ≠ INST_MRET ∧ w ≠ INST_SRET ∧ w ≠ INST_WFI := by
  refine ⟨?_, ?_, ?_, ?_, ?_⟩ <;> rintro rfl <;> revert h <;> decide

theorem file_zero0 (s : State) : (zero0 s).file = s.file ∧ (zero0 s).priv = s.priv ∧ (zero0 s).pc = s.pc :=
  ⟨rfl, rfl, rfl⟩

theorem load_fault {e : Env} {t : State} {v : BitVec 32} (h1 : RefMmu.dataTranslation t.ctx = true)
    (hv : v = t.gpr (t.inst.extractLsb' 15 5).toNat + (Decode.immI t.inst).setWidth 32)
    (h2 : t.fix e v 1 = .fault) : loadInst e t = some (exception v { t with pfLoad := true }) := by
  unfold loadInst
  dsimp only
  rw [if_pos h1, ← hv, h2]

theorem store_fault {e : Env} {t : State} {v : BitVec 32} (h1 : RefMmu.dataTranslation t.ctx = true)
    (hv : v = t.gpr (t.inst.extractLsb' 15 5).toNat + (Decode.immS t.inst).setWidth 32)
    (h2 : t.fix e v 2 = .fault) : storeInst e t = some (exception v { t with pfStore := true }) := by
  unfold storeInst
  dsimp only
  rw [if_pos h1, ← hv, h2]

theorem lr_fault {e : Env} {t : State} (h1 : RefMmu.dataTranslation t.ctx = true)
    (h5 : t.inst.extractLsb' 27 5 = 2#5) (h2 : t.fix e (t.gpr (t.inst.extractLsb' 15 5).toNat) 1 = .fault) :
    amoInst e t = some (exception (t.gpr (t.inst.extractLsb' 15 5).toNat) { t with pfLoad := true }) := by
  unfold amoInst
  dsimp only
  rw [if_pos h1, if_pos h5, h2]

theorem sc_fault {e : Env} {t : State} (h1 : RefMmu.dataTranslation t.ctx = true)
    (h5 : t.inst.extractLsb' 27 5 = 3#5) (h2 : t.fix e (t.gpr (t.inst.extractLsb' 15 5).toNat) 2 = .fault) :
    amoInst e t = some (exception (t.gpr (t.inst.extractLsb' 15 5).toNat) { t with pfStore := true }) := by
  unfold amoInst
  dsimp only
  rw [if_pos h1, if_neg (by rw [h5]; decide), if_pos h5, h2]

end Verif.RefCpu.Proofs

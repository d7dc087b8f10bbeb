import Verif.Proofs.RefExec
import Verif.Proofs.Imm
import Verif.Props.Csr
/-
C81: the core and the reference model take exceptions, interrupts and returns alike.
-/
namespace Verif.Props
open Verif.Csr Verif.Csr.Spec
open Verif.RefCpu (Env exec exception zero0 clear)
open Verif.RefCpu.Spec
open Verif.RefCpu.Proofs

theorem immI_field (w : BitVec 32) : (Decode.immI w).setWidth 32 = (w.extractLsb' 20 12).signExtend 32 := by
  rw [ImmLemmas.immI_eq]; symm; apply AluLemmas.eq_ofBits; intro i hi
  rw [ImmLemmas.sx_bit _ i hi (by decide), Isa.immIBit, BitVec.getLsbD_extractLsb', BitVec.getLsbD_extractLsb']
  by_cases h1 : i ≤ 10
  · simp [h1, show i < 12 by omega]
  · by_cases h2 : i < 12
    · have : i = 11 := by omega
      subst this; simp
    · simp [h1, h2]

theorem immS_field (w : BitVec 32) :
    (Decode.immS w).setWidth 32 = (w.extractLsb' 25 7 ++ w.extractLsb' 7 5).signExtend 32 := by
  rw [ImmLemmas.immS_eq]; symm; apply AluLemmas.eq_ofBits; intro i hi
  rw [ImmLemmas.sx_bit _ i hi (by decide), Isa.immSBit, BitVec.getLsbD_append, BitVec.getLsbD_append,
    BitVec.getLsbD_extractLsb', BitVec.getLsbD_extractLsb', BitVec.getLsbD_extractLsb', BitVec.getLsbD_extractLsb']
  by_cases h0 : i ≤ 4
  · simp [h0, show i < 12 by omega, show i < 5 by omega]
  · by_cases h1 : i ≤ 10
    · simp [h0, h1, show i < 12 by omega, show ¬ i < 5 by omega, show i - 5 < 7 by omega]
    · by_cases h2 : i < 12
      · have : i = 11 := by omega
        subst this; simp
      · simp [h0, h1, h2]

/-- `exception` changes CSRs, privilege and pc only. -/
theorem exception_frame (v : BitVec 32) (t : RefCpu.State) : (exception v t).gpr = t.gpr ∧ (exception v t).mem = t.mem ∧
    (exception v t).inst = t.inst ∧ (exception v t).irq = t.irq := by
  unfold RefCpu.exception
  dsimp only
  repeat' split
  all_goals exact ⟨rfl, rfl, rfl, rfl⟩

theorem untouched_exception {s t : RefCpu.State} {v : BitVec 32} (hg : t.gpr = s.gpr) (hm : t.mem = { s.mem with store := false }) :
    Untouched s (zero0 (exception v t)) := by
  refine ⟨fun n => ?_, (exception_frame v t).2.1.trans hm⟩
  by_cases h : n = 0
  · exact Or.inr ⟨h, by subst h; rfl⟩
  · left
    show Ref.wr (exception v t).gpr 0 0#32 n = _
    rw [(exception_frame v t).1, hg]
    simp [Ref.wr, h]

/-- How the reference executes an instruction that raises an exception: it calls `exception` with the flag of the
exception set and nothing else pending. -/
theorem raises_exec {F : Fp.SoftFloat} {e : Env} {s : RefCpu.State} {x : Exc} {v : BitVec 32} (hx : Raises e s x v)
    (ht : TimerSync e s) (hv : s.file .sip = s.file .mip &&& sieMask) (hq : x = .pfInst → Quiet s) (hi : RefCpu.evalIrq s = noIrq) :
    ∃ t, (exec F e s = some (exception (x.value v) t) ∨ exec F e s = some (zero0 (exception (x.value v) t))) ∧
      t.file = s.file ∧ t.priv = s.priv ∧ t.pc = s.pc ∧ t.irq = noIrq ∧
      decide (t.inst = RefCpu.INST_ECALL) = (x == .ecall) ∧ t.pfInst = (x == .pfInst) ∧ t.pfLoad = (x == .pfLoad) ∧
      t.pfStore = (x == .pfStore) ∧ t.illegal = (x == .illegal) ∧
      (x ≠ .pfInst → t.inst ≠ RefCpu.INST_MRET ∧ t.inst ≠ RefCpu.INST_SRET) ∧ t.gpr = s.gpr ∧
      t.mem = { s.mem with store := false } := by
  have norm : ∀ w : BitVec 32, Fetches e s w →
      w.extractLsb' 0 7 ≠ 0x73#7 ∨ w.extractLsb' 12 3 ≠ 0#3 →
      exec F e s = Option.map zero0
        (let t : RefCpu.State := { clear s with inst := w, irq := noIrq }
         let op : BitVec 7 := w.extractLsb' 0 7
         if op = 0x73#7 then some (RefCpu.csrInst e t)
         else if op = 0x2f#7 then RefCpu.amoInst e t
         else if op = 0x53#7 ∨ op = 0x43#7 ∨ op = 0x4b#7 ∨ op = 0x4f#7 ∨ op = 0x47#7 then some (RefCpu.fpInst F t)
         else if op = 0x03#7 then RefCpu.loadInst e t
         else if op = 0x23#7 then RefCpu.storeInst e t
         else (Ref.refIM w ⟨s.gpr, s.pc⟩).map fun u => { t with gpr := u.gpr, pc := u.pc }) := by
    intro w hw hop
    obtain ⟨n1, n2, n3, n4, n5⟩ := not_special hop
    rw [fetch_word hw n1, riscv_sync (s := { clear s with inst := w }) ht hv rfl rfl n5]
    have he : RefCpu.evalIrq { clear s with inst := w } = noIrq := hi
    rw [he]
    rw [if_neg (show ¬ (RefCpu.asy { clear s with inst := w, irq := noIrq } = true ∨ w = RefCpu.INST_ECALL) by
      rintro (h | h)
      · rw [asy_quiet rfl rfl rfl n2 n3 n4] at h
        exact absurd h (by decide)
      · exact n2 h)]
    rfl
  cases hx with
  | ecall hw =>
    have d1 : RefCpu.INST_ECALL ≠ RefCpu.INST_MRET := by decide
    have d2 : RefCpu.INST_ECALL ≠ RefCpu.INST_SRET := by decide
    have d3 : RefCpu.INST_ECALL ≠ RefCpu.INST_WFI := by decide
    refine ⟨{ clear s with inst := RefCpu.INST_ECALL, irq := noIrq }, Or.inr ?_, rfl, rfl, rfl, rfl, rfl, rfl, rfl, rfl,
      rfl, (fun _ => ⟨d1, d2⟩), rfl, rfl⟩
    rw [fetch_word hw (by decide), riscv_sync (s := { clear s with inst := RefCpu.INST_ECALL }) ht hv rfl rfl d3]
    have he : RefCpu.evalIrq { clear s with inst := RefCpu.INST_ECALL } = noIrq := hi
    rw [he, if_pos (Or.inr rfl)]
    rfl
  | fetch h1 h2 =>
    refine ⟨{ clear s with pfInst := true }, Or.inl (fetch_fault h1 h2), rfl, rfl, rfl, (hq rfl).2, ?_, rfl, rfl, rfl, rfl,
      (fun h => absurd rfl h), rfl, rfl⟩
    exact decide_eq_false (hq rfl).1
  | load w hw hop hf =>
    have hop2 : w.extractLsb' 0 7 ≠ 0x73#7 := by rw [hop]; decide
    obtain ⟨n1, n2, n3, n4, n5⟩ := not_special (Or.inl hop2)
    refine ⟨{ clear s with inst := w, irq := noIrq, pfLoad := true }, Or.inr ?_, rfl, rfl, rfl, rfl, decide_eq_false n2,
      rfl, rfl, rfl, rfl, (fun _ => ⟨n3, n4⟩), rfl, rfl⟩
    rw [norm w hw (Or.inl hop2)]
    dsimp only
    rw [if_neg hop2, if_neg (by rw [hop]; decide), if_neg (by rw [hop]; decide), if_pos hop]
    rw [load_fault (t := { clear s with inst := w, irq := noIrq }) hf.1 (v := loadAddr s w)
      (by rw [immI_field]; rfl) hf.2]
    rfl
  | lr w hw hop h5 hf =>
    have hop2 : w.extractLsb' 0 7 ≠ 0x73#7 := by rw [hop]; decide
    obtain ⟨n1, n2, n3, n4, n5⟩ := not_special (Or.inl hop2)
    refine ⟨{ clear s with inst := w, irq := noIrq, pfLoad := true }, Or.inr ?_, rfl, rfl, rfl, rfl, decide_eq_false n2,
      rfl, rfl, rfl, rfl, (fun _ => ⟨n3, n4⟩), rfl, rfl⟩
    rw [norm w hw (Or.inl hop2)]
    dsimp only
    rw [if_neg hop2, if_pos hop]
    rw [lr_fault (t := { clear s with inst := w, irq := noIrq }) hf.1 h5 hf.2]
    rfl
  | store w hw hop hf =>
    have hop2 : w.extractLsb' 0 7 ≠ 0x73#7 := by rw [hop]; decide
    obtain ⟨n1, n2, n3, n4, n5⟩ := not_special (Or.inl hop2)
    refine ⟨{ clear s with inst := w, irq := noIrq, pfStore := true }, Or.inr ?_, rfl, rfl, rfl, rfl, decide_eq_false n2,
      rfl, rfl, rfl, rfl, (fun _ => ⟨n3, n4⟩), rfl, rfl⟩
    rw [norm w hw (Or.inl hop2)]
    dsimp only
    rw [if_neg hop2, if_neg (by rw [hop]; decide), if_neg (by rw [hop]; decide), if_neg (by rw [hop]; decide), if_pos hop]
    rw [store_fault (t := { clear s with inst := w, irq := noIrq }) hf.1 (v := storeAddr s w)
      (by rw [immS_field]; rfl) hf.2]
    rfl
  | sc w hw hop h5 hf =>
    have hop2 : w.extractLsb' 0 7 ≠ 0x73#7 := by rw [hop]; decide
    obtain ⟨n1, n2, n3, n4, n5⟩ := not_special (Or.inl hop2)
    refine ⟨{ clear s with inst := w, irq := noIrq, pfStore := true }, Or.inr ?_, rfl, rfl, rfl, rfl, decide_eq_false n2,
      rfl, rfl, rfl, rfl, (fun _ => ⟨n3, n4⟩), rfl, rfl⟩
    rw [norm w hw (Or.inl hop2)]
    dsimp only
    rw [if_neg hop2, if_pos hop]
    rw [sc_fault (t := { clear s with inst := w, irq := noIrq }) hf.1 h5 hf.2]
    rfl
  | time _ hw hop hf3 hn =>
    have hop3 : v.extractLsb' 12 3 ≠ 0#3 := by
      intro h
      apply hf3
      have : (v.extractLsb' 12 3).extractLsb' 0 2 = v.extractLsb' 12 2 := by
        ext i hi
        simp only [BitVec.getElem_extractLsb', BitVec.getLsbD_extractLsb', Nat.zero_add]
        simp [show i < 3 by omega]
      rw [← this, h]; rfl
    obtain ⟨n1, n2, n3, n4, n5⟩ := not_special (Or.inr hop3)
    refine ⟨{ clear s with inst := v, irq := noIrq, illegal := true }, Or.inr ?_, rfl, rfl, rfl, rfl, decide_eq_false n2,
      rfl, rfl, rfl, rfl, (fun _ => ⟨n3, n4⟩), rfl, rfl⟩
    rw [norm v hw (Or.inr hop3)]
    dsimp only
    rw [if_pos hop]
    unfold RefCpu.csrInst
    dsimp only
    rw [if_pos (by rcases hn with hn | hn <;> rw [hn] <;> decide)]
    rfl

/-- C81: the reference model takes the exceptions the core reports as the core does: the same CSRs, the same privilege
level, the same address to continue at; registers and memory are untouched.  Partial: not for trap vectors whose mode bits are not zero
(`C81_vectored_exception`), not if illegal instructions are delegated (`C81_illegal_delegated`), and not for a fetch that
faults right after an ECALL (`C81_stale_ecall`) or right after a recognised interrupt. -/
theorem C81_exception_partial {F : Fp.SoftFloat} {e : Env} {c : Csr.State} {s : RefCpu.State} {x : Exc} {v : BitVec 32}
    (hc : Csr.Spec.Reach c) (h : Same c s) (hp : c.priv = 0 ∨ c.priv = 1 ∨ c.priv = 3) (ht : TimerSync e s)
    (hi : c.interruptReq = false) (hx : Raises e s x v) (hq : x = .pfInst → Quiet s) (hv : Direct c.file)
    (hd : x = .illegal → (c.file .medeleg).getLsbD 2 = false) :
    ∃ s' c', exec F e s = some s' ∧ Csr.step idle (x.report s.pc v) noLines c = some c' ∧ Same c' s' ∧
      (Csr.exception c (x.report s.pc v)).2.2.trapPc = some s'.pc ∧ Untouched s s' := by
  have hsip : s.file .sip = s.file .mip &&& sieMask := by
    rw [h.file]; exact ((Csr.Proofs.inv_iff _).2 (C27_views_consistent hc)).ip
  obtain ⟨t, hex, tf, tp, tpc, tirq, te, t1, t2, t3, t4, tm, tg, tme⟩ :=
    raises_exec (F := F) hx ht hsip hq (by rw [evalIrq_eq h]; exact irq_none hi)
  -- the trap is taken
  have htrap : Csr.mTrap c (x.report s.pc v) = true ∨ Csr.sTrap c (x.report s.pc v) = true := by
    simp only [Csr.mTrap, Csr.sTrap]
    cases x <;> rcases hp with hp | hp | hp <;> simp [Exc.report, hp] <;>
      first
        | exact (Bool.eq_false_or_eq_true _).symm
        | (cases bit (c.file .medeleg) 8 <;> cases bit (c.file .medeleg) 9 <;> simp)
  have hag := exc_agree (c := c) (r := { x.report s.pc v with
      mret := decide (t.inst = RefCpu.INST_MRET), sret := decide (t.inst = RefCpu.INST_SRET) })
    (s := t) (tval := x.value v) (tf.trans h.file) (tp.trans h.priv) (irq_none hi) tirq te.symm t1.symm t2.symm t3.symm
    t4.symm
    (by
      intro hh
      have : x = .illegal := by cases x <;> simp [Exc.report] at hh ⊢
      rw [Csr.Proofs.bit_eq]
      exact hd this)
    tpc.symm rfl rfl
    (by cases x <;> rfl) hv
  -- the report's return flags do not matter once a trap is taken
  have hex2 : Csr.exception c { x.report s.pc v with
      mret := decide (t.inst = RefCpu.INST_MRET), sret := decide (t.inst = RefCpu.INST_SRET) } =
      Csr.exception c (x.report s.pc v) := by
    have e1 : Csr.mTrap c { x.report s.pc v with
      mret := decide (t.inst = RefCpu.INST_MRET), sret := decide (t.inst = RefCpu.INST_SRET) } =
        Csr.mTrap c (x.report s.pc v) := rfl
    have e2 : Csr.sTrap c { x.report s.pc v with
      mret := decide (t.inst = RefCpu.INST_MRET), sret := decide (t.inst = RefCpu.INST_SRET) } =
        Csr.sTrap c (x.report s.pc v) := rfl
    unfold Csr.exception
    dsimp only
    rw [e1, e2]
    rcases htrap with h1 | h1
    · rw [if_pos h1, if_pos h1]; rfl
    · by_cases h2 : Csr.mTrap c (x.report s.pc v) = true
      · rw [if_pos h2, if_pos h2]; rfl
      · rw [if_neg h2, if_neg h2, if_pos h1, if_pos h1]; rfl
  rw [hex2] at hag
  have hpc : ∀ pc, (Csr.exception c (x.report s.pc v)).2.2.trapPc = some (goesTo (Csr.exception c (x.report s.pc v)) pc) := by
    intro pc
    unfold Csr.exception
    dsimp only
    rcases htrap with h1 | h1
    · rw [if_pos h1]; rfl
    · by_cases h2 : Csr.mTrap c (x.report s.pc v) = true
      · rw [if_pos h2]; rfl
      · rw [if_neg h2, if_pos h1]; rfl
  have hstep := step_idle (r := x.report s.pc v) (by cases x <;> rfl) c
  rcases hex with hex | hex
  · refine ⟨_, _, hex, hstep, ⟨hag.1, hag.2.1⟩, ?_, ?_⟩
    · rw [hag.2.2]; exact hpc _
    · exact ⟨fun n => Or.inl (by rw [(exception_frame _ _).1, tg]), by rw [(exception_frame _ _).2.1, tme]⟩
  · refine ⟨_, _, hex, hstep, ⟨hag.1, hag.2.1⟩, ?_, ?_⟩
    · rw [(file_zero0 _).2.2, hag.2.2]; exact hpc _
    · exact untouched_exception tg tme

/-- C81: MRET and SRET. -/
theorem C81_return {F : Fp.SoftFloat} {e : Env} {c : Csr.State} {s : RefCpu.State} (hc : Csr.Spec.Reach c) (h : Same c s)
    (ht : TimerSync e s) (hi : c.interruptReq = false) :
    (Fetches e s 0x30200073#32 → ∃ s' c', exec F e s = some s' ∧ Csr.step idle (mretAt s.pc) noLines c = some c' ∧
      Same c' s' ∧ (Csr.exception c (mretAt s.pc)).2.2.epc = some s'.pc ∧ Untouched s s') ∧
    (Fetches e s 0x10200073#32 → ∃ s' c', exec F e s = some s' ∧ Csr.step idle (sretAt s.pc) noLines c = some c' ∧
      Same c' s' ∧ (Csr.exception c (sretAt s.pc)).2.2.epc = some s'.pc ∧ Untouched s s') := by
  have hsip : s.file .sip = s.file .mip &&& sieMask := by
    rw [h.file]; exact ((Csr.Proofs.inv_iff _).2 (C27_views_consistent hc)).ip
  have key : ∀ (w : BitVec 32), w = RefCpu.INST_MRET ∨ w = RefCpu.INST_SRET → Fetches e s w →
      exec F e s = some (zero0 (exception 0#32 { clear s with inst := w, irq := noIrq })) := by
    intro w hw hf
    have n1 : w ≠ RefCpu.INST_EBREAK := by rcases hw with rfl | rfl <;> decide
    have n5 : w ≠ RefCpu.INST_WFI := by rcases hw with rfl | rfl <;> decide
    rw [fetch_word hf n1, RefCpu.Proofs.riscv_sync (s := { clear s with inst := w }) ht hsip rfl rfl n5]
    have he : RefCpu.evalIrq { clear s with inst := w } = noIrq := by
      rw [← irq_none hi]; exact evalIrq_eq (s := { clear s with inst := w }) ⟨h.file, h.priv⟩
    rw [he, if_pos]
    · rfl
    · left
      rcases hw with rfl | rfl <;> simp [RefCpu.asy]
  have hq := irq_none hi
  have nt : ∀ w, w = RefCpu.INST_MRET ∨ w = RefCpu.INST_SRET →
      RefCpu.mTrap { clear s with inst := w, irq := noIrq } = false ∧
      RefCpu.sTrap { clear s with inst := w, irq := noIrq } = false := by
    intro w hw
    have n2 : w ≠ RefCpu.INST_ECALL := by rcases hw with rfl | rfl <;> decide
    constructor <;> simp [RefCpu.mTrap, RefCpu.sTrap, clear, n2]
  constructor
  · intro hf
    have hm : Csr.mTrap c (mretAt s.pc) = false := by simp [Csr.mTrap, mretAt]
    have hst : Csr.sTrap c (mretAt s.pc) = false := by simp [Csr.sTrap, mretAt]
    obtain ⟨r1, r2⟩ := nt _ (Or.inl rfl)
    refine ⟨_, _, key _ (Or.inl rfl) hf, step_idle rfl c, ?_⟩
    have hf' := h.file
    refine ⟨⟨?_, ?_⟩, ?_, untouched_exception rfl rfl⟩ <;>
      simp [Csr.exception, RefCpu.exception, hm, hst, r1, r2, zero0] <;> simp [clear, mretAt, hf']
  · intro hf
    have hm : Csr.mTrap c (sretAt s.pc) = false := by simp [Csr.mTrap, sretAt]
    have hst : Csr.sTrap c (sretAt s.pc) = false := by simp [Csr.sTrap, sretAt]
    obtain ⟨r1, r2⟩ := nt _ (Or.inr rfl)
    refine ⟨_, _, key _ (Or.inr rfl) hf, step_idle rfl c, ?_⟩
    have hf' := h.file
    refine ⟨⟨?_, ?_⟩, ?_, untouched_exception rfl rfl⟩ <;>
      simp [Csr.exception, RefCpu.exception, hm, hst, r1, r2, zero0,
        show (sretAt s.pc).mret = false from rfl, show (sretAt s.pc).sret = true from rfl,
        show RefCpu.INST_SRET ≠ RefCpu.INST_MRET from by decide] <;> simp [clear, hf']

/-- C81: an interrupt before an instruction `w`.  Partial: not if `w` is an ECALL (the reference then mixes the two,
`C81_interrupt_at_ecall`), and not for the reserved vector mode 2. -/
theorem C81_interrupt_partial {F : Fp.SoftFloat} {e : Env} {c : Csr.State} {s : RefCpu.State} {w v : BitVec 32}
    (hc : Csr.Spec.Reach c) (h : Same c s) (ht : TimerSync e s) (hi : c.interruptReq = true) (hw : Fetches e s w)
    (he : w ≠ 0x00000073#32) (hb : w ≠ 0x00100073#32) (hm : c.file .mtvec &&& 3#32 ≠ 2#32)
    (hs : c.file .stvec &&& 3#32 ≠ 2#32) :
    ∃ s' c', exec F e s = some s' ∧ Csr.step idle (interruptAt s.pc v) noLines c = some c' ∧ Same c' s' ∧
      (Csr.exception c (interruptAt s.pc v)).2.2.trapPc = some s'.pc ∧ Untouched s s' := by
  have hsip : s.file .sip = s.file .mip &&& sieMask := by
    rw [h.file]; exact ((Csr.Proofs.inv_iff _).2 (C27_views_consistent hc)).ip
  have hirq : RefCpu.evalIrq { clear s with inst := w } = c.irq :=
    evalIrq_eq (s := { clear s with inst := w }) ⟨h.file, h.priv⟩
  have hany : c.irq.mAny = true ∨ c.irq.sAny = true := by
    simp only [State.interruptReq, Irq.mAny, Irq.sAny] at *
    revert hi
    cases c.irq.mSoft <;> cases c.irq.mTimer <;> cases c.irq.mExt <;> simp
  have hasy : RefCpu.asy { clear s with inst := w, irq := c.irq } = true := asy_irq hany
  have hag := irq_agree (c := c) (s := { clear s with inst := w, irq := c.irq }) (v := v) h.file h.priv rfl hi he rfl rfl
    rfl rfl hm hs
  have hex : exec F e s = some (zero0 (exception 0#32 { clear s with inst := w, irq := c.irq })) := by
    rw [fetch_word hw hb]
    unfold RefCpu.riscv
    dsimp only
    rw [syncTimer_id (s := { clear s with inst := w }) ht hsip, hirq, if_neg (by rintro ⟨_, h2, _⟩; rw [hasy] at h2; exact absurd h2 (by decide))]
    rw [if_neg (show ¬ (clear s).pfInst = true from Bool.false_ne_true),
      if_neg (show ¬ (clear s).illegal = true from Bool.false_ne_true), if_pos (Or.inl hasy)]
    rfl
  exact ⟨_, _, hex, step_idle rfl c, ⟨hag.1, hag.2.1⟩, hag.2.2, untouched_exception rfl rfl⟩

/-! ### Concrete runs -/
namespace RefRun
open CsrRun

/-- Boot: delegate page faults and user calls and the supervisor interrupts, turn translation on (root page table at
0x80001000), drop to user mode; the two trap vectors and the delegated exceptions are arguments. -/
def linux (mtvec stvec medeleg : BitVec 32) : Csr.State := run (csrw nMie 0xaaa#32 ++ csrw nMedeleg medeleg ++
  csrw nMideleg 0x222#32 ++ csrw nMtvec mtvec ++ csrw nStvec stvec ++ csrw 0x180 0x80080001#32 ++
  csrw nMstatus 0x80#32 ++ [(idle, mretAt 0#32, noLines)])

theorem reach_linux (a b d : BitVec 32) : Csr.Spec.Reach (linux a b d) := reach_run _

/-- Memory: the words `l`, and a 4 MiB user page mapping 0x80000000 to itself. -/
def mem (cmp : BitVec 64) (l : List (BitVec 32 × BitVec 32)) : RefMem.State :=
  { ram := fun i => (((0x80001800#32, 0x200000df#32) :: l).find? (fun q => RefMem.ramIndex q.1 == i)).elim 0#32 (·.2)
    io := fun _ => none
    timerOff := 0#64
    timerCmp := cmp
    mip := 0#32
    sip := 0#32
    out := []
    store := false
    storeAddr := 0#32
    storeData := 0#32
    storeStrb := 0#32
    resValid := false
    resAddr := 0#32 }

/-- A reference model with the core's CSRs, about to execute the word `w` at 0x80000100. -/
def at_ (c : Csr.State) (cmp : BitVec 64) (w : BitVec 32) : RefCpu.State :=
  { mem := mem cmp [(0x80000100#32, w)]
    gpr := fun n => if n = 2 then 0x40000000#32 else 0#32
    pc := 0x80000100#32
    file := c.file
    priv := c.priv
    inst := 0x13#32
    irq := noIrq
    pfInst := false
    pfLoad := false
    pfStore := false
    illegal := false
    simEnd := false }

def env : Env := ⟨5#64, false, false, false, false, false⟩

/-- A library for instructions that do not use it. -/
def noFloat : Fp.SoftFloat :=
  ⟨fun _ _ _ => 0#32, fun _ _ _ => 0#32, fun _ _ _ => 0#32, fun _ _ _ => 0#32, fun _ _ => 0#32, fun _ _ _ _ => 0#32,
    fun _ _ => false, fun _ _ => false, fun _ _ => false, fun _ _ => 0#32, fun _ _ => 0#32, fun _ _ => 0#32,
    fun _ _ => 0#32⟩

theorem fetches {c : Csr.State} {cmp : BitVec 64} {w : BitVec 32}
    (h1 : RefMmu.fetchTranslation (at_ c cmp w).ctx = true)
    (h2 : (at_ c cmp w).fix env 0x80000100#32 0 = .ok 0x80000100#32)
    (h3 : RefMem.loadWord (at_ c cmp w).mem 0x80000100#32 = w) : Fetches env (at_ c cmp w) w :=
  Or.inr ⟨h1, _, h2, h3⟩

abbrev user : Csr.State := linux 0x1000#32 0x2000#32 0xb100#32

/-- C81: a user environment call, a load fault and an attempt to read the time: core and reference agree. -/
example : ∃ s' c', exec noFloat env (at_ user 100#64 0x00000073#32) = some s' ∧
    Csr.step idle (Exc.ecall.report 0x80000100#32 0#32) noLines user = some c' ∧ Same c' s' ∧ s'.pc = 0x2000#32 ∧
    c'.priv = 1 := by
  obtain ⟨s', c', h1, h2, h3, h4, -⟩ := C81_exception_partial (F := noFloat) (e := env) (c := user)
    (s := at_ user 100#64 0x00000073#32) (reach_linux _ _ _) ⟨rfl, rfl⟩ (by decide +kernel) (by unfold TimerSync; decide +kernel)
    (by decide +kernel) (.ecall (fetches (by decide +kernel) (by decide +kernel) (by decide +kernel)))
    (by simp) ⟨by decide +kernel, by decide +kernel⟩ (by simp)
  refine ⟨s', c', h1, h2, h3, ?_, ?_⟩
  · have : (Csr.exception user (Exc.ecall.report 0x80000100#32 0#32)).2.2.trapPc = some 0x2000#32 := by decide +kernel
    rw [show (at_ user 100#64 0x00000073#32).pc = 0x80000100#32 from rfl, this] at h4
    exact (Option.some.inj h4).symm
  · have : (Csr.step idle (Exc.ecall.report 0x80000100#32 0#32) noLines user).map Csr.State.priv = some 1 := by
      decide +kernel
    rw [show (at_ user 100#64 0x00000073#32).pc = 0x80000100#32 from rfl] at h2
    rw [h2] at this
    exact Option.some.inj this

example : ∃ s' c', exec noFloat env (at_ user 100#64 0x00412083#32) = some s' ∧
    Csr.step idle (Exc.pfLoad.report 0x80000100#32 0x40000004#32) noLines user = some c' ∧ Same c' s' := by
  obtain ⟨s', c', h1, h2, h3, _⟩ := C81_exception_partial (F := noFloat) (e := env) (c := user)
    (s := at_ user 100#64 0x00412083#32) (reach_linux _ _ _) ⟨rfl, rfl⟩ (by decide +kernel) (by unfold TimerSync; decide +kernel)
    (by decide +kernel) (.load _ (fetches (by decide +kernel) (by decide +kernel) (by decide +kernel)) (by decide)
      ⟨by decide +kernel, by decide +kernel⟩)
    (by simp) ⟨by decide +kernel, by decide +kernel⟩ (by simp)
  exact ⟨s', c', h1, h2, h3⟩

/-- `rdtime a0`. -/
example : ∃ s' c', exec noFloat env (at_ user 100#64 0xc0102573#32) = some s' ∧
    Csr.step idle (Exc.illegal.report 0x80000100#32 0xc0102573#32) noLines user = some c' ∧ Same c' s' := by
  obtain ⟨s', c', h1, h2, h3, _⟩ := C81_exception_partial (F := noFloat) (e := env) (c := user)
    (s := at_ user 100#64 0xc0102573#32) (reach_linux _ _ _) ⟨rfl, rfl⟩ (by decide +kernel) (by unfold TimerSync; decide +kernel)
    (by decide +kernel) (.time _ (fetches (by decide +kernel) (by decide +kernel) (by decide +kernel)) (by decide) (by decide)
      (by decide))
    (by simp) ⟨by decide +kernel, by decide +kernel⟩ (fun _ => by decide +kernel)
  exact ⟨s', c', h1, h2, h3⟩

/-- The timer line rises. -/
def ticked : Csr.State := (Csr.step idle nothing ⟨none, some true⟩ user).getD .init

theorem reach_ticked : Csr.Spec.Reach ticked := by
  have h : Csr.step idle nothing ⟨none, some true⟩ user = some ticked := by
    unfold ticked
    cases h : Csr.step idle nothing ⟨none, some true⟩ user with
    | none => exact absurd (congrArg Option.isSome h) (by decide +kernel)
    | some s => rfl
  exact .step _ _ _ _ _ (reach_linux _ _ _) h

/-- C81: the machine timer interrupt before an addition. -/
example : ∃ s' c', exec noFloat env (at_ ticked 5#64 0x00108093#32) = some s' ∧
    Csr.step idle (interruptAt 0x80000100#32 0#32) noLines ticked = some c' ∧ Same c' s' := by
  obtain ⟨s', c', h1, h2, h3, _⟩ := C81_interrupt_partial (F := noFloat) (e := env) (c := ticked)
    (s := at_ ticked 5#64 0x00108093#32) (w := 0x00108093#32) (v := 0#32) reach_ticked ⟨rfl, rfl⟩
    (by unfold TimerSync; decide +kernel) (by decide +kernel)
    (fetches (by decide +kernel) (by decide +kernel) (by decide +kernel)) (by decide) (by decide) (by decide +kernel)
    (by decide +kernel)
  exact ⟨s', c', h1, h2, h3⟩

/-- C81: SRET (which no privilege check stops). -/
example : ∃ s' c', exec noFloat env (at_ user 100#64 0x10200073#32) = some s' ∧
    Csr.step idle (sretAt 0x80000100#32) noLines user = some c' ∧ Same c' s' := by
  obtain ⟨s', c', h1, h2, h3, _⟩ := (C81_return (F := noFloat) (e := env) (c := user)
    (s := at_ user 100#64 0x10200073#32) (reach_linux _ _ _) ⟨rfl, rfl⟩ (by unfold TimerSync; decide +kernel)
    (by decide +kernel)).2 (fetches (by decide +kernel) (by decide +kernel) (by decide +kernel))
  exact ⟨s', c', h1, h2, h3⟩

/-! ### Where they differ -/

/-- C81 fails with a vectored trap vector: an exception takes the core to the vector register with its mode bits, the
reference to the base. -/
theorem C81_vectored_exception : ∃ (c : Csr.State) (s : RefCpu.State), Csr.Spec.Reach c ∧ Same c s ∧ TimerSync env s ∧
    Quiet s ∧ c.interruptReq = false ∧ Raises env s .ecall 0#32 ∧
    (Csr.exception c (Exc.ecall.report s.pc 0#32)).2.2.trapPc = some 0x2001#32 ∧
    (exec noFloat env s).map (·.pc) = some 0x2000#32 :=
  ⟨linux 0x1000#32 0x2001#32 0xb100#32, at_ (linux 0x1000#32 0x2001#32 0xb100#32) 100#64 0x00000073#32,
    reach_linux _ _ _, ⟨rfl, rfl⟩, (by unfold TimerSync; decide +kernel), ⟨by decide, rfl⟩, by decide +kernel,
    .ecall (fetches (by decide +kernel) (by decide +kernel) (by decide +kernel)), by decide +kernel, by decide +kernel⟩

/-- C81 fails if illegal instructions are delegated: the core enters S-mode, the reference M-mode. -/
theorem C81_illegal_delegated : ∃ (c : Csr.State) (s : RefCpu.State), Csr.Spec.Reach c ∧ Same c s ∧ TimerSync env s ∧
    Quiet s ∧ c.interruptReq = false ∧ Direct c.file ∧ Raises env s .illegal 0xc0102573#32 ∧
    (Csr.step idle (Exc.illegal.report s.pc 0xc0102573#32) noLines c).map (·.priv) = some 1 ∧
    (exec noFloat env s).map (·.priv) = some 3 :=
  ⟨linux 0x1000#32 0x2000#32 0xb104#32, at_ (linux 0x1000#32 0x2000#32 0xb104#32) 100#64 0xc0102573#32,
    reach_linux _ _ _, ⟨rfl, rfl⟩, (by unfold TimerSync; decide +kernel), ⟨by decide, rfl⟩, by decide +kernel,
    ⟨by decide +kernel, by decide +kernel⟩,
    .time _ (fetches (by decide +kernel) (by decide +kernel) (by decide +kernel)) (by decide) (by decide) (by decide),
    by decide +kernel, by decide +kernel⟩

/-- The reference after the environment call: in S-mode, at the unmapped handler. -/
def called : RefCpu.State := (exec noFloat env (at_ user 100#64 0x00000073#32)).getD (at_ user 100#64 0#32)

/-- The core likewise. -/
def calledCore : Csr.State := (Csr.step idle (Exc.ecall.report 0x80000100#32 0#32) noLines user).getD .init

/-- C81 fails for a fetch that faults right after an ECALL: the core reports the page fault (cause 12, to S-mode), the
reference believes that the faulting word is the ECALL (cause 9, to M-mode). -/
theorem C81_stale_ecall :
    exec noFloat env (at_ user 100#64 0x00000073#32) = some called ∧
    Csr.step idle (Exc.ecall.report 0x80000100#32 0#32) noLines user = some calledCore ∧
    Csr.Spec.Reach calledCore ∧ Same calledCore called ∧
    Raises env called .pfInst 0x2000#32 ∧
    (Csr.step idle (Exc.pfInst.report 0x2000#32 0x2000#32) noLines calledCore).map (fun c => (c.priv, c.file .scause)) =
      some (1, 12#32) ∧
    (exec noFloat env called).map (fun s => (s.priv, s.file .mcause)) = some (3, 9#32) := by
  obtain ⟨s', c', h1, h2, h3, _⟩ := C81_exception_partial (F := noFloat) (e := env) (c := user)
    (s := at_ user 100#64 0x00000073#32) (reach_linux _ _ _) ⟨rfl, rfl⟩ (by decide +kernel) (by unfold TimerSync; decide +kernel)
    (by decide +kernel) (.ecall (fetches (by decide +kernel) (by decide +kernel) (by decide +kernel)))
    (by simp) ⟨by decide +kernel, by decide +kernel⟩ (by simp)
  have e1 : called = s' := by unfold called; rw [h1]; rfl
  have e2 : calledCore = c' := by unfold calledCore; rw [show (0x80000100#32) = (at_ user 100#64 0x00000073#32).pc from rfl, h2]; rfl
  refine ⟨by rw [h1, e1], by rw [e2]; exact h2, ?_, by rw [e1, e2]; exact h3, ?_, ?_, ?_⟩
  · rw [e2]; exact .step _ _ _ _ _ (reach_linux _ _ _) h2
  · have hpc : called.pc = 0x2000#32 := by decide +kernel
    have := Raises.fetch (e := env) (s := called) (by decide +kernel) (by decide +kernel)
    rw [hpc] at this
    exact this
  · decide +kernel
  · decide +kernel

/-- C81 fails for an interrupt before an ECALL: with user calls not delegated and a supervisor timer interrupt pending, the
core takes the interrupt (in S-mode), the reference the ECALL (in M-mode). -/
theorem C81_interrupt_at_ecall : ∃ (c : Csr.State) (s : RefCpu.State), Csr.Spec.Reach c ∧ Same c s ∧ TimerSync env s ∧
    c.interruptReq = true ∧ Fetches env s 0x00000073#32 ∧
    (Csr.step idle (interruptAt s.pc 0#32) noLines c).map (fun c => (c.priv, c.file .scause)) = some (1, 0x80000005#32) ∧
    (exec noFloat env s).map (fun s => (s.priv, s.file .mcause)) = some (3, 8#32) := by
  let c : Csr.State := run (csrw nMie 0xaaa#32 ++ csrw nMideleg 0x222#32 ++ csrw 0x180 0x80080001#32 ++ csrw nMip 0x20#32 ++
    csrw nMstatus 0x80#32 ++ [(idle, mretAt 0#32, noLines)])
  exact ⟨c, at_ c 100#64 0x00000073#32, reach_run _, ⟨rfl, rfl⟩, (by unfold TimerSync; decide +kernel), by decide +kernel,
    fetches (by decide +kernel) (by decide +kernel) (by decide +kernel), by decide +kernel, by decide +kernel⟩

/-- C81: the reference executes words with an unknown opcode as if they did nothing; the decoder declares every one of
them illegal (here: the word 0). -/
theorem C81_unknown_opcode :
    (Decode.decode 0#32).illegal = true ∧
    (exec noFloat env (at_ user 100#64 0#32)).map (fun s => (s.priv, s.pc)) = some (0, 0x80000104#32) := by
  decide +kernel

end RefRun
end Verif.Props

import Verif.Spec.RefStep
import Verif.Proofs.Csr
/- Trap entry of the reference model against the core's. -/
namespace Verif.RefCpu.Proofs
open Verif.Csr Verif.Csr.Spec
open Verif.RefCpu.Spec

/-- No interrupt. -/
abbrev noIrq : Irq := ⟨false, false, false, false, false, false⟩

/-- Where the core continues. -/
def goesTo (x : File × Nat × Front) (pc : BitVec 32) : BitVec 32 :=
  match x.2.2.trapPc, x.2.2.epc with
  | some p, _ => p
  | none, some p => p
  | none, none => pc

theorem vector_eq (t c : BitVec 32) (h : t &&& 3#32 = 0#32) : vector t c = Csr.vector t c := by
  have h2 : t &&& 0xfffffffc#32 = t := by
    ext i hi
    have := congrArg (fun x => x.getLsbD i) h
    simp only [BitVec.getLsbD_and] at this
    have hm : ∀ i < 32, (0xfffffffc#32).getLsbD i = !(3#32).getLsbD i := by decide
    rw [← BitVec.getLsbD_eq_getElem, ← BitVec.getLsbD_eq_getElem, BitVec.getLsbD_and, hm i hi]
    revert this
    cases t.getLsbD i <;> cases (3#32).getLsbD i <;> simp
  unfold vector Csr.vector
  split <;> simp [h2]

theorem exc_agree {c : Csr.State} {r : Rob} {s : State} {tval : BitVec 32}
    (hf : s.file = c.file) (hp : s.priv = c.priv) (hq : c.irq = noIrq) (hsq : s.irq = noIrq)
    (he : r.ecall = decide (s.inst = INST_ECALL)) (h1 : r.pfInst = s.pfInst) (h2 : r.pfLoad = s.pfLoad)
    (h3 : r.pfStore = s.pfStore) (h4 : r.illegal = s.illegal)
    (hd : r.illegal = true → (bit (c.file .medeleg) 2 = false))
    (hpc : r.pc = s.pc) (hm : r.mret = decide (s.inst = INST_MRET)) (hsr : r.sret = decide (s.inst = INST_SRET))
    (ht : tval = if r.pfStore || r.pfLoad || r.pfInst || r.illegal then r.trapVal else 0#32)
    (hv : Direct c.file) :
    (exception tval s).file = (Csr.exception c r).1 ∧ (exception tval s).priv = (Csr.exception c r).2.1 ∧
      (exception tval s).pc = goesTo (Csr.exception c r) (s.pc + 4#32) := by
  have hmt : mTrap s = Csr.mTrap c r := by
    unfold mTrap Csr.mTrap
    rw [hsq, hq, hf, hp, ← he, ← h1, ← h2, ← h3, ← h4]
    simp only [Irq.mAny]
    cases hi : r.illegal with
    | false => cases r.ecall <;> cases r.pfInst <;> cases r.pfLoad <;> cases r.pfStore <;> simp
    | true =>
      simp only [hd hi]
      cases r.ecall <;> cases r.pfInst <;> cases r.pfLoad <;> cases r.pfStore <;> simp
  have hst : sTrap s = Csr.sTrap c r := by
    unfold sTrap Csr.sTrap
    rw [hsq, hq, hf, hp, ← he, ← h1, ← h2, ← h3]
    simp only [Irq.sAny]
    cases hi : r.illegal with
    | false => cases r.ecall <;> cases r.pfInst <;> cases r.pfLoad <;> cases r.pfStore <;> simp
    | true =>
      simp only [hd hi]
      cases r.ecall <;> cases r.pfInst <;> cases r.pfLoad <;> cases r.pfStore <;> simp
  have hmc : mCause s = Csr.mCause c r := by
    unfold mCause Csr.mCause
    rw [hsq, hq, hf, hp, ← he, ← h1, ← h2, ← h3, ← h4]
    simp
  have hsc : sCause s = Csr.sCause c r := by
    unfold sCause Csr.sCause
    rw [hsq, hq, hf, hp, ← he, ← h1, ← h2, ← h3]
    simp only [Bool.or_self, Bool.false_eq_true, if_false]
    cases hi : r.illegal with
    | false => simp
    | true => simp [hd hi]
  unfold exception Csr.exception
  dsimp only
  rw [hmt, hst, hmc, hsc, hf, hp]
  by_cases hM : Csr.mTrap c r = true
  · rw [if_pos hM, if_pos hM]
    refine ⟨?_, rfl, ?_⟩
    · dsimp only
      rw [hpc, ht]
      congr 1
      cases r.pfStore <;> cases r.pfLoad <;> cases r.pfInst <;> cases r.illegal <;> simp
    · dsimp only [goesTo]
      exact vector_eq _ _ hv.1
  · rw [if_neg hM, if_neg hM]
    by_cases hS : Csr.sTrap c r = true
    · rw [if_pos hS, if_pos hS]
      refine ⟨?_, rfl, ?_⟩
      · dsimp only
        rw [hpc, ht]
      · dsimp only [goesTo]
        exact vector_eq _ _ hv.2
    · rw [if_neg hS, if_neg hS, hm]
      by_cases hm' : s.inst = INST_MRET
      · rw [if_pos hm', if_pos (by simp [hm'])]
        exact ⟨rfl, rfl, rfl⟩
      · rw [if_neg hm', if_neg (c := decide (s.inst = INST_MRET) = true) (by simpa using hm'), hsr]
        by_cases hs' : s.inst = INST_SRET
        · rw [if_pos hs', if_pos (by simp [hs'])]
          exact ⟨rfl, rfl, rfl⟩
        · rw [if_neg hs', if_neg (c := decide (s.inst = INST_SRET) = true) (by simpa using hs')]
          exact ⟨rfl, rfl, rfl⟩

theorem vector_irq (t c : BitVec 32) (h : t &&& 3#32 ≠ 2#32) (hc : on c (1#32 <<< 31) = true) :
    vector t c = Csr.vector t c := by
  unfold vector Csr.vector
  by_cases h1 : on t 1#32 = true
  · rw [h1, hc]; rfl
  · have h0 : t &&& 3#32 = 0#32 := by
      have h1' : t &&& 1#32 = 0#32 := by simpa [on] using h1
      have key : ∀ x : BitVec 2, x &&& 1#2 = 0#2 → x ≠ 2#2 → x = 0#2 := by decide
      have ex : ∀ t : BitVec 32, t &&& 3#32 = (t.setWidth 2).setWidth 32 := by
        intro t
        ext i hi
        simp only [BitVec.getElem_and, BitVec.getElem_setWidth, BitVec.getLsbD_setWidth]
        by_cases hi2 : i < 2
        · have : i = 0 ∨ i = 1 := by omega
          rcases this with rfl | rfl <;> simp
        · have hm : ∀ i < 32, ¬ i < 2 → (3#32).getLsbD i = false := by decide
          have := hm i hi hi2
          rw [← BitVec.getLsbD_eq_getElem, ← BitVec.getLsbD_eq_getElem]
          simp [this, hi2]
      have e1 : (t.setWidth 2 &&& 1#2).setWidth 32 = t &&& 1#32 := by
        ext i hi
        simp only [BitVec.getElem_and, BitVec.getElem_setWidth, BitVec.getLsbD_and, BitVec.getLsbD_setWidth]
        rw [← BitVec.getLsbD_eq_getElem, ← BitVec.getLsbD_eq_getElem]
        by_cases hi2 : i < 2
        · have : i = 0 ∨ i = 1 := by omega
          rcases this with rfl | rfl <;> simp
        · have hm : ∀ i < 32, ¬ i < 2 → (1#32).getLsbD i = false := by decide
          have := hm i hi hi2
          simp [this, hi2]
      rw [ex t] at h ⊢
      have : t.setWidth 2 = 0#2 := by
        apply key
        · rw [h1'] at e1
          have := congrArg (fun x => x.setWidth 2) e1
          simpa using this
        · intro h2
          rw [h2] at h
          exact h rfl
      rw [this]; rfl
    have hm := vector_eq t c h0
    unfold vector Csr.vector at hm
    exact hm


theorem irq_agree {c : Csr.State} {s : State} {v : BitVec 32}
    (hf : s.file = c.file) (hp : s.priv = c.priv) (hq : s.irq = c.irq) (hi : c.interruptReq = true)
    (he : s.inst ≠ INST_ECALL) (h1 : s.pfInst = false) (h2 : s.pfLoad = false) (h3 : s.pfStore = false)
    (h4 : s.illegal = false) (hm : c.file .mtvec &&& 3#32 ≠ 2#32) (hs : c.file .stvec &&& 3#32 ≠ 2#32) :
    (exception 0#32 s).file = (Csr.exception c (interruptAt s.pc v)).1 ∧
      (exception 0#32 s).priv = (Csr.exception c (interruptAt s.pc v)).2.1 ∧
      (Csr.exception c (interruptAt s.pc v)).2.2.trapPc = some (exception 0#32 s).pc := by
  have hmt : mTrap s = Csr.mTrap c (interruptAt s.pc v) := by
    simp [mTrap, Csr.mTrap, interruptAt, hq, he, h1, h2, h3, h4, Irq.mAny]
  have hst : sTrap s = Csr.sTrap c (interruptAt s.pc v) := by
    simp [sTrap, Csr.sTrap, interruptAt, hq, he, h1, h2, h3, Irq.sAny]
  have hany : Csr.mTrap c (interruptAt s.pc v) = true ∨ Csr.sTrap c (interruptAt s.pc v) = true := by
    simp only [Csr.mTrap, Csr.sTrap, interruptAt, Irq.mAny, Irq.sAny, State.interruptReq] at *
    revert hi
    cases c.irq.mSoft <;> cases c.irq.mTimer <;> cases c.irq.mExt <;> simp
  have hmc : mCause s = Csr.mCause c (interruptAt s.pc v) := by
    simp only [mCause, Csr.mCause, interruptAt, hq, he, h1, h2, h3, h4, decide_false, Bool.false_and,
      Bool.or_false, Bool.false_eq_true, if_false]
    cases c.irq.mSoft <;> cases c.irq.mTimer <;> cases c.irq.mExt <;> decide
  have hsc : sCause s = Csr.sCause c (interruptAt s.pc v) := by
    simp only [sCause, Csr.sCause, interruptAt, hq, he, h1, h2, h3, decide_false, Bool.false_and,
      Bool.or_false, Bool.false_eq_true, if_false]
    cases c.irq.sSoft <;> cases c.irq.sTimer <;> cases c.irq.sExt <;> decide
  unfold exception Csr.exception
  dsimp only
  rw [hmt, hst, hmc, hsc, hf, hp]
  by_cases hM : Csr.mTrap c (interruptAt s.pc v) = true
  · rw [if_pos hM, if_pos hM]
    refine ⟨rfl, rfl, ?_⟩
    dsimp only
    rw [vector_irq _ _ hm]
    simp only [Csr.mTrap, interruptAt, Irq.mAny, Bool.false_and, Bool.or_false, Bool.and_true] at hM
    simp only [Csr.mCause, interruptAt, Bool.false_and, Bool.or_false, Bool.false_eq_true, if_false]
    revert hM
    cases c.irq.mSoft <;> cases c.irq.mTimer <;> cases c.irq.mExt <;> decide
  · rw [if_neg hM, if_neg hM]
    have hS := hany.resolve_left hM
    rw [if_pos hS, if_pos hS]
    refine ⟨rfl, rfl, ?_⟩
    dsimp only
    rw [vector_irq _ _ hs]
    simp only [Csr.sTrap, interruptAt, Irq.sAny, Bool.false_and, Bool.or_false, Bool.and_true] at hS
    simp only [Csr.sCause, interruptAt, Bool.false_and, Bool.or_false, Bool.false_eq_true, if_false]
    revert hS
    cases c.irq.sSoft <;> cases c.irq.sTimer <;> cases c.irq.sExt <;> decide

end Verif.RefCpu.Proofs

import Verif.Proofs.Csr
import Mathlib.Logic.Relation
/-
C27 to C30, C49: control and status registers, traps and interrupts.  `Csr.Spec` states what the
privileged architecture asks for; `Reach` ranges over every state reachable by any sequence of
CSR instructions, traps, returns and interrupt lines.
-/
namespace Verif.Props
open Verif.Csr Verif.Csr.Spec Verif.Csr.Proofs

/-- C27: in every reachable state `sstatus`, `sie` and `sip` show exactly the supervisor fields of
`mstatus`, `mie` and `mip`. -/
theorem C27_views_consistent {s : State} (h : Csr.Spec.Reach s) : Consistent s.file :=
  (inv_iff _).1 (Csr.Proofs.inv_reach h)

/-! ### C29 -/

theorem pair_irq (pm em dm ps es mi si : Bool) (priv : Nat) (hp : priv = 0 ∨ priv = 1 ∨ priv = 3) :
    ((pm && em && !dm && (decide (priv < 3) || mi)) ||
      (((pm && em && dm) || (ps && es)) && (decide (priv < 2) && (decide (priv < 1) || (decide (priv = 1) && si))))) = true ↔
    (pm = true ∧ em = true ∧ (if dm = true then priv < 1 ∨ (priv = 1 ∧ si = true) else priv < 3 ∨ mi = true)) ∨
    (ps = true ∧ es = true ∧ (priv < 1 ∨ (priv = 1 ∧ si = true))) := by
  rcases hp with rfl | rfl | rfl <;> cases pm <;> cases em <;> cases dm <;> cases ps <;> cases es <;>
    cases mi <;> cases si <;> decide

/-- C29, exactly what the program computes: an interrupt is requested iff some standard interrupt is
taken by the architecture's rules, with the three supervisor interrupts always treated as
delegated. -/
theorem C29_exact (s : State) (hp : s.priv = 0 ∨ s.priv = 1 ∨ s.priv = 3) :
    s.interruptReq = true ↔
      ∃ i ∈ standard, Taken s.file s.priv (s.file .mideleg ||| 0x222#32) i := by
  have hd : ∀ i ∈ standard, (s.file .mideleg ||| 0x222#32).getLsbD i =
      ((s.file .mideleg).getLsbD i || decide (i = 1 ∨ i = 5 ∨ i = 9)) := by
    intro i hi
    rw [BitVec.getLsbD_or]
    congr 1
    revert i; decide
  have key := fun (a b : Nat) => pair_irq ((s.file .mip).getLsbD a) ((s.file .mie).getLsbD a)
    ((s.file .mideleg).getLsbD a) ((s.file .mip).getLsbD b) ((s.file .mie).getLsbD b)
    ((s.file .mstatus).getLsbD 3) ((s.file .mstatus).getLsbD 1) s.priv hp
  have k1 := key 3 1
  have k2 := key 7 5
  have k3 := key 11 9
  have e : s.interruptReq = ((s.irq.mSoft || s.irq.sSoft) || (s.irq.mTimer || s.irq.sTimer) ||
      (s.irq.mExt || s.irq.sExt)) := by
    unfold State.interruptReq
    cases s.irq.mSoft <;> cases s.irq.sSoft <;> cases s.irq.mTimer <;> cases s.irq.sTimer <;>
      cases s.irq.mExt <;> cases s.irq.sExt <;> rfl
  rw [e]
  simp only [State.irq, evalInterrupts, on_bit _ _ (show (3 : Nat) < 32 by decide),
    on_bit _ _ (show (1 : Nat) < 32 by decide), on_bit _ _ (show (7 : Nat) < 32 by decide),
    on_bit _ _ (show (5 : Nat) < 32 by decide), on_bit _ _ (show (11 : Nat) < 32 by decide),
    on_bit _ _ (show (9 : Nat) < 32 by decide)]
  rw [Bool.or_eq_true, Bool.or_eq_true, k1, k2, k3]
  simp only [standard, List.mem_cons, List.not_mem_nil, or_false, exists_eq_or_imp, exists_eq_left, Taken,
    hd 1 (by decide), hd 3 (by decide), hd 5 (by decide), hd 7 (by decide), hd 9 (by decide), hd 11 (by decide)]
  simp only [true_or, or_true, decide_true, Nat.reduceEqDiff, or_self, decide_false, Bool.or_true, Bool.or_false, if_true]
  constructor
  · rintro (((h | h) | (h | h)) | (h | h))
    · exact Or.inr (Or.inl h)
    · exact Or.inl h
    · exact Or.inr (Or.inr (Or.inr (Or.inl h)))
    · exact Or.inr (Or.inr (Or.inl h))
    · exact Or.inr (Or.inr (Or.inr (Or.inr (Or.inr h))))
    · exact Or.inr (Or.inr (Or.inr (Or.inr (Or.inl h))))
  · rintro (h | h | h | h | h | h)
    · exact Or.inl (Or.inl (Or.inr h))
    · exact Or.inl (Or.inl (Or.inl h))
    · exact Or.inl (Or.inr (Or.inr h))
    · exact Or.inl (Or.inr (Or.inl h))
    · exact Or.inr (Or.inr h)
    · exact Or.inr (Or.inl h)

/-- C29: an interrupt is requested exactly when one is pending, enabled and accepted by its target mode,
provided that the supervisor interrupts are delegated (`mideleg` bits 1, 5, 9).  Without delegation
the claim is false, see `C29_undelegated`. -/
theorem C29_taken_iff_partial (s : State) (hp : s.priv = 0 ∨ s.priv = 1 ∨ s.priv = 3)
    (hd : ∀ i ∈ [1, 5, 9], (s.file .mideleg).getLsbD i = true) :
    s.interruptReq = true ↔ ∃ i ∈ standard, Taken s.file s.priv (s.file .mideleg) i := by
  rw [C29_exact s hp]
  have : ∀ i ∈ standard, (s.file .mideleg ||| 0x222#32).getLsbD i = (s.file .mideleg).getLsbD i := by
    intro i hi
    rw [BitVec.getLsbD_or]
    have h2 : ∀ i ∈ standard, (0x222#32).getLsbD i = true → i ∈ [1, 5, 9] := by decide
    cases hb : (0x222#32).getLsbD i with
    | false => simp
    | true => rw [hd i (h2 i hi hb)]; rfl
  constructor
  · rintro ⟨i, hi, ht⟩
    refine ⟨i, hi, ?_⟩
    unfold Taken at *
    rwa [this i hi] at ht
  · rintro ⟨i, hi, ht⟩
    refine ⟨i, hi, ?_⟩
    unfold Taken at *
    rwa [this i hi]

/-! ### C28 -/

/-- C28: the address execution continues at is the architecture's, when the vector register has its two
low bits clear (direct mode).  In vectored mode see `C28_vectored_interrupt` and
`C28_vectored_exception_misaligned`. -/
theorem C28_vector_direct_partial (tvec cause : BitVec 32) (irq : Bool) (code : Nat) (h : tvec &&& 3#32 = 0#32) :
    vector tvec cause = target tvec irq code := by
  have h1 : on tvec 1#32 = false := by
    have : tvec &&& 1#32 = (tvec &&& 3#32) &&& 1#32 := by
      rw [BitVec.and_assoc]; rfl
    simp [on, this, h]
  have h2 : tvec &&& ~~~3#32 = tvec := by
    have hsum : tvec = (tvec &&& ~~~3#32) ||| (tvec &&& 3#32) := by
      ext i hi
      simp only [BitVec.getElem_or, BitVec.getElem_and, BitVec.getElem_not]
      cases tvec[i] <;> cases (3#32)[i] <;> rfl
    rw [h, BitVec.or_zero] at hsum
    exact hsum.symm
  unfold vector target
  rw [h1]
  simp [h]
  exact h2.symm

/-- C28: in vectored mode an interrupt goes to BASE + 4 × code. -/
theorem C28_vectored_interrupt (tvec : BitVec 32) (code : Nat) (hc : code < 16) (h : tvec &&& 3#32 = 1#32) :
    vector tvec (0x80000000#32 + BitVec.ofNat 32 code) = target tvec true code := by
  have h1 : on tvec 1#32 = true := by
    have : tvec &&& 1#32 = (tvec &&& 3#32) &&& 1#32 := by
      rw [BitVec.and_assoc]; rfl
    simp [on, this, h]
  have h3 : ∀ c < 16, on (0x80000000#32 + BitVec.ofNat 32 c) (1#32 <<< 31) = true ∧
      4#32 * ((0x80000000#32 + BitVec.ofNat 32 c) &&& 0x7fffffff#32) = BitVec.ofNat 32 (4 * c) := by decide +kernel
  unfold vector target
  rw [h1, (h3 code hc).1, (h3 code hc).2]
  simp [h]

theorem step_idle {r : Rob} (hr : r.commit = false) (s : State) :
    step idle r noLines s =
      some ⟨(exception s r).1, (exception s r).2.1, s.we, s.idx, s.wcmd, s.wdata⟩ := by
  simp [step, hr, idle, noLines, inject, injectLine]

theorem enterM {s : State} {r : Rob} (h : mTrap s r = true) (hr : r.commit = false) :
    ∃ s', step idle r noLines s = some s' ∧
      EnterM s s' r.pc (mCause s r) (if r.pfStore || r.pfLoad || r.pfInst || r.illegal then r.trapVal else 0#32) ∧
      (exception s r).2.2.trapPc = some (vector (s.file .mtvec) (mCause s r)) := by
  refine ⟨_, step_idle hr s, ?_⟩
  unfold exception
  rw [if_pos h]
  refine ⟨?_, rfl⟩
  refine ⟨rfl, rfl, rfl, ?_, ?_, ?_⟩
  · show (if r.pfStore || r.pfLoad || r.pfInst then r.trapVal else if r.illegal then r.trapVal else 0#32) = _
    cases r.pfStore <;> cases r.pfLoad <;> cases r.pfInst <;> cases r.illegal <;> rfl
  · intro i hi
    exact mstatusTrap_bit _ _ _ hi
  · intro q hq
    simp only [List.mem_cons, List.not_mem_nil, or_false, not_or] at hq
    simp [Csr.set, hq]

theorem enterS {s : State} (hs : Csr.Spec.Reach s) {r : Rob} (hm : mTrap s r = false) (h : sTrap s r = true)
    (hr : r.commit = false) :
    ∃ s', step idle r noLines s = some s' ∧
      EnterS s s' r.pc (sCause s r) (if r.pfStore || r.pfLoad || r.pfInst || r.illegal then r.trapVal else 0#32) ∧
      (exception s r).2.2.trapPc = some (vector (s.file .stvec) (sCause s r)) := by
  refine ⟨_, step_idle hr s, ?_⟩
  unfold exception
  rw [hm, if_neg (by simp), if_pos h]
  refine ⟨?_, rfl⟩
  refine ⟨rfl, rfl, rfl, rfl, ?_, ?_⟩
  · intro i hi
    exact merge_trap_bit (Csr.Proofs.inv_reach hs) _ _ hi
  · intro q hq
    simp only [List.mem_cons, List.not_mem_nil, or_false, not_or] at hq
    simp [Csr.set, hq]

theorem no_irq {s : State} (h : s.interruptReq = false) :
    s.irq.mSoft = false ∧ s.irq.mTimer = false ∧ s.irq.mExt = false ∧
      s.irq.sSoft = false ∧ s.irq.sTimer = false ∧ s.irq.sExt = false := by
  simp only [State.interruptReq, Bool.or_eq_false_iff] at h
  exact ⟨h.1.1.1.1.1, h.1.1.1.1.2, h.1.1.1.2, h.1.1.2, h.1.2, h.2⟩

/-- C28: an exception that is not delegated, or that happens in M-mode, is taken in M-mode: the program
counter, the exception code, the trap value, the privilege and the interrupt enable are saved,
interrupts are disabled and nothing else changes.  (`interruptReq` is false whenever an exception is
reported: the reorder buffer takes the interrupt instead, C39.)  The exceptions taken in M-mode with
their delegation bit set (and environment calls from M-mode with bit 8 set) do not behave so: see
`C28_to_less_privileged`, `C28_machine_ecall_cause`. -/
theorem C28_exception_to_M_partial (s : State) (x : Exc) (pc v : BitVec 32)
    (hp : s.priv = 0 ∨ s.priv = 1 ∨ s.priv = 3) (hi : s.interruptReq = false)
    (hd : (s.file .medeleg).getLsbD (x.code s.priv) = false)
    (h8 : s.priv = 3 → x = .ecall → (s.file .medeleg).getLsbD 8 = false) :
    ∃ s', step idle (x.report pc v) noLines s = some s' ∧
      EnterM s s' pc (BitVec.ofNat 32 (x.code s.priv)) (x.value v) ∧
      (s.file .mtvec &&& 3#32 = 0#32 →
        (exception s (x.report pc v)).2.2.trapPc = some (target (s.file .mtvec) false (x.code s.priv))) := by
  obtain ⟨i1, i2, i3, i4, i5, i6⟩ := no_irq hi
  have ht : mTrap s (x.report pc v) = true := by
    simp only [mTrap, bit_eq]
    cases x <;> rcases hp with hp | hp | hp <;>
      simp_all [Exc.report, Exc.code]
  have hc : mCause s (x.report pc v) = BitVec.ofNat 32 (x.code s.priv) := by
    simp only [mCause, bit_eq, i1, i2, i3]
    cases x <;> rcases hp with hp | hp | hp <;>
      simp_all [Exc.report, Exc.code]
  obtain ⟨s', h1, h2, h3⟩ := enterM ht rfl
  rw [hc] at h2 h3
  refine ⟨s', h1, (by cases x <;> exact h2), fun hv => ?_⟩
  rw [h3, C28_vector_direct_partial _ _ false (x.code s.priv) hv]

/-- C28: an exception in U- or S-mode whose delegation bit is set is taken in S-mode. -/
theorem C28_exception_to_S {s : State} (hs : Csr.Spec.Reach s) (x : Exc) (pc v : BitVec 32)
    (hp : s.priv = 0 ∨ s.priv = 1) (hi : s.interruptReq = false)
    (hd : (s.file .medeleg).getLsbD (x.code s.priv) = true) :
    ∃ s', step idle (x.report pc v) noLines s = some s' ∧
      EnterS s s' pc (BitVec.ofNat 32 (x.code s.priv)) (x.value v) ∧
      (s.file .stvec &&& 3#32 = 0#32 →
        (exception s (x.report pc v)).2.2.trapPc = some (target (s.file .stvec) false (x.code s.priv))) := by
  obtain ⟨i1, i2, i3, i4, i5, i6⟩ := no_irq hi
  have hm : mTrap s (x.report pc v) = false := by
    simp only [mTrap, bit_eq, Irq.mAny, i1, i2, i3]
    cases x <;> rcases hp with hp | hp <;> simp_all [Exc.report, Exc.code]
  have ht : sTrap s (x.report pc v) = true := by
    simp only [sTrap, bit_eq]
    cases x <;> rcases hp with hp | hp <;> simp_all [Exc.report, Exc.code]
  have hc : sCause s (x.report pc v) = BitVec.ofNat 32 (x.code s.priv) := by
    simp only [sCause, bit_eq, i4, i5, i6]
    cases x <;> rcases hp with hp | hp <;> simp_all [Exc.report, Exc.code]
  obtain ⟨s', h1, h2, h3⟩ := enterS hs hm ht rfl
  rw [hc] at h2 h3
  refine ⟨s', h1, (by cases x <;> exact h2), fun hv => ?_⟩
  rw [h3, C28_vector_direct_partial _ _ false (x.code s.priv) hv]

/-- The flag computed for interrupt `i` when it targets M-mode. -/
theorem m_flag (s : State) (i : Nat) (hi : i = 3 ∨ i = 7 ∨ i = 11) :
    (if i = 3 then s.irq.mSoft else if i = 7 then s.irq.mTimer else s.irq.mExt) = true ↔
      (s.file .mideleg).getLsbD i = false ∧ Taken s.file s.priv (s.file .mideleg) i := by
  unfold State.irq evalInterrupts Taken
  simp only [on_bit _ _ (show (3 : Nat) < 32 by decide), on_bit _ _ (show (7 : Nat) < 32 by decide),
    on_bit _ _ (show (11 : Nat) < 32 by decide)]
  rcases hi with rfl | rfl | rfl
  all_goals
    simp only [if_true, Nat.reduceEqDiff, if_false, Bool.and_eq_true, Bool.not_eq_true', Bool.or_eq_true, decide_eq_true_eq]
    constructor
    · rintro ⟨⟨⟨h1, h2⟩, h3⟩, h4⟩
      exact ⟨h3, h1, h2, by rw [if_neg (by rw [h3]; simp)]; exact h4⟩
    · rintro ⟨h3, h1, h2, h4⟩
      rw [if_neg (by rw [h3]; simp)] at h4
      exact ⟨⟨⟨h1, h2⟩, h3⟩, h4⟩

/-- C28: when exactly one of the machine interrupts is taken, the trap goes to M-mode with its code (and the
interrupt flag), whatever supervisor interrupts are pending too.  With several, the program does not
follow the architecture's order MEI, MSI, MTI: see `C28_interrupt_order`. -/
theorem C28_interrupt_to_M_partial (s : State) (pc v : BitVec 32) (i : Nat) (hi : i = 3 ∨ i = 7 ∨ i = 11)
    (ht : (s.file .mideleg).getLsbD i = false ∧ Taken s.file s.priv (s.file .mideleg) i)
    (hu : ∀ j, j = 3 ∨ j = 7 ∨ j = 11 →
      (s.file .mideleg).getLsbD j = false ∧ Taken s.file s.priv (s.file .mideleg) j → j = i) :
    ∃ s', step idle (interruptAt pc v) noLines s = some s' ∧
      EnterM s s' pc (0x80000000#32 + BitVec.ofNat 32 i) 0#32 ∧
      (s.file .mtvec &&& 3#32 = 0#32 ∨ s.file .mtvec &&& 3#32 = 1#32 →
        (exception s (interruptAt pc v)).2.2.trapPc = some (target (s.file .mtvec) true i)) := by
  have f3 := m_flag s 3 (Or.inl rfl)
  have f7 := m_flag s 7 (Or.inr (Or.inl rfl))
  have f11 := m_flag s 11 (Or.inr (Or.inr rfl))
  simp only [if_true, Nat.reduceEqDiff, if_false] at f3 f7 f11
  have flag : ∀ (b : Bool) (j : Nat), (b = true ↔ (s.file .mideleg).getLsbD j = false ∧
      Taken s.file s.priv (s.file .mideleg) j) → (j = 3 ∨ j = 7 ∨ j = 11) → b = decide (j = i) := by
    intro b j hb hj
    rw [Bool.eq_iff_iff, decide_eq_true_eq, hb]
    constructor
    · exact hu j hj
    · rintro rfl; exact ht
  have g3 := flag _ 3 f3 (Or.inl rfl)
  have g7 := flag _ 7 f7 (Or.inr (Or.inl rfl))
  have g11 := flag _ 11 f11 (Or.inr (Or.inr rfl))
  have hm : mTrap s (interruptAt pc v) = true := by
    simp only [mTrap, Irq.mAny, g3, g7, g11, interruptAt]
    rcases hi with rfl | rfl | rfl <;> simp
  have hc : mCause s (interruptAt pc v) = 0x80000000#32 + BitVec.ofNat 32 i := by
    simp only [mCause, g3, g7, g11, interruptAt]
    rcases hi with rfl | rfl | rfl <;> simp
  obtain ⟨s', h1, h2, h3⟩ := enterM hm rfl
  rw [hc] at h2 h3
  refine ⟨s', h1, h2, fun hv => ?_⟩
  rw [h3]
  rcases hv with hv | hv
  · rw [C28_vector_direct_partial _ _ true i hv]
  · rw [C28_vectored_interrupt _ i (by omega) hv]

theorem s_flag (s : State) (hp : s.priv = 0 ∨ s.priv = 1 ∨ s.priv = 3)
    (hd : ∀ j ∈ [1, 5, 9], (s.file .mideleg).getLsbD j = true)
    (hn : ∀ j ∈ [3, 7, 11], (s.file .mideleg).getLsbD j = false) (i : Nat) (hi : i = 1 ∨ i = 5 ∨ i = 9) :
    (if i = 1 then s.irq.sSoft else if i = 5 then s.irq.sTimer else s.irq.sExt) = true ↔
      Taken s.file s.priv (s.file .mideleg) i := by
  unfold State.irq evalInterrupts Taken
  simp only [on_bit _ _ (show (3 : Nat) < 32 by decide), on_bit _ _ (show (7 : Nat) < 32 by decide),
    on_bit _ _ (show (11 : Nat) < 32 by decide), on_bit _ _ (show (1 : Nat) < 32 by decide),
    on_bit _ _ (show (5 : Nat) < 32 by decide), on_bit _ _ (show (9 : Nat) < 32 by decide),
    hn 3 (by decide), hn 7 (by decide), hn 11 (by decide)]
  have hb : (decide (s.priv < 2) && (decide (s.priv < 1) || (decide (s.priv = 1) && (s.file .mstatus).getLsbD 1))) = true ↔
      s.priv < 1 ∨ (s.priv = 1 ∧ (s.file .mstatus).getLsbD 1 = true) := by
    rcases hp with hp | hp | hp <;> rw [hp] <;> cases (s.file .mstatus).getLsbD 1 <;> decide
  rcases hi with rfl | rfl | rfl
  all_goals
    simp only [if_true, Nat.reduceEqDiff, if_false, hd 1 (by decide), hd 5 (by decide), hd 9 (by decide), Bool.and_false,
      Bool.false_or]
    rw [Bool.and_eq_true, hb, Bool.and_eq_true, and_assoc]

/-- C28: when no machine interrupt and exactly one supervisor interrupt is taken, the trap goes to S-mode with
its code, for the usual delegation (supervisor interrupts delegated, machine interrupts not). -/
theorem C28_interrupt_to_S_partial {s : State} (hs : Csr.Spec.Reach s) (pc v : BitVec 32) (i : Nat)
    (hp : s.priv = 0 ∨ s.priv = 1 ∨ s.priv = 3)
    (hd : ∀ j ∈ [1, 5, 9], (s.file .mideleg).getLsbD j = true)
    (hn : ∀ j ∈ [3, 7, 11], (s.file .mideleg).getLsbD j = false)
    (hi : i = 1 ∨ i = 5 ∨ i = 9) (ht : Taken s.file s.priv (s.file .mideleg) i)
    (hm : ∀ j, j = 3 ∨ j = 7 ∨ j = 11 → ¬ Taken s.file s.priv (s.file .mideleg) j)
    (hu : ∀ j, j = 1 ∨ j = 5 ∨ j = 9 → Taken s.file s.priv (s.file .mideleg) j → j = i) :
    ∃ s', step idle (interruptAt pc v) noLines s = some s' ∧
      EnterS s s' pc (0x80000000#32 + BitVec.ofNat 32 i) 0#32 ∧
      (s.file .stvec &&& 3#32 = 0#32 ∨ s.file .stvec &&& 3#32 = 1#32 →
        (exception s (interruptAt pc v)).2.2.trapPc = some (target (s.file .stvec) true i)) := by
  have f3 := m_flag s 3 (Or.inl rfl)
  have f7 := m_flag s 7 (Or.inr (Or.inl rfl))
  have f11 := m_flag s 11 (Or.inr (Or.inr rfl))
  simp only [if_true, Nat.reduceEqDiff, if_false] at f3 f7 f11
  have g3 : s.irq.mSoft = false := by
    cases h : s.irq.mSoft with
    | false => rfl
    | true => exact absurd (f3.1 h).2 (hm 3 (Or.inl rfl))
  have g7 : s.irq.mTimer = false := by
    cases h : s.irq.mTimer with
    | false => rfl
    | true => exact absurd (f7.1 h).2 (hm 7 (Or.inr (Or.inl rfl)))
  have g11 : s.irq.mExt = false := by
    cases h : s.irq.mExt with
    | false => rfl
    | true => exact absurd (f11.1 h).2 (hm 11 (Or.inr (Or.inr rfl)))
  have f1 := s_flag s hp hd hn 1 (Or.inl rfl)
  have f5 := s_flag s hp hd hn 5 (Or.inr (Or.inl rfl))
  have f9 := s_flag s hp hd hn 9 (Or.inr (Or.inr rfl))
  simp only [if_true, Nat.reduceEqDiff, if_false] at f1 f5 f9
  have flag : ∀ (b : Bool) (j : Nat), (b = true ↔ Taken s.file s.priv (s.file .mideleg) j) →
      (j = 1 ∨ j = 5 ∨ j = 9) → b = decide (j = i) := by
    intro b j hb hj
    rw [Bool.eq_iff_iff, decide_eq_true_eq, hb]
    constructor
    · exact hu j hj
    · rintro rfl; exact ht
  have h1 := flag _ 1 f1 (Or.inl rfl)
  have h5 := flag _ 5 f5 (Or.inr (Or.inl rfl))
  have h9 := flag _ 9 f9 (Or.inr (Or.inr rfl))
  have hmt : mTrap s (interruptAt pc v) = false := by
    simp [mTrap, Irq.mAny, g3, g7, g11, interruptAt]
  have hst : sTrap s (interruptAt pc v) = true := by
    simp only [sTrap, Irq.sAny, h1, h5, h9, interruptAt]
    rcases hi with rfl | rfl | rfl <;> simp
  have hc : sCause s (interruptAt pc v) = 0x80000000#32 + BitVec.ofNat 32 i := by
    simp only [sCause, h1, h5, h9, interruptAt]
    rcases hi with rfl | rfl | rfl <;> simp
  obtain ⟨s', e1, e2, e3⟩ := enterS hs hmt hst rfl
  rw [hc] at e2 e3
  refine ⟨s', e1, e2, fun hv => ?_⟩
  rw [e3]
  rcases hv with hv | hv
  · rw [C28_vector_direct_partial _ _ true i hv]
  · rw [C28_vectored_interrupt _ i (by omega) hv]

/-- C28: MRET returns to the saved program counter in the saved mode (MPP), with the saved interrupt
enable; MPIE becomes 1 and MPP U. -/
theorem C28_mret (s : State) (pc : BitVec 32) :
    ∃ s', step idle (mretAt pc) noLines s = some s' ∧ (exception s (mretAt pc)).2.2.epc = some (s.file .mepc) ∧
      s'.priv = 2 * ((s.file .mstatus).getLsbD 12).toNat + ((s.file .mstatus).getLsbD 11).toNat ∧
      (∀ i < 32, (s'.file .mstatus).getLsbD i = if i = 3 then (s.file .mstatus).getLsbD 7 else if i = 7 then true
        else if i = 11 ∨ i = 12 then false else (s.file .mstatus).getLsbD i) ∧
      ∀ q, q ≠ .mstatus → q ≠ .sstatus → s'.file q = s.file q := by
  refine ⟨_, step_idle rfl s, ?_⟩
  have hm : mTrap s (mretAt pc) = false := by simp [mTrap, mretAt]
  have hst : sTrap s (mretAt pc) = false := by simp [sTrap, mretAt]
  unfold exception
  rw [hm, hst, if_neg (by simp), if_neg (by simp), if_pos (show (mretAt pc).mret = true from rfl)]
  refine ⟨rfl, ?_, ?_, ?_⟩
  · show ((copyFlag (s.file .mstatus) MPIE MIE >>> 11) &&& 3#32).toNat = _
    generalize hx : s.file .mstatus = x
    have hb : ∀ i < 32, ((copyFlag x MPIE MIE >>> 11) &&& 3#32).getLsbD i =
        if i = 0 then x.getLsbD 11 else if i = 1 then x.getLsbD 12 else false := by
      have h3 : ∀ j < 32, (3#32).getLsbD j = (decide (j = 0) || decide (j = 1)) := by decide +kernel
      intro i hi
      rw [BitVec.getLsbD_and, BitVec.getLsbD_ushiftRight, h3 i hi]
      by_cases h0 : i = 0
      · subst h0
        rw [copyFlag_bit x 7 3 11 (by omega) (by omega) (by omega)]; simp
      · by_cases h1 : i = 1
        · subst h1
          rw [copyFlag_bit x 7 3 (11 + 1) (by omega) (by omega) (by omega)]; simp
        · simp [h0, h1]
    have : ((copyFlag x MPIE MIE >>> 11) &&& 3#32) =
        BitVec.ofNat 32 (2 * (x.getLsbD 12).toNat + (x.getLsbD 11).toNat) := by
      apply BitVec.eq_of_getLsbD_eq
      intro i hi
      rw [hb i hi]
      revert i
      cases x.getLsbD 11 <;> cases x.getLsbD 12 <;> decide
    rw [this]
    cases x.getLsbD 11 <;> cases x.getLsbD 12 <;> rfl
  · intro i hi
    exact mstatusRet_bit _ _ hi
  · intro q h1 h2
    simp [Csr.set, h1, h2]

/-- C28: SRET returns to the saved program counter in the saved mode (SPP), with the saved interrupt
enable; SPIE becomes 1 and SPP U. -/
theorem C28_sret {s : State} (hs : Csr.Spec.Reach s) (pc : BitVec 32) :
    ∃ s', step idle (sretAt pc) noLines s = some s' ∧ (exception s (sretAt pc)).2.2.epc = some (s.file .sepc) ∧
      s'.priv = ((s.file .mstatus).getLsbD 8).toNat ∧
      (∀ i < 32, (s'.file .mstatus).getLsbD i = if i = 1 then (s.file .mstatus).getLsbD 5 else if i = 5 then true
        else if i = 8 then false else (s.file .mstatus).getLsbD i) ∧
      ∀ q, q ≠ .mstatus → q ≠ .sstatus → s'.file q = s.file q := by
  refine ⟨_, step_idle rfl s, ?_⟩
  have hm : mTrap s (sretAt pc) = false := by simp [mTrap, sretAt]
  have hst : sTrap s (sretAt pc) = false := by simp [sTrap, sretAt]
  unfold exception
  rw [hm, hst, if_neg (by simp), if_neg (by simp), if_neg (by simp [sretAt]),
    if_pos (show (sretAt pc).sret = true from rfl)]
  refine ⟨rfl, ?_, ?_, ?_⟩
  · show ((copyFlag (s.file .sstatus) SPIE SIE >>> 8) &&& 1#32).toNat = _
    have h8 := sstatus_bit (Csr.Proofs.inv_reach hs) 8 (by omega) (by decide)
    rw [← h8]
    generalize hx : s.file .sstatus = x
    have : ((copyFlag x SPIE SIE >>> 8) &&& 1#32) = BitVec.ofNat 32 (x.getLsbD 8).toNat := by
      have hb := BitVec.and_twoPow (copyFlag x SPIE SIE >>> 8) 0
      simp only [BitVec.twoPow_eq, BitVec.shiftLeft_zero] at hb
      rw [hb, BitVec.getLsbD_ushiftRight, copyFlag_bit x 5 1 (8 + 0) (by omega) (by omega) (by omega)]
      simp only [Nat.add_zero, Nat.reduceEqDiff, if_false]
      cases x.getLsbD 8 <;> rfl
    rw [this]
    cases x.getLsbD 8 <;> rfl
  · intro i hi
    exact merge_ret_bit (Csr.Proofs.inv_reach hs) _ hi
  · intro q h1 h2
    simp [Csr.set, h1, h2]

/-- C28: a trap into M-mode followed by MRET restores the privilege and the interrupt enable and continues at
the trapped instruction. -/
theorem C28_machine_round_trip {s s' : State} {pc c v : BitVec 32} (hp : s.priv = 0 ∨ s.priv = 1 ∨ s.priv = 3)
    (h : EnterM s s' pc c v) (p : BitVec 32) :
    ∃ s'', step idle (mretAt p) noLines s' = some s'' ∧ (exception s' (mretAt p)).2.2.epc = some pc ∧
      s''.priv = s.priv ∧ (s''.file .mstatus).getLsbD 3 = (s.file .mstatus).getLsbD 3 := by
  obtain ⟨s'', h1, h2, h3, h4, _⟩ := C28_mret s' p
  refine ⟨s'', h1, by rw [h2, h.epc], ?_, ?_⟩
  · rw [h3, h.status 12 (by omega), h.status 11 (by omega)]
    rcases hp with hp | hp | hp <;> rw [hp] <;> rfl
  · rw [h4 3 (by omega), if_pos rfl, h.status 7 (by omega)]
    rfl

/-- C28: a trap from U- or S-mode into S-mode followed by SRET restores the privilege and the interrupt
enable and continues at the trapped instruction. -/
theorem C28_supervisor_round_trip {s s' : State} (hs : Csr.Spec.Reach s') {pc c v : BitVec 32}
    (hp : s.priv = 0 ∨ s.priv = 1) (h : EnterS s s' pc c v) (p : BitVec 32) :
    ∃ s'', step idle (sretAt p) noLines s' = some s'' ∧ (exception s' (sretAt p)).2.2.epc = some pc ∧
      s''.priv = s.priv ∧ (s''.file .mstatus).getLsbD 1 = (s.file .mstatus).getLsbD 1 := by
  obtain ⟨s'', h1, h2, h3, h4, _⟩ := C28_sret hs p
  refine ⟨s'', h1, by rw [h2, h.epc], ?_, ?_⟩
  · rw [h3, h.status 8 (by omega)]
    rcases hp with hp | hp <;> rw [hp] <;> rfl
  · rw [h4 1 (by omega), if_pos rfl, h.status 5 (by omega)]
    rfl

/-! ### C30, C49 -/

/-- C30: executing CSR instructions changes no register and not the privilege: without commit, trap, return
or interrupt line the register file stays as it is, whatever is executed. -/
theorem C30_no_effect_before_commit (e : Exe) (s : State) :
    ∃ s', step e nothing noLines s = some s' ∧ s'.file = s.file ∧ s'.priv = s.priv := by
  have hx : exception s nothing = (s.file, s.priv, ⟨none, none⟩) := by
    simp [exception, mTrap, sTrap, nothing]
  unfold step
  rw [hx]
  refine ⟨_, rfl, ?_, ?_⟩
  · show inject noLines s.file = s.file
    rfl
  · show (if e.we = true then _ else _ : State).priv = _
    split <;> rfl

/-- A cycle in which nothing is executed or committed: traps, returns and interrupt lines only. -/
def Waits (s s' : State) : Prop := ∃ (r : Rob) (x : Inject), r.commit = false ∧ step idle r x s = some s'

theorem waits_latch {s s' : State} (h : Relation.ReflTransGen Waits s s') :
    s'.we = s.we ∧ s'.idx = s.idx ∧ s'.wcmd = s.wcmd ∧ s'.wdata = s.wdata := by
  induction h with
  | refl => exact ⟨rfl, rfl, rfl, rfl⟩
  | tail _ h ih =>
    obtain ⟨r, x, hr, h⟩ := h
    simp only [step, hr, idle, Bool.false_and, Bool.false_eq_true, if_false, Option.some.injEq] at h
    subst h
    exact ih

theorem combine_apply (c : Cmd) (w old : BitVec 32) : combine c.code w old = c.apply old w := by
  cases c
  · rfl
  · show w ||| old = old ||| w
    exact BitVec.or_comm ..
  · show ~~~w &&& old = old &&& ~~~w
    exact BitVec.and_comm ..

/-- The bits outside the writable ones of the interrupt registers are always clear. -/
theorem legal_reach {s : State} (h : Csr.Spec.Reach s) : ∀ i < 32, mieMask.getLsbD i = false →
    (s.file .mie).getLsbD i = false ∧ (s.file .mip).getLsbD i = false := by
  intro i hi hm
  have hsie : sieMask.getLsbD i = false := by revert hm; revert i; decide +kernel
  have hline : ∀ (g : File) (l : Option Bool) (k : Nat), k < 32 → i ≠ k → (g .mie).getLsbD i = false ∧ (g .mip).getLsbD i = false →
      (injectLine l (1#32 <<< k) g .mie).getLsbD i = false ∧ (injectLine l (1#32 <<< k) g .mip).getLsbD i = false := by
    intro g l k hk hik hg
    cases l with
    | none => exact hg
    | some v =>
      cases v with
      | true =>
        refine ⟨hg.1, ?_⟩
        show (g .mip ||| 1#32 <<< k).getLsbD i = false
        rw [BitVec.getLsbD_or, hg.2, shl_bit k i hi]; simp [hik]
      | false =>
        refine ⟨hg.1, ?_⟩
        show (g .mip &&& ~~~(1#32 <<< k)).getLsbD i = false
        rw [BitVec.getLsbD_and, hg.2]; rfl
  have hinj : ∀ (g : File) (x : Inject), (g .mie).getLsbD i = false ∧ (g .mip).getLsbD i = false →
      (inject x g .mie).getLsbD i = false ∧ (inject x g .mip).getLsbD i = false := by
    intro g x hg
    have h7 : i ≠ 7 := by rintro rfl; exact absurd hm (by decide)
    have h11 : i ≠ 11 := by rintro rfl; exact absurd hm (by decide)
    exact hline _ _ 7 (by omega) h7 (hline _ _ 11 (by omega) h11 hg)
  induction h with
  | init => simp [State.init]
  | step s s' e r x _ hs ih =>
    have hex : ((exception s r).1 .mie) = s.file .mie ∧ ((exception s r).1 .mip) = s.file .mip := by
      unfold exception
      split
      · exact ⟨rfl, rfl⟩
      · split
        · exact ⟨rfl, rfl⟩
        · split
          · exact ⟨rfl, rfl⟩
          · split <;> exact ⟨rfl, rfl⟩
    have hg : ((exception s r).1 .mie).getLsbD i = false ∧ ((exception s r).1 .mip).getLsbD i = false := by
      rw [hex.1, hex.2]; exact ih
    rcases step_file hs with ⟨_, _, c, _, hf⟩ | ⟨_, hf⟩
    · rw [hf]
      apply hinj
      generalize combine s.wcmd s.wdata (s.file c) = w
      cases c <;> first
        | exact hg
        | (refine ⟨?_, hg.2⟩
           show (_ &&& mieMask : BitVec 32).getLsbD i = false
           rw [BitVec.getLsbD_and, hm, Bool.and_false])
        | (refine ⟨hg.1, ?_⟩
           show (_ &&& mieMask : BitVec 32).getLsbD i = false
           rw [BitVec.getLsbD_and, hm, Bool.and_false])
        | (refine ⟨?_, hg.2⟩
           show ((s.file .mie &&& ~~~sieMask) ||| (w &&& sieMask)).getLsbD i = false
           rw [BitVec.getLsbD_or, BitVec.getLsbD_and, BitVec.getLsbD_and, ih.1, hsie]; simp)
        | (refine ⟨hg.1, ?_⟩
           show ((s.file .mip &&& ~~~sieMask) ||| (w &&& sieMask)).getLsbD i = false
           rw [BitVec.getLsbD_or, BitVec.getLsbD_and, BitVec.getLsbD_and, ih.2, hsie]; simp)
    · rw [hf]; exact hinj _ _ hg

/-- The register written: its writable bits are taken from the new value, the others keep theirs. -/
theorem write_bit {s : State} (h : Csr.Spec.Reach s) (c : Reg) (w : BitVec 32) (i : Nat) (hi : i < 32) :
    (applyWrite s.file s.file c w c).getLsbD i =
      if (writable c).getLsbD i then w.getLsbD i else (s.file c).getLsbD i := by
  have hI := Csr.Proofs.inv_reach h
  have hl := legal_reach h i hi
  have hones : ∀ j < 32, (0xffffffff#32).getLsbD j = true := by decide +kernel
  cases c
  case mstatus =>
    show ((s.file .mstatus &&& ~~~mstatusMask) ||| (w &&& mstatusMask)).getLsbD i = if mstatusMask.getLsbD i then _ else _
    simp only [BitVec.getLsbD_or, BitVec.getLsbD_and, BitVec.getLsbD_not, hi, decide_true, Bool.true_and]
    cases mstatusMask.getLsbD i <;> simp
  case sstatus =>
    show (((s.file .mstatus &&& ~~~sstatusMask) ||| (w &&& sstatusMask)) &&& sstatusMask).getLsbD i = if sstatusMask.getLsbD i then _ else _
    rw [hI.status]
    simp only [BitVec.getLsbD_or, BitVec.getLsbD_and, BitVec.getLsbD_not, hi, decide_true, Bool.true_and]
    cases sstatusMask.getLsbD i <;> simp
  case mie =>
    show (w &&& mieMask).getLsbD i = if mieMask.getLsbD i then _ else _
    rw [BitVec.getLsbD_and]
    cases hm : mieMask.getLsbD i
    · rw [(hl hm).1]; simp
    · simp
  case mip =>
    show (w &&& mieMask).getLsbD i = if mieMask.getLsbD i then _ else _
    rw [BitVec.getLsbD_and]
    cases hm : mieMask.getLsbD i
    · rw [(hl hm).2]; simp
    · simp
  case sie =>
    show (((s.file .mie &&& ~~~sieMask) ||| (w &&& sieMask)) &&& sieMask).getLsbD i = if sieMask.getLsbD i then _ else _
    rw [hI.ie]
    simp only [BitVec.getLsbD_or, BitVec.getLsbD_and, BitVec.getLsbD_not, hi, decide_true, Bool.true_and]
    cases sieMask.getLsbD i <;> simp
  case sip =>
    show (((s.file .mip &&& ~~~sieMask) ||| (w &&& sieMask)) &&& sieMask).getLsbD i = if sieMask.getLsbD i then _ else _
    rw [hI.ip]
    simp only [BitVec.getLsbD_or, BitVec.getLsbD_and, BitVec.getLsbD_not, hi, decide_true, Bool.true_and]
    cases sieMask.getLsbD i <;> simp
  all_goals
    show w.getLsbD i = if (0xffffffff#32).getLsbD i then _ else _
    rw [hones i hi, if_pos rfl]

theorem step_commit {s : State} {c : Reg} (hw : s.we = true) (hc : cvt s.idx = some c) :
    step idle committed noLines s = some ⟨applyWrite s.file s.file c (combine s.wcmd s.wdata (s.file c)), s.priv, false,
      s.idx, s.wcmd, s.wdata⟩ := by
  have hx : exception s committed = (s.file, s.priv, ⟨none, none⟩) := by
    simp [exception, mTrap, sTrap, committed]
  unfold step
  rw [hx]
  simp only [idle, committed, hw, hc, Bool.and_self, if_true, Option.map_some, noLines, inject, injectLine]
  simp

/-- C30: a CSR instruction that executed in state `s` and commits after any number of cycles (with any traps,
returns and interrupts in between, but no further CSR instruction) makes its write on commit: the
writable bits of the register become those of the command applied to the register's value at commit,
the other bits stay.  That squashed instructions leave no trace is false, see
`C30_squashed_write_applied`. -/
theorem C30_write_at_commit_partial {s s1 s2 : State} (hs : Csr.Spec.Reach s) (k : Cmd) (i : Nat) (c : Reg) (w : BitVec 32)
    (re : Bool) (hc : cvt i = some c) (r : Rob) (x : Inject) (hr : r.commit = false)
    (h1 : step ⟨true, re, i, k.code, w⟩ r x s = some s1) (h2 : Relation.ReflTransGen Waits s1 s2) :
    ∃ s3, step idle committed noLines s2 = some s3 ∧ s3.priv = s2.priv ∧ s3.we = false ∧
      ∀ j < 32, (s3.file c).getLsbD j =
        if (writable c).getLsbD j then (k.apply (s2.file c) w).getLsbD j else (s2.file c).getLsbD j := by
  have hs1 : Csr.Spec.Reach s1 := .step _ _ _ _ _ hs h1
  have hs2 : Csr.Spec.Reach s2 := by
    induction h2 with
    | refl => exact hs1
    | tail _ h ih =>
      obtain ⟨r, x, _, h⟩ := h
      exact .step _ _ _ _ _ ih h
  obtain ⟨l1, l2, l3, l4⟩ := waits_latch h2
  simp only [step, hr, Bool.false_and, Bool.false_eq_true, if_false, if_true, Option.some.injEq] at h1
  subst h1
  simp only at l1 l2 l3 l4
  have hst := step_commit l1 (c := c) (by rw [l2]; exact hc)
  refine ⟨_, hst, rfl, rfl, ?_⟩
  intro j hj
  show (applyWrite s2.file s2.file c (combine s2.wcmd s2.wdata (s2.file c)) c).getLsbD j = _
  rw [write_bit hs2 c _ j hj, l3, l4, combine_apply]

/-- C30: the request of each of the six CSR instructions (function code `k` for the register form, `k + 4` for
the immediate form; `z` is the 5-bit source field): the command is the instruction's, the operand is
the source register's value or the zero-extended field, a write is made by CSRRW/CSRRWI always and by
the others iff the source field is not zero, and CSRRW/CSRRWI with destination x0 do not read. -/
theorem C30_request (k : Cmd) (z : BitVec 5) (dest i : Nat) (immForm : Bool) (src : BitVec 32) :
    let e := request (k.code + if immForm then 4 else 0) (z.setWidth 32) dest i immForm src
    (e.we = true ↔ k = .write ∨ z ≠ 0#5) ∧ (e.re = true ↔ k ≠ .write ∨ dest ≠ 0) ∧ e.idx = i ∧ e.wcmd = k.code ∧
      e.wdata = if immForm then z.setWidth 32 else src := by
  have hz : (z.setWidth 32 != 0#32) = true ↔ z ≠ 0#5 := by
    revert z; decide +kernel
  cases k <;> cases immForm <;>
    simp only [request, Cmd.code, Bool.or_eq_true, hz] <;> simp

/-- C49: a committed CSR write changes no register other than the one addressed and its other name. -/
theorem C49_write_frame {s s' : State} {c q : Reg} (hw : s.we = true) (hc : cvt s.idx = some c)
    (h : step idle committed noLines s = some s') (h1 : q ≠ c) (h2 : Spec.alias c ≠ some q) :
    s'.file q = s.file q := by
  rw [step_commit hw hc] at h
  injection h with h
  subst h
  show applyWrite s.file s.file c _ q = _
  cases c <;> simp [applyWrite, Csr.set, h1] <;> simp [Spec.alias] at h2 <;> intro h3 <;> subst h3 <;> simp at h2

/-- C49: a number addresses the architecture's register of that number, other numbers none. -/
theorem C49_addressing (i : Nat) (r : Reg) : cvt i = some r ↔ i = number r := by
  constructor
  · intro h
    unfold cvt at h
    split at h <;> first | (injection h with h; subst h; rfl) | exact absurd h (by simp)
  · rintro rfl
    cases r <;> rfl

/-- C49: a register reads back the value written to it, on its writable bits. -/
theorem C49_read_back {s s' : State} (hs : Csr.Spec.Reach s) {c : Reg} {k : Cmd} (hw : s.we = true) (hc : cvt s.idx = some c)
    (hk : s.wcmd = k.code) (h : step idle committed noLines s = some s') :
    ∃ v, Csr.read s' s.idx = some v ∧ ∀ j < 32, v.getLsbD j =
      if (writable c).getLsbD j then (k.apply (s.file c) s.wdata).getLsbD j else (s.file c).getLsbD j := by
  rw [step_commit hw hc] at h
  injection h with h
  subst h
  refine ⟨_, by simp only [Csr.read, hc, Option.map_some]; rfl, ?_⟩
  intro j hj
  rw [write_bit hs c _ j hj, hk, combine_apply]

/-- C49 fails as to access rights: what a CSR instruction does is the same in every mode, so user-mode
code can change machine registers. -/
theorem C49_no_privilege_check (e : Exe) (x : Inject) (r : Rob) (hr : r = nothing ∨ r = committed) (s : State) (p : Nat) :
    (step e r x { s with priv := p }).map State.file = (step e r x s).map State.file := by
  have hx : ∀ p, exception { s with priv := p } r = (s.file, p, ⟨none, none⟩) := by
    intro p
    rcases hr with rfl | rfl <;> simp [exception, mTrap, sTrap, nothing, committed]
  have hx' := hx s.priv
  have hss : ({ s with priv := s.priv } : State) = s := rfl
  rw [hss] at hx'
  unfold step
  rw [hx, hx']
  simp only
  split
  · cases cvt s.idx <;> rfl
  · rfl

/-! ### Concrete runs -/
namespace CsrRun

/-- A run from a state: the inputs of each cycle. -/
def after (s : State) : List (Exe × Rob × Inject) → Option State
  | [] => some s
  | (e, r, x) :: t => (step e r x s).bind (after · t)

theorem reach_after {s s' : State} {l : List (Exe × Rob × Inject)} (hs : Csr.Spec.Reach s) (h : after s l = some s') :
    Csr.Spec.Reach s' := by
  induction l generalizing s with
  | nil => injection h with h; subst h; exact hs
  | cons a t ih =>
    obtain ⟨e, r, x⟩ := a
    simp only [after, Option.bind_eq_some_iff] at h
    obtain ⟨s1, h1, h2⟩ := h
    exact ih (.step _ _ _ _ _ hs h1) h2

/-- `csrw i, v` executed and committed. -/
def csrw (i : Nat) (v : BitVec 32) : List (Exe × Rob × Inject) :=
  [(request 1 0#32 0 i false v, nothing, noLines), (idle, committed, noLines)]

/-- The numbers of the registers used below. -/
abbrev nMstatus := 0x300
abbrev nMedeleg := 0x302
abbrev nMideleg := 0x303
abbrev nMie := 0x304
abbrev nMtvec := 0x305
abbrev nMepc := 0x341
abbrev nMscratch := 0x340
abbrev nStvec := 0x105
abbrev nSie := 0x104
abbrev nMip := 0x344

/-- The state after a run from reset (reset itself should the run abort: it never does below). -/
def run (l : List (Exe × Rob × Inject)) : State := (after .init l).getD .init

theorem reach_run (l : List (Exe × Rob × Inject)) : Csr.Spec.Reach (run l) := by
  unfold run
  cases h : after State.init l with
  | none => exact .init
  | some s => exact reach_after .init h

/-- Boot: enable the machine timer and external interrupts, delegate page faults, illegal instructions and
user environment calls as well as all supervisor interrupts, set the vectors, drop to user mode. -/
def boot : State := run (csrw nMie 0xaaa#32 ++ csrw nMedeleg 0xb104#32 ++ csrw nMideleg 0x222#32 ++
  csrw nMtvec 0x1000#32 ++ csrw nStvec 0x2001#32 ++ csrw nMepc 0x400#32 ++ csrw nMstatus 0x80#32 ++
  [(idle, mretAt 0#32, noLines)])

/-- The boot code does what it says. -/
example : boot.priv = 0 ∧ boot.file .mie = 0xaaa#32 ∧ boot.file .sie = 0x222#32 ∧ boot.file .mstatus = 0x88#32 ∧
    boot.file .mideleg = 0x222#32 ∧ boot.file .stvec = 0x2001#32 ∧ boot.interruptReq = false := by decide +kernel

/-- C27: `sie` follows `mie`. -/
example : Consistent boot.file ∧ boot.file .sie ≠ 0#32 :=
  ⟨C27_views_consistent (reach_run _), by decide +kernel⟩

/-- C29: the timer line raises a request in user mode. -/
def ticked : State := (step idle nothing ⟨none, some true⟩ boot).getD .init

theorem reach_ticked : Csr.Spec.Reach ticked := by
  have h : step idle nothing ⟨none, some true⟩ boot = some ticked := by
    unfold ticked
    cases h : step idle nothing ⟨none, some true⟩ boot with
    | none => exact absurd (congrArg Option.isSome h) (by decide +kernel)
    | some s => rfl
  exact .step _ _ _ _ _ (reach_run _) h

example : ∃ i ∈ standard, Taken ticked.file ticked.priv (ticked.file .mideleg) i :=
  (C29_taken_iff_partial ticked (by decide +kernel) (by decide +kernel)).1 (by decide +kernel)

/-- C28: an environment call and an illegal instruction from the booted user program go to S-mode, ... -/
example : ∃ s', step idle (Exc.ecall.report 0x500#32 7#32) noLines boot = some s' ∧
    EnterS boot s' 0x500#32 8#32 0#32 := by
  obtain ⟨s', h1, h2, _⟩ := C28_exception_to_S (reach_run _) (s := boot) .ecall 0x500#32 7#32 (by decide +kernel)
    (by decide +kernel) (by decide +kernel)
  exact ⟨s', h1, h2⟩

/-- ... an exception of the reset state goes to M-mode, ... -/
example : ∃ s', step idle (Exc.illegal.report 0x500#32 7#32) noLines .init = some s' ∧
    EnterM .init s' 0x500#32 2#32 7#32 := by
  obtain ⟨s', h1, h2, _⟩ := C28_exception_to_M_partial .init .illegal 0x500#32 7#32 (by decide +kernel)
    (by decide +kernel) (by decide +kernel) (by decide +kernel)
  exact ⟨s', h1, h2⟩

instance (f : File) (p : Nat) (d : BitVec 32) (i : Nat) : Decidable (Taken f p d i) := by
  unfold Taken; infer_instance

/-- ... the timer interrupt goes to M-mode at the vector, ... -/
example : ∃ s', step idle (interruptAt 0x500#32 0#32) noLines ticked = some s' ∧
    EnterM ticked s' 0x500#32 0x80000007#32 0#32 ∧
    (exception ticked (interruptAt 0x500#32 0#32)).2.2.trapPc = some 0x1000#32 := by
  obtain ⟨s', h1, h2, h3⟩ := C28_interrupt_to_M_partial ticked 0x500#32 0#32 7 (by decide) (by decide +kernel) (by
    rintro j (rfl | rfl | rfl) h
    · exact absurd h (by decide +kernel)
    · rfl
    · exact absurd h (by decide +kernel))
  exact ⟨s', h1, h2, by rw [h3 (by decide +kernel)]; decide +kernel⟩

/-- ... and a supervisor software interrupt to S-mode, vectored. -/
def soft : State := run (csrw nMie 0xaaa#32 ++ csrw nMideleg 0x222#32 ++ csrw nStvec 0x2001#32 ++
  csrw nMip 0x2#32 ++ [(idle, mretAt 0#32, noLines)])

example : ∃ s', step idle (interruptAt 0x500#32 0#32) noLines soft = some s' ∧
    EnterS soft s' 0x500#32 0x80000001#32 0#32 ∧
    (exception soft (interruptAt 0x500#32 0#32)).2.2.trapPc = some 0x2004#32 := by
  obtain ⟨s', h1, h2, h3⟩ := C28_interrupt_to_S_partial (reach_run _) (s := soft) 0x500#32 0#32 1 (by decide +kernel)
    (by decide +kernel) (by decide +kernel) (by decide) (by decide +kernel)
    (by rintro j (rfl | rfl | rfl) <;> decide +kernel)
    (by
      rintro j (rfl | rfl | rfl) h
      · rfl
      · exact absurd h (by decide +kernel)
      · exact absurd h (by decide +kernel))
  exact ⟨s', h1, h2, by rw [h3 (by decide +kernel)]; decide +kernel⟩

/-- C28: the round trip applies to the timer interrupt of the user program. -/
example : ∃ s' s'', step idle (interruptAt 0x500#32 0#32) noLines ticked = some s' ∧
    step idle (mretAt 0x1040#32) noLines s' = some s'' ∧ s''.priv = 0 := by
  obtain ⟨s', h1, h2, _⟩ := C28_interrupt_to_M_partial ticked 0x500#32 0#32 7 (by decide) (by decide +kernel) (by
    rintro j (rfl | rfl | rfl) h
    · exact absurd h (by decide +kernel)
    · rfl
    · exact absurd h (by decide +kernel))
  obtain ⟨s'', h3, _, h4, _⟩ := C28_machine_round_trip (by decide +kernel) h2 0x1040#32
  exact ⟨s', s'', h1, h3, h4.trans (by decide +kernel)⟩

example : ∃ s' s'', step idle (Exc.ecall.report 0x500#32 7#32) noLines boot = some s' ∧
    step idle (sretAt 0x2040#32) noLines s' = some s'' ∧ s''.priv = 0 := by
  obtain ⟨s', h1, h2, _⟩ := C28_exception_to_S (reach_run _) (s := boot) .ecall 0x500#32 7#32 (by decide +kernel)
    (by decide +kernel) (by decide +kernel)
  obtain ⟨s'', h3, _, h4, _⟩ := C28_supervisor_round_trip (.step _ _ _ _ _ (reach_run _) h1) (Or.inl (by decide +kernel)) h2 0x2040#32
  exact ⟨s', s'', h1, h3, h4.trans (by decide +kernel)⟩

/-- C28 fails: with `medeleg` delegating illegal instructions, one executed in M-mode traps to the less
privileged S-mode; SPP cannot record where it came from and says U. -/
theorem C28_to_less_privileged : ∃ s s', Csr.Spec.Reach s ∧ s.priv = 3 ∧ s.interruptReq = false ∧
    step idle (Exc.illegal.report 0x500#32 7#32) noLines s = some s' ∧ s'.priv = 1 ∧
    (s'.file .mstatus).getLsbD 8 = false ∧ s'.file .mepc = s.file .mepc := by
  refine ⟨run (csrw nMedeleg 0x4#32), (step idle (Exc.illegal.report 0x500#32 7#32) noLines
    (run (csrw nMedeleg 0x4#32))).getD .init, reach_run _, ?_⟩
  refine ⟨by decide +kernel, by decide +kernel, ?_, by decide +kernel, by decide +kernel, by decide +kernel⟩
  rw [step_idle rfl]; rfl

/-- C28 fails: an environment call from M-mode reports cause 0 (instruction address misaligned) instead of
11 once user environment calls are delegated. -/
theorem C28_machine_ecall_cause : ∃ s s', Csr.Spec.Reach s ∧ s.priv = 3 ∧ s.interruptReq = false ∧
    step idle (Exc.ecall.report 0x500#32 7#32) noLines s = some s' ∧ s'.priv = 3 ∧ s'.file .mcause = 0#32 := by
  refine ⟨run (csrw nMedeleg 0x100#32), (step idle (Exc.ecall.report 0x500#32 7#32) noLines
    (run (csrw nMedeleg 0x100#32))).getD .init, reach_run _, ?_⟩
  refine ⟨by decide +kernel, by decide +kernel, ?_, by decide +kernel, by decide +kernel⟩
  rw [step_idle rfl]; rfl

/-- C28 fails: with a vectored `stvec` an exception continues at an address with bit 0 set, not at BASE. -/
theorem C28_vectored_exception_misaligned : ∃ s, Csr.Spec.Reach s ∧ s.interruptReq = false ∧
    (exception s (Exc.ecall.report 0x500#32 7#32)).2.2.trapPc = some 0x2001#32 ∧
    target (s.file .stvec) false 8 = 0x2000#32 :=
  ⟨boot, reach_run _, by decide +kernel, by decide +kernel, by decide +kernel⟩

/-- C28 fails: with the machine timer and external interrupts both pending the timer is served first; the
architecture's order is external, software, timer. -/
theorem C28_interrupt_order : ∃ s s', Csr.Spec.Reach s ∧
    Taken s.file s.priv (s.file .mideleg) 11 ∧ (s.file .mideleg).getLsbD 11 = false ∧
    step idle (interruptAt 0x500#32 0#32) noLines s = some s' ∧ s'.file .mcause = 0x80000007#32 := by
  refine ⟨run (csrw nMie 0x880#32 ++ csrw nMstatus 0x8#32 ++ [(idle, nothing, ⟨some true, some true⟩)]),
    (step idle (interruptAt 0x500#32 0#32) noLines (run (csrw nMie 0x880#32 ++ csrw nMstatus 0x8#32 ++
      [(idle, nothing, ⟨some true, some true⟩)]))).getD .init, reach_run _, ?_⟩
  refine ⟨by decide +kernel, by decide +kernel, ?_, by decide +kernel⟩
  rw [step_idle rfl]; rfl

/-- C28 fails: a machine timer interrupt delegated to S-mode is reported with the supervisor timer's code. -/
theorem C28_delegated_machine_interrupt_code : ∃ s s', Csr.Spec.Reach s ∧
    Taken s.file s.priv (s.file .mideleg) 7 ∧ (s.file .mip).getLsbD 5 = false ∧
    step idle (interruptAt 0x500#32 0#32) noLines s = some s' ∧ s'.file .scause = 0x80000005#32 := by
  refine ⟨run (csrw nMie 0x80#32 ++ csrw nMideleg 0x80#32 ++ [(idle, mretAt 0#32, noLines), (idle, nothing, ⟨none, some true⟩)]),
    (step idle (interruptAt 0x500#32 0#32) noLines (run (csrw nMie 0x80#32 ++ csrw nMideleg 0x80#32 ++
      [(idle, mretAt 0#32, noLines), (idle, nothing, ⟨none, some true⟩)]))).getD .init, reach_run _, ?_⟩
  refine ⟨by decide +kernel, by decide +kernel, ?_, by decide +kernel⟩
  rw [step_idle rfl]; rfl

/-- C29 fails without delegation: a pending, enabled supervisor software interrupt that is not delegated must
be taken in M-mode with MIE set; the program never requests it.  In user mode it is requested, but
goes to S-mode. -/
theorem C29_undelegated : (∃ s, Csr.Spec.Reach s ∧ s.priv = 3 ∧ Taken s.file s.priv (s.file .mideleg) 1 ∧
      s.interruptReq = false) ∧
    ∃ s s', Csr.Spec.Reach s ∧ (s.file .mideleg).getLsbD 1 = false ∧ Taken s.file s.priv (s.file .mideleg) 1 ∧
      step idle (interruptAt 0x500#32 0#32) noLines s = some s' ∧ s'.priv = 1 := by
  refine ⟨⟨run (csrw nMie 0x2#32 ++ csrw nMip 0x2#32 ++ csrw nMstatus 0x8#32), reach_run _, by decide +kernel,
    by decide +kernel, by decide +kernel⟩, ?_⟩
  refine ⟨run (csrw nMie 0x2#32 ++ csrw nMip 0x2#32 ++ [(idle, mretAt 0#32, noLines)]),
    (step idle (interruptAt 0x500#32 0#32) noLines (run (csrw nMie 0x2#32 ++ csrw nMip 0x2#32 ++
      [(idle, mretAt 0#32, noLines)]))).getD .init, reach_run _, ?_⟩
  refine ⟨by decide +kernel, by decide +kernel, ?_, by decide +kernel⟩
  rw [step_idle rfl]; rfl

/-- C30: `csrs mscratch` executed, three cycles with a timer line and a trap, then commit. -/
example : ∃ s3, step idle committed noLines ((after boot [(request 2 3#32 0 nMscratch false 0x30#32, nothing, noLines),
      (idle, nothing, ⟨none, some true⟩)]).getD .init) = some s3 ∧ s3.file .mscratch = 0x30#32 := by
  have h : ∃ s1, step (request 2 3#32 0 nMscratch false 0x30#32) nothing noLines boot = some s1 :=
    ⟨_, (C30_no_effect_before_commit _ _).choose_spec.1⟩
  obtain ⟨s1, h1⟩ := h
  have h2 : ∃ s2, step idle nothing ⟨none, some true⟩ s1 = some s2 := ⟨_, rfl⟩
  obtain ⟨s2, h2⟩ := h2
  have hg : (after boot [(request 2 3#32 0 nMscratch false 0x30#32, nothing, noLines), (idle, nothing, ⟨none, some true⟩)]).getD .init = s2 := by
    simp only [after, h1, Option.bind_some, h2, Option.getD_some]
  obtain ⟨s3, h3, _⟩ := C30_write_at_commit_partial (reach_run _) .set nMscratch .mscratch 0x30#32 true rfl nothing noLines rfl h1
    (.single ⟨nothing, _, rfl, h2⟩)
  refine ⟨s3, by rw [hg]; exact h3, ?_⟩
  have : ((after boot [(request 2 3#32 0 nMscratch false 0x30#32, nothing, noLines), (idle, nothing, ⟨none, some true⟩),
    (idle, committed, noLines)]).map (fun s => s.file .mscratch)) = some 0x30#32 := by decide +kernel
  simpa only [after, h1, Option.bind_some, h2, h3, Option.map_some, Option.some.injEq] using this

/-- C30 fails for squashed instructions: `csrw mtvec, 0x3000` executes, the timer interrupt is taken before it
commits (so the instruction is squashed), the handler reads `mscratch` - and with the commit of that
read the squashed write to `mtvec` happens. -/
theorem C30_squashed_write_applied : ∃ s0 s1, Csr.Spec.Reach s0 ∧
    after s0 [(request 1 0#32 0 nMtvec false 0x3000#32, nothing, noLines),
      (idle, interruptAt 0x500#32 0#32, noLines),
      (request 2 0#32 5 nMscratch false 0#32, nothing, noLines),
      (idle, committed, noLines)] = some s1 ∧
    s0.interruptReq = true ∧ s0.file .mtvec = 0x1000#32 ∧ s1.file .mtvec = 0x3000#32 := by
  have h : (after ticked [(request 1 0#32 0 nMtvec false 0x3000#32, nothing, noLines),
      (idle, interruptAt 0x500#32 0#32, noLines),
      (request 2 0#32 5 nMscratch false 0#32, nothing, noLines),
      (idle, committed, noLines)]).map (fun s => s.file .mtvec) = some 0x3000#32 := by decide +kernel
  obtain ⟨s1, h1, h2⟩ := Option.map_eq_some_iff.1 h
  exact ⟨ticked, s1, reach_ticked, h1, by decide +kernel, by decide +kernel, h2⟩

/-- C49: writes of `sie` change `mie`, and nothing else. -/
example : ∃ s s', Csr.Spec.Reach s ∧ s.we = true ∧ cvt s.idx = some .sie ∧
    step idle committed noLines s = some s' ∧ s'.file .mie = 0x888#32 ∧ s.file .mie = 0xaaa#32 ∧
    s'.file .mtvec = s.file .mtvec := by
  have hw : (run (csrw nMie 0xaaa#32 ++ [(request 1 0#32 0 nSie false 0#32, nothing, noLines)])).we = true := by decide +kernel
  have hc : cvt (run (csrw nMie 0xaaa#32 ++ [(request 1 0#32 0 nSie false 0#32, nothing, noLines)])).idx = some .sie := by decide +kernel
  refine ⟨_, _, reach_run _, hw, hc, step_commit hw hc, by decide +kernel, by decide +kernel, ?_⟩
  exact C49_write_frame hw hc (step_commit hw hc) (by decide) (by decide)

example : ∃ s s' v, Csr.Spec.Reach s ∧ step idle committed noLines s = some s' ∧ Csr.read s' nMstatus = some v ∧
    v.getLsbD 31 = true ∧ v.getLsbD 30 = false := by
  have hw : (run [(request 1 0#32 0 nMstatus false 0xffffffff#32, nothing, noLines)]).we = true := by decide +kernel
  have hc : cvt (run [(request 1 0#32 0 nMstatus false 0xffffffff#32, nothing, noLines)]).idx = some .mstatus := by decide +kernel
  obtain ⟨v, h1, h2⟩ := C49_read_back (k := .write) (reach_run _) hw hc (by decide +kernel) (step_commit hw hc)
  refine ⟨_, _, v, reach_run _, step_commit hw hc, ?_, ?_, ?_⟩
  · rw [← h1]; exact congrArg (Csr.read _) (by decide +kernel)
  · rw [h2 31 (by omega), if_pos (by decide +kernel)]; decide +kernel
  · rw [h2 30 (by omega), if_neg (by decide +kernel)]; decide +kernel

/-- C49 fails: user-mode code changes the machine trap vector, and the read-only hart identifier can be
written. -/
theorem C49_user_writes_machine_registers :
    (∃ s s', Csr.Spec.Reach s ∧ s.priv = 0 ∧ after s (csrw nMtvec 0x3000#32) = some s' ∧ s'.priv = 0 ∧
      s.file .mtvec = 0x1000#32 ∧ s'.file .mtvec = 0x3000#32) ∧
    ∃ s', after .init (csrw 0xf14 5#32) = some s' ∧ s'.file .mhartid = 5#32 := by
  constructor
  · have h : (after boot (csrw nMtvec 0x3000#32)).map (fun s => (s.priv, s.file .mtvec)) = some (0, 0x3000#32) := by decide +kernel
    obtain ⟨s1, h1, h2⟩ := Option.map_eq_some_iff.1 h
    injection h2 with h2 h3
    exact ⟨boot, s1, reach_run _, by decide +kernel, h1, h2, by decide +kernel, h3⟩
  · have h : (after .init (csrw 0xf14 5#32)).map (fun s => s.file .mhartid) = some 5#32 := by decide +kernel
    obtain ⟨s1, h1, h2⟩ := Option.map_eq_some_iff.1 h
    exact ⟨s1, h1, h2⟩

end CsrRun
end Verif.Props

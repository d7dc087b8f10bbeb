import Verif.Spec.DifftestSpec
/-
C83: differential testing reports the first disagreement, and only disagreements.
-/
namespace Verif.Props
open Verif.Csr Verif.Difftest Verif.Difftest.Spec

theorem irqCsr_iff (w : BitVec 32) : irqCsr w = true ↔ NamesPending w := by
  have h1 : w &&& 0x7f#32 = (w.extractLsb' 0 7).setWidth 32 := by
    have hm : ∀ i < 32, (0x7f#32).getLsbD i = decide (i < 7) := by decide
    apply BitVec.eq_of_getLsbD_eq
    intro i hi
    rw [BitVec.getLsbD_and, hm i hi, BitVec.getLsbD_setWidth, BitVec.getLsbD_extractLsb']
    by_cases h : i < 7 <;> simp [h, hi]
  have h2 : w >>> 20 = (w.extractLsb' 20 12).setWidth 32 := by
    apply BitVec.eq_of_getLsbD_eq
    intro i hi
    rw [BitVec.getLsbD_ushiftRight, BitVec.getLsbD_setWidth, BitVec.getLsbD_extractLsb']
    by_cases h : i < 12
    · simp [h, hi]
    · simp [h, BitVec.getLsbD_of_ge _ _ (show 32 ≤ 20 + i by omega)]
  have h3 : ∀ x : BitVec 7, x.setWidth 32 = 0x73#32 ↔ x = 0x73#7 := by decide +kernel
  have h4 : ∀ x : BitVec 12, (x.setWidth 32 = 0x344#32 ↔ x = 0x344#12) ∧ (x.setWidth 32 = 0x144#32 ↔ x = 0x144#12) := by
    intro x
    have k : ∀ n < 4096, (x.setWidth 32 = BitVec.ofNat 32 n ↔ x = BitVec.ofNat 12 n) := by
      intro n hn
      constructor
      · intro h
        apply BitVec.eq_of_toNat_eq
        have := congrArg BitVec.toNat h
        rw [BitVec.toNat_setWidth, Nat.mod_eq_of_lt (by have := x.isLt; omega), BitVec.toNat_ofNat,
          Nat.mod_eq_of_lt (by omega)] at this
        rw [this, BitVec.toNat_ofNat, Nat.mod_eq_of_lt (by omega)]
      · rintro rfl
        apply BitVec.eq_of_toNat_eq
        rw [BitVec.toNat_setWidth, BitVec.toNat_ofNat, BitVec.toNat_ofNat, Nat.mod_eq_of_lt (show n < 2 ^ 12 by omega)]
    exact ⟨k 0x344 (by decide), k 0x144 (by decide)⟩
  unfold irqCsr NamesPending
  rw [h1, h2]
  simp only [Bool.and_eq_true, Bool.or_eq_true, decide_eq_true_iff, h3, (h4 _).1, (h4 _).2]

theorem mem_allRegs (q : Reg) : q ∈ allRegs := by cases q <;> decide

theorem pend_mask : ∀ i < 32, (~~~(MEIP ||| MTIP)).getLsbD i = decide (i ≠ 7 ∧ i ≠ 11) := by decide

theorem mask_eq (a b : BitVec 32) : a &&& ~~~(MEIP ||| MTIP) = b &&& ~~~(MEIP ||| MTIP) ↔
    ∀ i < 32, i ≠ 7 → i ≠ 11 → b.getLsbD i = a.getLsbD i := by
  constructor
  · intro h i hi h7 h11
    have := congrArg (fun x => x.getLsbD i) h
    rw [BitVec.getLsbD_and, BitVec.getLsbD_and, pend_mask i hi] at this
    simpa [h7, h11] using this.symm
  · intro h
    apply BitVec.eq_of_getLsbD_eq
    intro i hi
    rw [BitVec.getLsbD_and, BitVec.getLsbD_and, pend_mask i hi]
    by_cases h7 : i = 7
    · simp [h7]
    · by_cases h11 : i = 11
      · simp [h11]
      · rw [h i hi h7 h11]

theorem guard_iff {c : Prop} [Decidable c] {x : Bool} : (if c then false else x) = true ↔ ¬ c ∧ x = true := by
  split <;> simp_all

/-- C83: the checker accepts exactly when core and reference agree. -/
theorem C83_check (r d : Cpu) : check r d = true ↔ Agree r d := by
  have hregs : (∀ q, maskIrq r.inst r.csr q = maskIrq r.inst d.csr q) ↔
      (∀ q, q ≠ .mip → q ≠ .sip → d.csr q = r.csr q) ∧
      (∀ i < 32, i ≠ 7 → i ≠ 11 → (d.csr .mip).getLsbD i = (r.csr .mip).getLsbD i) ∧
      (NamesPending r.inst → d.csr .mip = r.csr .mip ∧ d.csr .sip = r.csr .sip) := by
    by_cases hp : NamesPending r.inst
    · have hi := (irqCsr_iff _).2 hp
      simp only [maskIrq, hi, if_true]
      constructor
      · intro h
        exact ⟨fun q _ _ => (h q).symm, fun i _ _ _ => by rw [h .mip], fun _ => ⟨(h .mip).symm, (h .sip).symm⟩⟩
      · rintro ⟨h1, _, h3⟩ q
        by_cases hq : q = .mip
        · rw [hq]; exact (h3 hp).1.symm
        · by_cases hq2 : q = .sip
          · rw [hq2]; exact (h3 hp).2.symm
          · exact (h1 q hq hq2).symm
    · have hi : irqCsr r.inst = false := by
        cases h : irqCsr r.inst
        · rfl
        · exact absurd ((irqCsr_iff _).1 h) hp
      simp only [maskIrq, hi, Bool.false_eq_true, if_false]
      constructor
      · intro h
        refine ⟨fun q h1 h2 => ?_, ?_, fun h => absurd h hp⟩
        · have := h q
          simp only [Csr.set, h1, h2, if_false] at this
          exact this.symm
        · have := h .mip
          simp only [Csr.set] at this
          exact (mask_eq _ _).1 (by simpa using this)
      · rintro ⟨h1, h2, _⟩ q
        have hm := (mask_eq _ _).2 h2
        by_cases hq2 : q = .sip
        · simp only [Csr.set, hq2, if_true]; rw [hm]
        · by_cases hq : q = .mip
          · simp only [Csr.set, hq]; simpa using hm
          · simp only [Csr.set, hq, hq2, if_false]; exact (h1 q hq hq2).symm
  unfold check
  dsimp only
  constructor
  · intro h
    simp only [guard_iff] at h
    obtain ⟨a1, a2, a3, a4, a5, a6, a7, a8⟩ := h
    have a1 := Decidable.not_not.1 a1
    simp only [Bool.and_eq_true, Bool.not_eq_true', bne_iff_ne, ne_eq, not_and, Decidable.not_not] at a2 a3 a4 a5
    have a6 : ∀ i < 32, r.gpr i = d.gpr i := by simpa using a6
    have a7 : ∀ q, maskIrq r.inst r.csr q = maskIrq r.inst d.csr q := by
      intro q
      have := a7
      simp at this
      exact this q (mem_allRegs q)
    obtain ⟨b1, b2, b3⟩ := hregs.1 a7
    refine ⟨a1.symm, fun h => (a2 h).symm, a3.symm, a4.symm, a5.symm, fun i hi => (a6 i hi).symm, b1, b2, b3, fun hs => ?_⟩
    rw [if_pos hs] at a8
    simp only [guard_iff, bne_iff_ne, ne_eq, Decidable.not_not, and_true] at a8
    obtain ⟨c1, c2, c3⟩ := a8
    exact ⟨c1.trans hs, c3, c2⟩
  · intro h
    have a7 := hregs.2 ⟨h.csrs, h.pending, h.pendingAll⟩
    rw [if_neg (by simp [h.pc]), if_neg (by
        cases hp : r.pfInst
        · simp [h.word hp]
        · simp),
      if_neg (by simp [h.fetchFault]), if_neg (by simp [h.loadFault]), if_neg (by simp [h.storeFault]),
      if_neg (by simpa using fun i hi => (h.regs i hi).symm), if_neg (by simp; exact fun q _ => a7 q)]
    split
    · rename_i hs
      obtain ⟨m1, m2, m3⟩ := h.memory hs
      simp [hs, m1, m2, m3]
    · rfl

/-- C83: the comparison is skipped for exactly the exempt instructions. -/
theorem C83_exempt (c : Commit) (d : Cpu) : (prepare c d).2 = true ↔ Exempt c := by
  have hs : (prepareStore c { d with gpr := c.reg }).2 = true ↔
      (Commit.stores c ∧ ¬ Commit.failed c ∧ (c.stq.paddrValid = false ∨ c.stq.dataValid = false)) := by
    have e1 : (c.isStore && !c.pfStore) = true ↔ Commit.stores c := by simp [Commit.stores]
    have e2 : (c.stq.suppress && c.stq.ours) = true ↔ Commit.failed c := by simp [Commit.failed]
    have e3 : (!(c.stq.paddrValid && c.stq.dataValid)) = true ↔ (c.stq.paddrValid = false ∨ c.stq.dataValid = false) := by
      cases c.stq.paddrValid <;> cases c.stq.dataValid <;> simp
    unfold prepareStore
    by_cases h1 : Commit.stores c
    · rw [if_pos (e1.2 h1)]
      dsimp only
      by_cases h2 : Commit.failed c
      · rw [if_pos (e2.2 h2)]; simp [h2]
      · rw [if_neg (fun h => h2 (e2.1 h))]
        by_cases h3 : c.stq.paddrValid = false ∨ c.stq.dataValid = false
        · rw [if_pos (e3.2 h3)]; exact ⟨fun _ => ⟨h1, h2, h3⟩, fun _ => rfl⟩
        · rw [if_neg (fun h => h3 (e3.1 h))]; exact ⟨fun h => Bool.noConfusion h, fun h => absurd h.2.2 h3⟩
    · rw [if_neg (fun h => h1 (e1.1 h))]; exact ⟨fun h => Bool.noConfusion h, fun h => absurd h.1 h1⟩
  have hl : ∀ o : Option Bool, o.isSome = true ↔ o ≠ none := by intro o; cases o <;> simp
  show ((prepareStore c { d with gpr := c.reg }).2 || (c.mmio && c.isStore && !c.pfStore) ||
    (c.mmio && c.isLoad && !c.pfLoad) || (irqCsr c.inst && (c.lines.ext.isSome || c.lines.timer.isSome)) || c.skip ||
    c.interrupt) = true ↔ _
  simp only [Bool.or_eq_true, Bool.and_eq_true, hs, irqCsr_iff, hl, Bool.not_eq_true']
  unfold Exempt Commit.stores Commit.loads
  constructor
  · rintro (((((h | h) | h) | h) | h) | h)
    · exact Or.inr (Or.inr (Or.inr (Or.inr h)))
    · exact Or.inr (Or.inr (Or.inl ⟨h.1.1, Or.inl ⟨h.1.2, h.2⟩⟩))
    · exact Or.inr (Or.inr (Or.inl ⟨h.1.1, Or.inr ⟨h.1.2, h.2⟩⟩))
    · exact Or.inr (Or.inr (Or.inr (Or.inl h)))
    · exact Or.inr (Or.inl h)
    · exact Or.inl h
  · rintro (h | h | ⟨h, h2 | h2⟩ | h | h)
    · exact Or.inr h
    · exact Or.inl (Or.inr h)
    · exact Or.inl (Or.inl (Or.inl (Or.inl (Or.inr ⟨⟨h, h2.1⟩, h2.2⟩))))
    · exact Or.inl (Or.inl (Or.inl (Or.inr ⟨⟨h, h2.1⟩, h2.2⟩)))
    · exact Or.inl (Or.inl (Or.inr h))
    · exact Or.inl (Or.inl (Or.inl (Or.inl (Or.inl h))))

theorem showLine_bit (v : Bool) (l : Option Bool) (k : Nat) (hk : k < 32) (m : BitVec 32) (i : Nat) (hi : i < 32) (h : i ≠ k) :
    (showLine v l (1#32 <<< k) m).getLsbD i = m.getLsbD i := by
  have hb : (1#32 <<< k).getLsbD i = false := by
    rw [BitVec.getLsbD_shiftLeft]
    by_cases h2 : i < k
    · simp [h2]
    · simp [h2]
      omega
  unfold showLine
  split
  · rfl
  · split
    · rw [BitVec.getLsbD_or, hb, Bool.or_false]
    · rw [BitVec.getLsbD_and, BitVec.getLsbD_not, hb]; simp [hi]

theorem prepareStore_frame (c : Commit) (d : Cpu) : (prepareStore c d).1.gpr = d.gpr ∧
    (prepareStore c d).1.resValid = d.resValid ∧ (prepareStore c d).1.resAddr = d.resAddr := by
  unfold prepareStore
  split
  · dsimp only
    split
    · exact ⟨rfl, rfl, rfl⟩
    · split <;> exact ⟨rfl, rfl, rfl⟩
  · exact ⟨rfl, rfl, rfl⟩

theorem mask8 (x : BitVec 32) : x &&& 0xFF#32 = (x.setWidth 8).setWidth 32 := by
  have hm : ∀ i < 32, (0xFF#32).getLsbD i = decide (i < 8) := by decide
  apply BitVec.eq_of_getLsbD_eq
  intro i hi
  rw [BitVec.getLsbD_and, hm i hi, BitVec.getLsbD_setWidth, BitVec.getLsbD_setWidth]
  by_cases h : i < 8 <;> simp [h, hi]

theorem mask16 (x : BitVec 32) : x &&& 0xFFFF#32 = (x.setWidth 16).setWidth 32 := by
  have hm : ∀ i < 32, (0xFFFF#32).getLsbD i = decide (i < 16) := by decide
  apply BitVec.eq_of_getLsbD_eq
  intro i hi
  rw [BitVec.getLsbD_and, hm i hi, BitVec.getLsbD_setWidth, BitVec.getLsbD_setWidth]
  by_cases h : i < 16 <;> simp [h, hi]

theorem low2 (p : BitVec 32) : (p &&& 3#32).toNat * 8 = 8 * (p.toNat % 4) := by
  rw [BitVec.toNat_and, show (3#32).toNat = 2 ^ 2 - 1 from rfl, Nat.and_two_pow_sub_one_eq_mod]
  omega

/-- C83: what the core shows of an instruction that is compared. -/
theorem C83_shown {c : Commit} (h : ¬ Exempt c) (d : Cpu) : Shows c (prepare c d).1 := by
  have hm : ∀ i < 32, i ≠ 7 → i ≠ 11 → (prepareCsr c .mip).getLsbD i = (c.csr .mip).getLsbD i := by
    intro i hi h7 h11
    have : prepareCsr c .mip = showLine (irqCsr c.inst) c.lines.timer MTIP (showLine (irqCsr c.inst) c.lines.ext MEIP (c.csr .mip)) := by
      simp [prepareCsr, Csr.set]
    rw [this, showLine_bit _ _ 7 (by decide) _ i hi h7, showLine_bit _ _ 11 (by decide) _ i hi h11]
  have hst : ((prepareStore c { d with gpr := c.reg }).1.store = true ↔ Commit.stores c ∧ ¬ Commit.failed c) ∧
      ((prepareStore c { d with gpr := c.reg }).1.store = true →
        (prepareStore c { d with gpr := c.reg }).1.storeAddr = c.stq.paddr ∧
        (prepareStore c { d with gpr := c.reg }).1.storeData = lanes c.stq.func3 c.stq.paddr c.stq.data) := by
    have hv : Commit.stores c → ¬ Commit.failed c → c.stq.paddrValid = true ∧ c.stq.dataValid = true := by
      intro h1 h2
      have h3 : ¬ (c.stq.paddrValid = false ∨ c.stq.dataValid = false) := fun h3 =>
        h (Or.inr (Or.inr (Or.inr (Or.inr ⟨h1, h2, h3⟩))))
      simpa [not_or] using h3
    unfold prepareStore
    by_cases h1 : Commit.stores c
    · have e1 : (c.isStore && !c.pfStore) = true := by rw [h1.1, h1.2]; rfl
      rw [if_pos e1]
      dsimp only
      by_cases h2 : Commit.failed c
      · have e2 : (c.stq.suppress && c.stq.ours) = true := by rw [h2.1, h2.2]; rfl
        rw [if_pos e2]
        simp [h1, h2]
      · obtain ⟨v1, v2⟩ := hv h1 h2
        have e2 : ¬ (c.stq.suppress && c.stq.ours) = true := by
          rw [Bool.and_eq_true]; exact h2
        rw [if_neg e2, if_neg (by rw [v1, v2]; decide)]
        refine ⟨by simp [h1, h2], fun _ => ⟨rfl, ?_⟩⟩
        unfold lanes
        dsimp only
        rw [low2, mask8, mask16]
    · have e1 : ¬ (c.isStore && !c.pfStore) = true := by
        simpa [Commit.stores] using h1
      rw [if_neg e1]
      simp [h1]
  have hmip : prepareCsr c .mip = showLine (irqCsr c.inst) c.lines.timer MTIP (showLine (irqCsr c.inst) c.lines.ext MEIP (c.csr .mip)) := by
    simp [prepareCsr, Csr.set]
  have hnm : NamesPending c.inst → prepareCsr c .mip = c.csr .mip := by
    intro hp
    have hl : c.lines.ext = none ∧ c.lines.timer = none := by
      constructor <;> refine Decidable.not_not.1 fun hl => h (Or.inr (Or.inr (Or.inr (Or.inl ⟨hp, ?_⟩))))
      · exact Or.inl hl
      · exact Or.inr hl
    rw [hmip, hl.1, hl.2]
    rfl
  have hhid : ¬ NamesPending c.inst → (c.lines.timer ≠ none → (prepareCsr c .mip).getLsbD 7 = false) ∧
      (c.lines.ext ≠ none → (prepareCsr c .mip).getLsbD 11 = false) := by
    intro hp
    have hv : irqCsr c.inst = false := by
      cases hv : irqCsr c.inst with
      | false => rfl
      | true => exact absurd ((irqCsr_iff _).1 hv) hp
    constructor
    · intro hl
      obtain ⟨v, hl⟩ := Option.ne_none_iff_exists'.1 hl
      rw [hmip, hv, hl]
      show ((_ : BitVec 32) &&& ~~~MTIP).getLsbD 7 = false
      rw [BitVec.getLsbD_and, show (~~~MTIP).getLsbD 7 = false from by decide, Bool.and_false]
    · intro hl
      obtain ⟨v, hl⟩ := Option.ne_none_iff_exists'.1 hl
      rw [hmip, showLine_bit _ _ 7 (by decide) _ 11 (by decide) (by decide), hv, hl]
      show ((_ : BitVec 32) &&& ~~~MEIP).getLsbD 11 = false
      rw [BitVec.getLsbD_and, show (~~~MEIP).getLsbD 11 = false from by decide, Bool.and_false]
  have hsip : prepareCsr c .sip = prepareCsr c .mip &&& 0x333#32 := by
    simp [prepareCsr, Csr.set]
  refine ⟨(prepareStore_frame c _).1, rfl, rfl, rfl, rfl, ?_, ?_, hm, hnm, hhid, hsip, hst.1, hst.2⟩
  · show (if (c.jumps || c.flush) = true then _ else _) = _
    simp only [Bool.or_eq_true]
  · intro q h1 h2
    show prepareCsr c q = _
    simp [prepareCsr, Csr.set, h1, h2]

/-- The state of the test before the last commit of `l`, if the run gets there. -/
theorem run_append (F : Reference) (l m : List (Nat × Commit)) (t : Test F) :
    run F (l ++ m) t = (run F l t).bind (run F m) := by
  induction l generalizing t with
  | nil => rfl
  | cons a l ih =>
    obtain ⟨n, c⟩ := a
    show (commit F n c t).bind (run F (l ++ m)) = ((commit F n c t).bind (run F l)).bind (run F m)
    cases commit F n c t with
    | none => rfl
    | some u => exact ih u

/-- C83: a run passes if and only if every instruction that is not exempt agrees with what the reference, stepped once for it,
shows; so the first disagreement is reported, and nothing else is. -/
theorem C83_run (F : Reference) (l : List (Nat × Commit)) (t : Test F) :
    (∃ t', run F l t = some t') ↔
      ∀ pre n c post u, l = pre ++ (n, c) :: post → run F pre t = some u → ¬ Exempt c →
        Agree (F.view (F.step (prepare c u.dut).1.faults n u.ref)) (prepare c u.dut).1 := by
  induction l generalizing t with
  | nil =>
    constructor
    · intro _ pre n c post u h
      cases pre <;> cases h
    · intro _; exact ⟨t, rfl⟩
  | cons a l ih =>
    obtain ⟨n0, c0⟩ := a
    have hc : ∀ t', commit F n0 c0 t = some t' ↔
        (Exempt c0 ∧ t' = ⟨F.load (prepare c0 t.dut).1.faults n0 (prepare c0 t.dut).1 c0.priv t.ref, (prepare c0 t.dut).1⟩) ∨
        (¬ Exempt c0 ∧ Agree (F.view (F.step (prepare c0 t.dut).1.faults n0 t.ref)) (prepare c0 t.dut).1 ∧
          t' = ⟨F.step (prepare c0 t.dut).1.faults n0 t.ref, (prepare c0 t.dut).1⟩) := by
      intro t'
      unfold commit
      dsimp only
      by_cases he : Exempt c0
      · rw [if_pos ((C83_exempt c0 t.dut).2 he)]
        simp only [Option.some.injEq, he, true_and, not_true, false_and, or_false]
        exact eq_comm
      · rw [if_neg (fun h => he ((C83_exempt c0 t.dut).1 h))]
        simp only [he, false_and, false_or, not_false_eq_true, true_and]
        by_cases ha : Agree (F.view (F.step (prepare c0 t.dut).1.faults n0 t.ref)) (prepare c0 t.dut).1
        · rw [if_pos ((C83_check _ _).2 ha)]
          simp only [Option.some.injEq, ha, true_and]
          exact eq_comm
        · rw [if_neg (fun h => ha ((C83_check _ _).1 h))]
          simp [ha]
    constructor
    · rintro ⟨t', ht⟩ pre n c post u hl hu hx
      cases pre with
      | nil =>
        injection hl with h1 h2
        injection h1 with h1 h3
        subst h1; subst h3
        injection hu with hu
        subst hu
        cases hcm : commit F n0 c0 t with
        | none =>
          have : run F ((n0, c0) :: l) t = none := by show (commit F n0 c0 t).bind _ = none; rw [hcm]; rfl
          rw [this] at ht; cases ht
        | some v =>
          rcases (hc v).1 hcm with h | h
          · exact absurd h.1 hx
          · exact h.2.1
      | cons b pre =>
        injection hl with h1 h2
        subst h1
        cases hcm : commit F n0 c0 t with
        | none =>
          have : run F ((n0, c0) :: l) t = none := by show (commit F n0 c0 t).bind _ = none; rw [hcm]; rfl
          rw [this] at ht; cases ht
        | some v =>
          have e1 : run F l v = some t' := by
            have : run F ((n0, c0) :: l) t = run F l v := by show (commit F n0 c0 t).bind _ = _; rw [hcm]; rfl
            rw [← this]; exact ht
          have e2 : run F pre v = some u := by
            have : run F ((n0, c0) :: pre) t = run F pre v := by show (commit F n0 c0 t).bind _ = _; rw [hcm]; rfl
            rw [← this]; exact hu
          exact (ih v).1 ⟨t', e1⟩ pre n c post u h2 e2 hx
    · intro h
      have hfirst := h [] n0 c0 l t rfl rfl
      obtain ⟨v, hcm⟩ : ∃ v, commit F n0 c0 t = some v := by
        by_cases he : Exempt c0
        · exact ⟨_, (hc _).2 (Or.inl ⟨he, rfl⟩)⟩
        · exact ⟨_, (hc _).2 (Or.inr ⟨he, hfirst he, rfl⟩)⟩
      have hrun : ∀ m, run F ((n0, c0) :: m) t = run F m v := by
        intro m
        show (commit F n0 c0 t).bind _ = _
        rw [hcm]; rfl
      rw [hrun]
      apply (ih v).2
      intro pre n c post u hl hu hx
      exact h ((n0, c0) :: pre) n c post u (by rw [hl]; rfl) (by rw [hrun]; exact hu) hx

/-- The reference stepped once per committed instruction of `l`, each time told the faults the core reported. -/
def stepped (F : Reference) : List (Nat × Commit) → F.R → F.R
  | [], r => r
  | (n, c) :: l, r => stepped F l (F.step ⟨c.pfInst, c.pfLoad, c.pfStore⟩ n r)

/-- C83: if no instruction is exempt, a passed run means that after every instruction the core shows the state the reference
has after that many steps. -/
theorem C83_lockstep (F : Reference) (l : List (Nat × Commit)) (t t' : Test F) (hl : ∀ a ∈ l, ¬ Exempt a.2)
    (h : run F l t = some t') (k : Nat) (hk : k < l.length) :
    ∃ d, Shows (l[k]).2 d ∧ Agree (F.view (stepped F (l.take (k + 1)) t.ref)) d := by
  induction l generalizing t k with
  | nil => cases hk
  | cons a l ih =>
    obtain ⟨n0, c0⟩ := a
    have he : ¬ Exempt c0 := hl (n0, c0) (by simp)
    have hag := (C83_run F _ t).1 ⟨t', h⟩ [] n0 c0 l t rfl rfl he
    have hf : (prepare c0 t.dut).1.faults = ⟨c0.pfInst, c0.pfLoad, c0.pfStore⟩ := rfl
    cases k with
    | zero =>
      refine ⟨_, C83_shown he t.dut, ?_⟩
      rw [hf] at hag
      exact hag
    | succ k =>
      have hcm : commit F n0 c0 t = some ⟨F.step ⟨c0.pfInst, c0.pfLoad, c0.pfStore⟩ n0 t.ref, (prepare c0 t.dut).1⟩ := by
        unfold commit
        dsimp only
        rw [if_neg (fun h => he ((C83_exempt c0 t.dut).1 h)), if_pos ((C83_check _ _).2 hag), hf]
      have hrun : run F ((n0, c0) :: l) t = run F l ⟨F.step ⟨c0.pfInst, c0.pfLoad, c0.pfStore⟩ n0 t.ref, (prepare c0 t.dut).1⟩ := by
        show (commit F n0 c0 t).bind _ = _
        rw [hcm]; rfl
      rw [hrun] at h
      exact ih _ (fun a ha => hl a (List.mem_cons_of_mem _ ha)) h k (by simpa using hk)

/-- C83: the checker is blind to a store of the core where the reference makes none, to the width of a store and to
the reservation; the privilege level is not part of the state it gets. -/
theorem C83_blind (r d d' : Cpu) (h1 : r.store = false ∨ (d.store = d'.store ∧ d.storeAddr = d'.storeAddr ∧ d.storeData = d'.storeData))
    (h2 : d' = { d with
      store := d'.store
      storeAddr := d'.storeAddr
      storeData := d'.storeData
      storeStrb := d'.storeStrb
      resValid := d'.resValid
      resAddr := d'.resAddr }) : check r d' = check r d := by
  rw [Bool.eq_iff_iff, C83_check, C83_check]
  have key : ∀ a b : Cpu, (r.store = false ∨ (a.store = b.store ∧ a.storeAddr = b.storeAddr ∧ a.storeData = b.storeData)) →
      b.gpr = a.gpr → b.csr = a.csr → b.pc = a.pc → b.inst = a.inst → b.pfInst = a.pfInst → b.pfLoad = a.pfLoad →
      b.pfStore = a.pfStore → Agree r a → Agree r b := by
    intro a b hs e1 e2 e3 e4 e5 e6 e7 h
    refine ⟨e3 ▸ h.pc, e4 ▸ h.word, e5 ▸ h.fetchFault, e6 ▸ h.loadFault, e7 ▸ h.storeFault, e1 ▸ h.regs, e2 ▸ h.csrs,
      e2 ▸ h.pending, e2 ▸ h.pendingAll, fun hr => ?_⟩
    rcases hs with hs | ⟨s1, s2, s3⟩
    · rw [hs] at hr; cases hr
    · rw [← s1, ← s2, ← s3]; exact h.memory hr
  constructor
  · apply key d' d
    · exact h1.imp id fun h => ⟨h.1.symm, h.2.1.symm, h.2.2.symm⟩
    all_goals rw [h2]
  · apply key d d' h1
    all_goals rw [h2]

/-- C83: the reservation handed over when the reference is synchronised is the one the test began with; nothing in a run ever
sets it. -/
theorem C83_reservation_constant (F : Reference) (l : List (Nat × Commit)) (t t' : Test F) (h : run F l t = some t') :
    t'.dut.resValid = t.dut.resValid ∧ t'.dut.resAddr = t.dut.resAddr := by
  induction l generalizing t with
  | nil => injection h with h; subst h; exact ⟨rfl, rfl⟩
  | cons a l ih =>
    obtain ⟨n, c⟩ := a
    have hp : (prepare c t.dut).1.resValid = t.dut.resValid ∧ (prepare c t.dut).1.resAddr = t.dut.resAddr :=
      (prepareStore_frame c { t.dut with gpr := c.reg }).2
    have h : (commit F n c t).bind (run F l) = some t' := h
    obtain ⟨u, h1, h2⟩ := Option.bind_eq_some_iff.1 h
    have hu : u.dut = (prepare c t.dut).1 := by
      unfold commit at h1
      dsimp only at h1
      split at h1
      · injection h1 with h1; subst h1; rfl
      · split at h1
        · injection h1 with h1; subst h1; rfl
        · cases h1
    have := ih u h2
    rw [this.1, this.2, hu]
    exact hp

/-! ### The store reported by the in-tree reference -/

theorem storeWord_fields (now : BitVec 64) (s : RefMem.State) (p v : BitVec 32) :
    (RefMem.storeWord now s p v).store = s.store ∧ (RefMem.storeWord now s p v).storeAddr = s.storeAddr ∧
    (RefMem.storeWord now s p v).storeData = s.storeData := by
  unfold RefMem.storeWord
  dsimp only
  repeat' split
  all_goals exact ⟨rfl, rfl, rfl⟩

/-- The fields that report the store. -/
def report (s : RefMem.State) : Bool × BitVec 32 × BitVec 32 := (s.store, s.storeAddr, s.storeData)

theorem report_word (now : BitVec 64) (s : RefMem.State) (p v : BitVec 32) : report (RefMem.storeWord now s p v) = report s := by
  obtain ⟨h1, h2, h3⟩ := storeWord_fields now s p v
  unfold report; rw [h1, h2, h3]

theorem report_drop (s : RefMem.State) : report (RefMem.dropReservation s) = report s := by
  unfold RefMem.dropReservation; split <;> rfl

theorem report_masked (now : BitVec 64) (s : RefMem.State) : report (RefMem.maskedWrite now s) = report s := by
  unfold RefMem.maskedWrite; dsimp only; split
  · exact report_word _ _ _ _
  · rfl

theorem report_tx (now : BitVec 64) (s : RefMem.State) : report (RefMem.uartTx now s) = report s := by
  unfold RefMem.uartTx; dsimp only; split
  · exact report_word now s _ _
  · rfl

theorem report_ier7 (now : BitVec 64) (s : RefMem.State) : report (RefMem.uartIer7 now s) = report s := by
  unfold RefMem.uartIer7; dsimp only; split
  · exact (report_word now _ _ _).trans (report_word now s _ _)
  · rfl

theorem report_ier5 (now : BitVec 64) (s : RefMem.State) : report (RefMem.uartIer5 now s) = report s := by
  unfold RefMem.uartIer5; split
  · exact report_word now s _ _
  · rfl

theorem report_plic (now : BitVec 64) (s : RefMem.State) : report (RefMem.plicDone now s) = report s := by
  unfold RefMem.plicDone; dsimp only; split
  · exact report_word now s _ _
  · rfl

/-- C83: for every aligned store the in-tree reference reports the address and data that the core shows for the same
access, so a correct store is never reported as a disagreement. -/
theorem C83_store_view (now : BitVec 64) (s s' : RefMem.State) (f3 : BitVec 3) (p v : BitVec 32)
    (h : RefMem.storeInst now s f3 p v = some s') :
    s'.store = true ∧ s'.storeAddr = p ∧ s'.storeData = lanes f3 p v := by
  unfold RefMem.storeInst at h
  split at h
  · cases h
  · dsimp only at h
    injection h with h
    subst h
    unfold RefMem.storeData RefMem.shiftFields
    dsimp only
    generalize hs : ({ RefMem.begin s with
      store := true
      storeAddr := p
      storeData := if f3 = 0#3 then v &&& 0xFF#32 else if f3 = 1#3 then v &&& 0xFFFF#32 else v
      storeStrb := if f3 = 0#3 then 1#32 else if f3 = 1#3 then 3#32 else 15#32 } : RefMem.State) = t
    have ht : report (RefMem.plicDone now (RefMem.uartIer5 now (RefMem.uartIer7 now (RefMem.uartTx now
        (RefMem.maskedWrite now (RefMem.dropReservation t)))))) = report t := by
      rw [report_plic, report_ier5, report_ier7, report_tx, report_masked, report_drop]
    have h1 : report t = (true, p, if f3 = 0#3 then v &&& 0xFF#32 else if f3 = 1#3 then v &&& 0xFFFF#32 else v) := by
      rw [← hs]; rfl
    rw [h1] at ht
    unfold report at ht
    injection ht with h2 h3
    injection h3 with h3 h4
    rw [h2, h3, h4]
    refine ⟨rfl, rfl, ?_⟩
    unfold lanes
    dsimp only
    rw [low2, mask8, mask16]

namespace DiffRun

/-- A reference for a program of additions: each step adds 1 to x1. -/
def adder : Reference where
  R := Cpu
  step := fun _ _ r => { r with
    gpr := fun i => if i = 1 then r.gpr 1 + 1#32 else r.gpr i
    pc := r.pc + 4#32
    inst := 0x00108093#32
    pfInst := false
    pfLoad := false
    pfStore := false
    store := false }
  load := fun _ _ d _ _ => d
  view := id

def cpu0 : Cpu := ⟨fun _ => 0#32, fun _ => 0#32, 0x80000000#32, false, 0#32, 0#32, 0#32, 0#32, false, false, false, false, 0#32⟩

/-- The k-th addition as the core commits it: x1 is `v`; `st`: with a store to 0x80001000 on the side. -/
def add1 (k : Nat) (v : BitVec 32) (st : Bool) (skip : Bool) : Commit where
  reg := fun i => if i = 1 then v else 0#32
  isStore := st
  isLoad := false
  stq := ⟨false, true, true, true, 0x80001000#32, 7#32, 2#3⟩
  pfInst := false
  pfLoad := false
  pfStore := false
  mmio := false
  inst := 0x00108093#32
  lines := ⟨some false, some true⟩
  csr := fun _ => 0#32
  priv := 3
  jumps := false
  flush := false
  interrupt := false
  diagVal := 0#32
  pc := 0x80000000#32 + BitVec.ofNat 32 (4 * k)
  skip := skip

/-- C83: three additions pass (the timer line is pending meanwhile). -/
example : ∃ t', run adder [(1, add1 0 1#32 false false), (2, add1 1 2#32 false false), (3, add1 2 3#32 false false)] ⟨cpu0, cpu0⟩ = some t' ∧
    Agree (adder.view (stepped adder [(1, add1 0 1#32 false false), (2, add1 1 2#32 false false)] cpu0))
      (prepare (add1 1 2#32 false false) cpu0).1 ∧ ¬ Exempt (add1 1 2#32 false false) := by
  have h : (run adder [(1, add1 0 1#32 false false), (2, add1 1 2#32 false false), (3, add1 2 3#32 false false)] ⟨cpu0, cpu0⟩).isSome = true := by
    decide +kernel
  obtain ⟨t', ht⟩ := Option.isSome_iff_exists.1 h
  refine ⟨t', ht, ?_, ?_⟩
  · rw [← C83_check]; decide +kernel
  · rw [← C83_exempt _ cpu0]; decide +kernel

/-- C83: a wrong sum is reported at once; a marked instruction is not compared. -/
example : run adder [(1, add1 0 1#32 false false), (2, add1 1 3#32 false false)] ⟨cpu0, cpu0⟩ = none ∧
    (run adder [(1, add1 0 1#32 false false), (2, add1 1 3#32 false true), (3, add1 2 4#32 false false)] ⟨cpu0, cpu0⟩).isSome = true := by
  constructor
  · rw [← Option.not_isSome_iff_eq_none]; decide +kernel
  · decide +kernel

def mem0 : RefMem.State where
  ram := fun _ => 0#32
  io := fun _ => none
  timerOff := 0#64
  timerCmp := 0#64
  mip := 0#32
  sip := 0#32
  out := []
  store := false
  storeAddr := 0#32
  storeData := 0#32
  storeStrb := 0#32
  resValid := false
  resAddr := 0#32

/-- A byte store to the third byte of a word: the byte is reported on lane 2. -/
example : ∃ s', RefMem.storeInst 0#64 mem0 0#3 0x80001002#32 0x12345678#32 = some s' ∧ s'.storeData = 0x00780000#32 := by
  have h : (RefMem.storeInst 0#64 mem0 0#3 0x80001002#32 0x12345678#32).isSome = true := by decide +kernel
  obtain ⟨s', hs⟩ := Option.isSome_iff_exists.1 h
  exact ⟨s', hs, (C83_store_view _ _ _ _ _ _ hs).2.2.trans (by decide)⟩

/-- C83: an addition that stores on the side passes, although the reference stores nothing. -/
theorem C83_spurious_store : ∃ (c : Commit) (t t' : Test adder), Commit.stores c ∧ ¬ Commit.failed c ∧ ¬ Exempt c ∧
    run adder [(1, c)] t = some t' ∧ t'.dut.store = true ∧ t'.dut.storeData = 7#32 ∧ (adder.view t'.ref).store = false := by
  have h : (run adder [(1, add1 0 1#32 true false)] ⟨cpu0, cpu0⟩).map
      (fun t' => (t'.dut.store, t'.dut.storeData, (adder.view t'.ref).store)) = some (true, 7#32, false) := by decide +kernel
  obtain ⟨t', h1, h2⟩ := Option.map_eq_some_iff.1 h
  injection h2 with h2 h3
  injection h3 with h3 h4
  refine ⟨add1 0 1#32 true false, ⟨cpu0, cpu0⟩, t', ⟨rfl, rfl⟩, fun h => Bool.noConfusion h.1, ?_, h1, h2, h3, h4⟩
  rw [← C83_exempt _ cpu0]; decide +kernel

end DiffRun
end Verif.Props

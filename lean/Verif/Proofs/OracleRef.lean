import Verif.Spec.Oracle
/- diff/ref.cpp as the oracle's machine. -/
namespace Verif.Oracle
open Verif.RefCpu
open Verif.Front (W32)

theorem riscvInfo_pf (e : Env) (s : State) (b : Bool) : (riscvInfo e s b).pf = false := by
  unfold riscvInfo
  simp only
  split
  · rfl
  · split <;> rfl

theorem riscvInfo_io (e : Env) (s : State) (b : Bool) (h : (riscvInfo e s b).io = true) :
    ((riscvInfo e s b).br && (riscvInfo e s b).taken) = false := by
  unfold riscvInfo at h ⊢
  simp only at h ⊢
  split
  · rfl
  · rename_i h1
    rw [if_neg h1] at h
    split
    · rfl
    · rename_i h2
      rw [if_neg h2] at h
      simp only [opIo] at h
      have : ∀ op : BitVec 7, (op = 0x03#7 ∨ op = 0x23#7) → ¬(op = 0b1101111#7 ∨ op = 0b1100111#7 ∨ op = 0b1100011#7) := by decide
      simp only [Bool.and_eq_false_iff, decide_eq_false_iff_not]
      left
      apply this
      split at h
      · rename_i hq; exact Or.inl hq
      · split at h
        · rename_i hq; exact Or.inr hq
        · cases h

/-- The surroundings of a step. -/
def env (now : Nat) : Env := ⟨BitVec.ofNat 64 now, false, false, false, false, false⟩

theorem step_iff {F : Fp.SoftFloat} {now : Nat} {m m' : (refMachine F).S} (h : (refMachine F).step now m = some m') :
    ∃ s', exec F (env now) m.1 = some s' ∧ m' = (s', execInfo (env now) m.1 s') := by
  have h : (exec F (env now) m.1).map (fun s' => (s', execInfo (env now) m.1 s')) = some m' := h
  obtain ⟨s', h1, h2⟩ := Option.map_eq_some_iff.mp h
  exact ⟨s', h1, h2.symm⟩

theorem refMachine_sane (F : Fp.SoftFloat) : (refMachine F).Sane where
  get_set a m := by cases a; rfl
  fault now m m' h hp := by
    obtain ⟨s', h1, rfl⟩ := step_iff h
    have hp : (execInfo (env now) m.1 s').pf = true := hp
    show (execInfo (env now) m.1 s').exc = true
    simp only [execInfo] at hp ⊢
    split
    · rename_i ht
      rw [if_pos ht] at hp
      split
      · rename_i p hq
        rw [hq] at hp
        simp only at hp
        split at hp
        · cases hp
        · rw [riscvInfo_pf] at hp; cases hp
      · rfl
    · rename_i ht
      rw [if_neg ht] at hp
      split at hp
      · cases hp
      · rw [riscvInfo_pf] at hp; cases hp
  io now m m' h hp := by
    obtain ⟨s', h1, rfl⟩ := step_iff h
    have hp : (execInfo (env now) m.1 s').io = true := hp
    show ((execInfo (env now) m.1 s').br && (execInfo (env now) m.1 s').taken) = false
    simp only [execInfo] at hp ⊢
    split
    · rename_i ht
      rw [if_pos ht] at hp
      split
      · rename_i p hq
        rw [hq] at hp
        simp only at hp
        split
        · rfl
        · rename_i hb; rw [if_neg hb] at hp; exact riscvInfo_io _ _ _ hp
      · rfl
    · rename_i ht
      rw [if_neg ht] at hp
      split
      · rfl
      · rename_i hb; rw [if_neg hb] at hp; exact riscvInfo_io _ _ _ hp

theorem refIM_next {i : W32} {t t' : Ref.IState} (h : Ref.refIM i t = some t') :
    (i.extractLsb' 0 7 = 0b1101111#7 ∨ i.extractLsb' 0 7 = 0b1100111#7 ∨ (i.extractLsb' 0 7 = 0b1100011#7 ∧
      Ref.refTaken (i.extractLsb' 12 3) (t.gpr (i.extractLsb' 15 5).toNat) (t.gpr (i.extractLsb' 20 5).toNat) = true)) ∨
    t'.pc = t.pc + 4#32 := by
  unfold Ref.refIM at h
  simp only at h
  split at h
  · cases h; exact Or.inr rfl
  · cases h; exact Or.inr rfl
  · rename_i hq; exact Or.inl (Or.inl hq)
  · rename_i hq; exact Or.inl (Or.inr (Or.inl hq))
  · rename_i hq
    cases h
    by_cases ht : Ref.refTaken (i.extractLsb' 12 3) (t.gpr (i.extractLsb' 15 5).toNat) (t.gpr (i.extractLsb' 20 5).toNat) = true
    · exact Or.inl (Or.inr (Or.inr ⟨hq, ht⟩))
    · exact Or.inr (if_neg ht)
  · cases h
  · cases h
  · simp only [Option.bind_eq_bind, Option.bind_eq_some_iff, Option.pure_def, Option.some.injEq] at h
    obtain ⟨v, _, rfl⟩ := h
    exact Or.inr rfl
  · right
    split at h <;>
    · simp only [Option.bind_eq_bind, Option.bind_eq_some_iff, Option.pure_def, Option.some.injEq] at h
      obtain ⟨v, _, rfl⟩ := h
      rfl
  · cases h; exact Or.inr rfl

theorem load_next {e : Env} {s s' : State} (h : loadInst e s = some s')
    (hf : dataFault e s (s.gpr (s.inst.extractLsb' 15 5).toNat + (Decode.immI s.inst).setWidth 32) 1 = false) :
    s'.pc = s.pc + 4#32 := by
  unfold loadInst at h
  simp only at h
  unfold dataFault at hf
  split at h
  · rename_i ht
    rw [ht] at hf
    split at h
    · cases h
    · rename_i hq; rw [hq] at hf; cases hf
    · obtain ⟨d, _, rfl⟩ := Option.map_eq_some_iff.mp h; rfl
  · obtain ⟨d, _, rfl⟩ := Option.map_eq_some_iff.mp h; rfl

theorem store_next {e : Env} {s s' : State} (h : storeInst e s = some s')
    (hf : dataFault e s (s.gpr (s.inst.extractLsb' 15 5).toNat + (Decode.immS s.inst).setWidth 32) 2 = false) :
    s'.pc = s.pc + 4#32 := by
  unfold storeInst at h
  simp only at h
  unfold dataFault at hf
  split at h
  · rename_i ht
    rw [ht] at hf
    split at h
    · cases h
    · rename_i hq; rw [hq] at hf; cases hf
    · obtain ⟨d, _, rfl⟩ := Option.map_eq_some_iff.mp h; rfl
  · obtain ⟨d, _, rfl⟩ := Option.map_eq_some_iff.mp h; rfl

theorem amo_next {e : Env} {s s' : State} (h : amoInst e s = some s')
    (hf : (if (s.inst.extractLsb' 27 5 : BitVec 5) = 2#5 then dataFault e s (s.gpr (s.inst.extractLsb' 15 5).toNat) 1
      else if (s.inst.extractLsb' 27 5 : BitVec 5) = 3#5 then dataFault e s (s.gpr (s.inst.extractLsb' 15 5).toNat) 2
      else dataFault e s (s.gpr (s.inst.extractLsb' 15 5).toNat) 1 || dataFault e s (s.gpr (s.inst.extractLsb' 15 5).toNat) 2) = false) :
    s'.pc = s.pc + 4#32 := by
  have go : ∀ p, (RefMem.amo e.now s.memIn (s.inst.extractLsb' 27 5) p (s.gpr (s.inst.extractLsb' 20 5).toNat)).map (fun (r, m) =>
      { s.memOut m with
        gpr := match r with
          | some d => Ref.wr s.gpr (s.inst.extractLsb' 7 5).toNat d
          | none => s.gpr
        pc := s.pc + 4#32 }) = some s' → s'.pc = s.pc + 4#32 := by
    intro p h
    obtain ⟨d, _, rfl⟩ := Option.map_eq_some_iff.mp h; rfl
  unfold amoInst at h
  simp only at h
  unfold dataFault at hf
  by_cases ht : RefMmu.dataTranslation s.ctx = true
  · rw [if_pos ht] at h
    rw [ht] at hf
    by_cases h2 : (s.inst.extractLsb' 27 5 : BitVec 5) = 2#5
    · rw [if_pos h2] at h hf
      split at h
      · cases h
      · rename_i hq; rw [hq] at hf; cases hf
      · exact go _ h
    · rw [if_neg h2] at h hf
      by_cases h3 : (s.inst.extractLsb' 27 5 : BitVec 5) = 3#5
      · rw [if_pos h3] at h hf
        split at h
        · cases h
        · rename_i hq; rw [hq] at hf; cases hf
        · exact go _ h
      · rw [if_neg h3] at h hf
        cases q1 : s.fix e (s.gpr (s.inst.extractLsb' 15 5).toNat) 1 <;>
          cases q2 : s.fix e (s.gpr (s.inst.extractLsb' 15 5).toNat) 2 <;> rw [q1, q2] at h hf <;>
          first | (cases h; done) | (cases hf; done) | exact go _ h
  · rw [if_neg ht] at h
    exact go _ h

theorem fp_next {F : Fp.SoftFloat} {s : State} (hi : (fpInst F s).illegal = false) : (fpInst F s).pc = s.pc + 4#32 := by
  unfold fpInst at hi ⊢
  simp only at hi ⊢
  split
  · rfl
  · rename_i hq; rw [hq] at hi; cases hi

theorem csr_next {e : Env} {s : State}
    (hn : ¬((s.inst.extractLsb' 20 12).toNat = 0xc01 ∨ (s.inst.extractLsb' 20 12).toNat = 0xc81)) :
    (csrInst e s).pc = s.pc + 4#32 := by
  unfold csrInst
  simp only
  rw [if_neg hn]
  split <;> rfl

theorem zero0_pc (s : State) : (zero0 s).pc = s.pc := rfl
theorem zero0_illegal (s : State) : (zero0 s).illegal = s.illegal := rfl

/-- `riscv` behind the interrupt check. -/
def riscvBody (F : Fp.SoftFloat) (e : Env) (s : State) : Option State :=
  if s.inst = INST_WFI ∧ asy s = false ∧ s.pfInst = false ∧ s.pfLoad = false ∧ s.pfStore = false then
    some { s with pc := s.pc + 4#32, simEnd := s.simEnd || e.refOnly }
  else
    Option.map zero0 <|
    if s.pfInst then some (exception s.pc s)
    else if s.illegal then some (exception s.inst s)
    else if asy s = true ∨ s.inst = INST_ECALL then some (exception 0#32 s)
    else
      let op : BitVec 7 := s.inst.extractLsb' 0 7
      if op = 0x73#7 then some (csrInst e s)
      else if op = 0x2f#7 then amoInst e s
      else if op = 0x53#7 ∨ op = 0x43#7 ∨ op = 0x4b#7 ∨ op = 0x4f#7 ∨ op = 0x47#7 then some (fpInst F s)
      else if op = 0x03#7 then loadInst e s
      else if op = 0x23#7 then storeInst e s
      else (Ref.refIM s.inst ⟨s.gpr, s.pc⟩).map fun t => { s with gpr := t.gpr, pc := t.pc }

def riscvInfoBody (e : Env) (s : State) (simEnd : Bool) : Info :=
  let op : BitVec 7 := s.inst.extractLsb' 0 7
  let early := s.pfInst || s.illegal || asy s || decide (s.inst = INST_ECALL)
  if s.inst = INST_WFI ∧ asy s = false ∧ s.pfInst = false ∧ s.pfLoad = false ∧ s.pfStore = false then
    ⟨s.inst, false, false, false, false, false, false, simEnd⟩
  else if early then ⟨s.inst, false, true, false, false, false, false, simEnd⟩
  else
    let br := decide (op = 0b1101111#7 ∨ op = 0b1100111#7 ∨ op = 0b1100011#7)
    let taken := decide (op = 0b1101111#7 ∨ op = 0b1100111#7) || (decide (op = 0b1100011#7) &&
      Ref.refTaken (s.inst.extractLsb' 12 3) (s.gpr (s.inst.extractLsb' 15 5).toNat) (s.gpr (s.inst.extractLsb' 20 5).toNat))
    ⟨s.inst, false, opTraps e s, decide (op = 0x73#7 ∧ s.inst ≠ INST_WFI), opIo e s, br, taken, simEnd⟩

def checked (e : Env) (s : State) : State := { syncTimer e s with irq := evalIrq (syncTimer e s) }

theorem riscv_eq (F : Fp.SoftFloat) (e : Env) (s : State) : riscv F e s = riscvBody F e (checked e s) := rfl
theorem riscvInfo_eq (e : Env) (s : State) (b : Bool) : riscvInfo e s b = riscvInfoBody e (checked e s) b := rfl

theorem riscv_next {F : Fp.SoftFloat} {e : Env} {s s' : State} {b : Bool} (h : riscv F e s = some s')
    (hh : (riscvInfo e s b).exc = false) (hi : s'.illegal = false) :
    ((riscvInfo e s b).br && (riscvInfo e s b).taken) = true ∨ s'.pc = s.pc + 4#32 := by
  rw [riscv_eq] at h
  rw [riscvInfo_eq] at hh ⊢
  rw [show s.pc = (checked e s).pc from rfl]
  generalize checked e s = s1 at h hh ⊢
  unfold riscvBody at h
  unfold riscvInfoBody at hh ⊢
  simp only at h hh ⊢
  split at h
  · rename_i hw
    right; cases h; rfl
  · rename_i hw
    rw [if_neg hw] at hh ⊢
    split at hh
    · cases hh
    · rename_i he
      rw [if_neg he]
      simp only [Bool.or_eq_true, decide_eq_true_eq, not_or, Bool.not_eq_true] at he
      obtain ⟨⟨⟨e1, e2⟩, e3⟩, e4⟩ := he
      obtain ⟨t, ht, rfl⟩ := Option.map_eq_some_iff.mp h
      rw [zero0_illegal] at hi
      rw [zero0_pc]
      rw [if_neg (by simp [e1]), if_neg (by simp [e2]), if_neg (by simp [e3, e4])] at ht
      simp only [opTraps] at hh
      split at ht
      · rename_i ho
        rw [if_pos ho] at hh
        cases ht
        exact Or.inr (csr_next (by simpa using hh))
      · rename_i ho; rw [if_neg ho] at hh
        split at ht
        · rename_i ho; rw [if_pos ho] at hh; exact Or.inr (amo_next ht hh)
        · rename_i ho; rw [if_neg ho] at hh
          split at ht
          · cases ht; exact Or.inr (fp_next hi)
          · rename_i ho; rw [if_neg ho] at hh
            split at ht
            · rename_i ho; rw [if_pos ho] at hh; exact Or.inr (load_next ht hh)
            · rename_i ho; rw [if_neg ho] at hh
              split at ht
              · rename_i ho; rw [if_pos ho] at hh; exact Or.inr (store_next ht hh)
              · obtain ⟨t1, h1, rfl⟩ := Option.map_eq_some_iff.mp ht
                rcases refIM_next h1 with h2 | h2
                · left
                  rcases h2 with h2 | h2 | ⟨h2, h3⟩
                  · simp [h2]
                  · simp [h2]
                  · refine Bool.and_eq_true_iff.mpr ⟨decide_eq_true (Or.inr (Or.inr h2)), ?_⟩
                    exact Bool.or_eq_true_iff.mpr (Or.inr (Bool.and_eq_true_iff.mpr ⟨decide_eq_true h2, h3⟩))
                · exact Or.inr h2

/-- Every step of the reference that does not trap jumps or goes to the next instruction, except that a floating-point
instruction without a case there stays where it is. -/
theorem ref_goes {F : Fp.SoftFloat} {now : Nat} {m m' : (refMachine F).S} (h : (refMachine F).step now m = some m')
    (hh : ((refMachine F).info m').exc = false) (hi : m'.1.illegal = false) : Goes (refMachine F) m m' := by
  obtain ⟨s', h1, rfl⟩ := step_iff h
  have hh : (execInfo (env now) m.1 s').exc = false := hh
  have hi : s'.illegal = false := hi
  show ((execInfo (env now) m.1 s').br && (execInfo (env now) m.1 s').taken) = true ∨ s'.pc = m.1.pc + 4#32
  have hpc : (clear m.1).pc = m.1.pc := rfl
  unfold exec at h1
  unfold execInfo at hh ⊢
  simp only at h1 hh ⊢
  rw [← hpc]
  have key : ∀ p, fetched F (env now) (clear m.1) p = some s' →
      (if ({ clear m.1 with inst := RefMem.loadWord (clear m.1).mem p } : State).inst = INST_EBREAK then
        (⟨RefMem.loadWord (clear m.1).mem p, false, false, false, false, false, false, s'.simEnd⟩ : Info)
        else riscvInfo (env now) { clear m.1 with inst := RefMem.loadWord (clear m.1).mem p } s'.simEnd).exc = false →
      ((if ({ clear m.1 with inst := RefMem.loadWord (clear m.1).mem p } : State).inst = INST_EBREAK then
        (⟨RefMem.loadWord (clear m.1).mem p, false, false, false, false, false, false, s'.simEnd⟩ : Info)
        else riscvInfo (env now) { clear m.1 with inst := RefMem.loadWord (clear m.1).mem p } s'.simEnd).br &&
       (if ({ clear m.1 with inst := RefMem.loadWord (clear m.1).mem p } : State).inst = INST_EBREAK then
        (⟨RefMem.loadWord (clear m.1).mem p, false, false, false, false, false, false, s'.simEnd⟩ : Info)
        else riscvInfo (env now) { clear m.1 with inst := RefMem.loadWord (clear m.1).mem p } s'.simEnd).taken) = true ∨
      s'.pc = (clear m.1).pc + 4#32 := by
    intro p h hh
    unfold fetched at h
    simp only at h hh ⊢
    split at h
    · cases h; exact Or.inr rfl
    · rename_i hb
      rw [if_neg hb] at hh ⊢
      exact riscv_next h hh hi
  split at h1
  · rename_i ht
    rw [if_pos ht] at hh ⊢
    split at h1
    · cases h1
    · rename_i hq; rw [hq] at hh; cases hh
    · rename_i p hq
      rw [hq] at hh ⊢
      exact key p h1 hh
  · rename_i ht
    rw [if_neg ht] at hh ⊢
    exact key _ h1 hh

end Verif.Oracle

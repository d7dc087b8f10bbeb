import Verif.Proofs.SysMem
/- One instruction of the core with privileged programs is one step of the reference model. -/
namespace Verif.SysRef
open Verif.Core Verif.CoreRef Verif.Decode Verif.Isa Verif.Spec.ByteMem Verif.Csr Verif.Csr.Spec
open Verif.Spec.Sv32 (Access)
open Verif.RefCpu (Env zero0 clear)
open Verif.RefCpu.Spec
open Verif.RefCpu.Proofs (noIrq)

/-! ### What is known before and after a step -/

/-- The reference agrees with the core and its timer has been sampled. -/
structure On (e : Env) (σ : Core.Isa Ext) (s : RefCpu.State) : Prop where
  regs : ∀ a, a < 32 → s.gpr a = σ.regs a
  zero : σ.regs 0 = 0#32
  pc : s.pc = σ.pc
  mem : RefMem.view s.mem = σ.ext.mem
  csr : Same σ.ext.csr s
  sync : TimerSync e s
  last : ¬ Props.Device s.mem.storeAddr
  reach : Csr.Spec.Reach σ.ext.csr
  we : σ.ext.csr.we = false

/-- They agree after a step, before the timer is sampled. -/
structure Done (q : W) (r : Nat → W) (x : Ext) (s t : RefCpu.State) : Prop where
  regs : ∀ a, a < 32 → t.gpr a = r a
  zero : r 0 = 0#32
  pc : t.pc = q
  mem : RefMem.view t.mem = x.mem
  csr : Same x.csr t
  cmp : t.mem.timerCmp = s.mem.timerCmp
  off : t.mem.timerOff = s.mem.timerOff
  last : ¬ Props.Device t.mem.storeAddr
  reach : Csr.Spec.Reach x.csr
  we : x.csr.we = false

variable {tl : Nat → Bool} {F : Fp.SoftFloat} {e : Env} {σ : Core.Isa Ext} {s : RefCpu.State} {w pc : W}

theorem On.sip (h : On e σ s) : s.file .sip = s.file .mip &&& sieMask := by
  rw [h.csr.file]
  exact ((Csr.Proofs.inv_iff _).2 (Props.C27_views_consistent h.reach)).ip

theorem On.noIrq (h : On e σ s) (hi : σ.ext.csr.interruptReq = false) : RefCpu.evalIrq s = noIrq := by
  rw [RefCpu.Proofs.evalIrq_eq h.csr]
  exact RefCpu.Proofs.irq_none hi

/-- The state in which the reference executes the word it has fetched. -/
def at_ (s : RefCpu.State) (w : W) : RefCpu.State := { clear s with inst := w, irq := noIrq }

/-- The reference with an instruction that is none of the special words. -/
theorem form (h : On e σ s) (hi : σ.ext.csr.interruptReq = false) (hw : Fetches e s w)
    (hn : w ≠ RefCpu.INST_EBREAK ∧ w ≠ RefCpu.INST_ECALL ∧ w ≠ RefCpu.INST_MRET ∧ w ≠ RefCpu.INST_SRET ∧ w ≠ RefCpu.INST_WFI) :
    RefCpu.exec F e s = Option.map zero0
      (if (w.extractLsb' 0 7 : BitVec 7) = 0x73#7 then some (RefCpu.csrInst e (at_ s w))
       else if (w.extractLsb' 0 7 : BitVec 7) = 0x2f#7 then RefCpu.amoInst e (at_ s w)
       else if (w.extractLsb' 0 7 : BitVec 7) = 0x53#7 ∨ (w.extractLsb' 0 7 : BitVec 7) = 0x43#7 ∨
          (w.extractLsb' 0 7 : BitVec 7) = 0x4b#7 ∨ (w.extractLsb' 0 7 : BitVec 7) = 0x4f#7 ∨
          (w.extractLsb' 0 7 : BitVec 7) = 0x47#7 then some (RefCpu.fpInst F (at_ s w))
       else if (w.extractLsb' 0 7 : BitVec 7) = 0x03#7 then RefCpu.loadInst e (at_ s w)
       else if (w.extractLsb' 0 7 : BitVec 7) = 0x23#7 then RefCpu.storeInst e (at_ s w)
       else (Ref.refIM w ⟨s.gpr, s.pc⟩).map fun u => { at_ s w with gpr := u.gpr, pc := u.pc }) := by
  obtain ⟨n1, n2, n3, n4, n5⟩ := hn
  rw [RefCpu.Proofs.fetch_word hw n1, RefCpu.Proofs.riscv_sync (s := { clear s with inst := w }) h.sync h.sip rfl rfl n5]
  have he : RefCpu.evalIrq { clear s with inst := w } = noIrq := h.noIrq hi
  rw [he]
  rw [if_neg (show ¬ (RefCpu.asy { clear s with inst := w, irq := noIrq } = true ∨ w = RefCpu.INST_ECALL) by
    rintro (h | h)
    · rw [RefCpu.Proofs.asy_quiet rfl rfl rfl n2 n3 n4] at h
      exact absurd h (by decide)
    · exact n2 h)]
  rfl

/-! ### The core's side -/

theorem next_plain (ht : (decode w).type ≠ .mret ∧ (decode w).type ≠ .sret) (x : Ext) (a b : W) :
    (sysSem tl w pc).next x a b = nextOf w pc a b := by
  show (if _ then _ else _) = _
  split
  · rfl
  · next hb =>
    have hn : (decompose (decode w)).find? (fun m => m.iq == .br) = none := by
      rw [List.find?_eq_none]
      intro m hm hq
      exact hb (List.any_eq_true.2 ⟨m, hm, hq⟩)
    unfold nextOf resumePc
    rw [hn]
    split
    · next h => exact absurd h ht.1
    · next h => exact absurd h ht.2
    · rfl

theorem regs_dest {rd : Nat} (h : Dest w rd) {a : Nat} (ha : a < 32) (h0 : a ≠ 0) :
    (Core.exec (sysSem tl w pc) σ).regs a = if a = rd then
      (sysSem tl w pc).value σ.ext ((sysSem tl w pc).arg1 σ.regs) ((sysSem tl w pc).arg2 σ.regs) else σ.regs a := by
  show (if (decode w).destEn = true then Ring.upd σ.regs (decode w).destAreg _ else σ.regs) a = _
  rcases h with ⟨h1, h2, h3⟩ | ⟨h1, h2⟩
  · rw [if_pos h1, h2]
    rfl
  · rw [if_neg (by omega : ¬ a = rd)]
    split
    · next h =>
      have h2 := h2.resolve_left (by rw [h]; decide)
      rw [h2]
      exact if_neg (by omega)
    · rfl

theorem regs_zero (h : σ.regs 0 = 0#32) : (Core.exec (sysSem tl w pc) σ).regs 0 = 0#32 := by
  show (if (decode w).destEn = true then Ring.upd σ.regs (decode w).destAreg _ else σ.regs) 0 = _
  split
  · next h1 =>
    have h2 := (Props.C08_dest w h1).1
    exact (if_neg (fun hh => h2 hh.symm)).trans h
  · exact h

theorem regs_off (h : (decode w).destEn = false) : (Core.exec (sysSem tl w pc) σ).regs = σ.regs := by
  show (if (decode w).destEn = true then Ring.upd σ.regs (decode w).destAreg _ else σ.regs) = _
  rw [h]
  rfl

/-- An instruction that leaves the CSRs alone. -/
theorem done_of (h : On e σ s) {τ : Core.Isa Ext} {x : Ext} {t : RefCpu.State} (hr : ∀ a, a < 32 → a ≠ 0 → t.gpr a = τ.regs a)
    (h0 : τ.regs 0 = 0#32) (hpc : t.pc = τ.pc) (hm : RefMem.view t.mem = x.mem) (hc : x.csr = σ.ext.csr) (hp : t.priv = s.priv)
    (hf : t.file = s.file) (hfr : t.mem.timerCmp = s.mem.timerCmp ∧ t.mem.timerOff = s.mem.timerOff ∧ ¬ Props.Device t.mem.storeAddr) :
    Done τ.pc τ.regs x s (zero0 t) := by
  refine ⟨fun a ha => ?_, h0, hpc, hm, ⟨?_, ?_⟩, hfr.1, hfr.2.1, hfr.2.2, ?_, ?_⟩
  · unfold RefCpu.zero0 Ref.wr
    by_cases hz : a = 0
    · subst hz; simp [h0]
    · simp [hz, hr a ha hz]
  · rw [hc]
    exact hf.trans h.csr.file
  · rw [hc]
    exact hp.trans h.csr.priv
  · rw [hc]
    exact h.reach
  · rw [hc]
    exact h.we

/-- The result of an instruction step. -/
abbrev Inst (tl : Nat → Bool) (w : W) (σ : Core.Isa Ext) (s t : RefCpu.State) : Prop :=
  Done (Core.exec (sysSem tl w σ.pc) σ).pc (Core.exec (sysSem tl w σ.pc) σ).regs
    (act w σ.pc σ.ext ((sysSem tl w σ.pc).arg1 σ.regs) ((sysSem tl w σ.pc).arg2 σ.regs)) s t ∧ Quiet t

/-! ### Integer instructions and branches -/

theorem inst_int (h : On e σ s) (hi : σ.ext.csr.interruptReq = false) (ins : Instr) (hw : Fetches e s ins.encode)
    (hr : ¬ Exec.rotZero ins σ.regs) : ∃ t, RefCpu.exec F e s = some t ∧ Inst tl ins.encode σ s t := by
  obtain ⟨ht, hj⟩ := dec_int ins
  have ho := opc_int ins
  simp only [List.mem_cons, List.not_mem_nil, or_false, not_or] at ho
  obtain ⟨o1, o2, o3, o4, o5, o6, o7, o8, o9⟩ := ho
  have hsp := RefCpu.Proofs.not_special (w := ins.encode) (Or.inl o1)
  have h0 : s.gpr 0 = 0#32 := (h.regs 0 (by decide)).trans h.zero
  obtain ⟨a1, a2⟩ := args_congr (w := ins.encode) (pc := σ.pc) h.regs
  have hv := value_exec (pc := σ.pc) (x := σ.regs) ht
  have hv' := value_exec (pc := σ.pc) (x := s.gpr) ht
  rw [a1, a2, hv] at hv'
  obtain ⟨v, hex, -⟩ := Exec.exec_sem ins σ.pc σ.regs h.zero hr
  have ha := Props.C09_alu ins s.gpr h0 s.pc
  rw [h.pc, ← hv', hex] at ha
  cases hu : Ref.refIM ins.encode ⟨s.gpr, σ.pc⟩ with
  | none => rw [hu] at ha; simp at ha
  | some u =>
    rw [hu] at ha
    simp only [Option.map_some, Option.some.injEq] at ha
    rw [form h hi hw hsp, if_neg o1, if_neg o2, if_neg (by simp [o3, o4, o5, o6, o7]), if_neg o8, if_neg o9, h.pc, hu]
    have hact : act ins.encode σ.pc σ.ext ((sysSem tl ins.encode σ.pc).arg1 σ.regs) ((sysSem tl ins.encode σ.pc).arg2 σ.regs) = σ.ext := by
      unfold act
      rcases ht with ht | ht | ht | ht | ht <;> rw [ht]
    refine ⟨_, rfl, done_of h (t := { at_ s ins.encode with gpr := u.gpr, pc := u.pc }) (fun a ha32 ha0 => ?_) (regs_zero h.zero) ?_ ?_ ?_ rfl rfl
      ⟨rfl, rfl, h.last⟩, hsp.2.1, rfl⟩
    · rw [regs_dest (dest_int ins) ha32 ha0]
      show u.gpr a = _
      rw [ha]
      unfold Props.writeReg
      rw [if_neg ha0]
      split
      · have : (sysSem tl ins.encode σ.pc).value σ.ext ((sysSem tl ins.encode σ.pc).arg1 σ.regs) ((sysSem tl ins.encode σ.pc).arg2 σ.regs) =
            (valueOf ins.encode σ.pc ((coreSem ins.encode σ.pc).arg1 σ.regs) ((coreSem ins.encode σ.pc).arg2 σ.regs)).getD 0#32 := by
          show (match (decode ins.encode).type with | .csr => _ | .load | .amo => _ | _ => _) = _
          rcases ht with ht | ht | ht | ht | ht <;> rw [ht] <;> rfl
        rw [this, hv, hex]
        rfl
      · exact h.regs a ha32
    · obtain ⟨p1, p2⟩ := Props.C09_pc ins s.gpr σ.pc u hu
      show u.pc = (sysSem tl ins.encode σ.pc).next _ _ _
      rw [next_plain (by rcases ht with ht | ht | ht | ht | ht <;> rw [ht] <;> decide)]
      cases hb : Props.isJump ins with
      | false =>
        rw [p1 hb, next_other]
        have : ¬ ((decode ins.encode).type = .jal ∨ (decode ins.encode).type = .jalr) := fun hh => by
          have := hj.2 hh
          rw [hb] at this
          exact absurd this (by decide)
        rw [not_or] at this
        refine ⟨?_, this⟩
        rcases ht with ht | ht | ht | ht | ht <;> rw [ht] <;> decide
      | true =>
        obtain ⟨o, ho, hp⟩ := p2 hb false 0#32
        rw [hp]
        have := next_exec (Or.inr (hj.1 hb)) ho
        rw [a1, a2] at this
        exact this.symm
    · rw [hact]
      exact h.mem
    · rw [hact]

theorem inst_branch (h : On e σ s) (hi : σ.ext.csr.interruptReq = false) (op : BrOp) (imm : BitVec 12) (rs2 rs1 : BitVec 5)
    (hw : Fetches e s (encB imm rs2 rs1 op.funct3 0b1100011#7)) :
    ∃ t, RefCpu.exec F e s = some t ∧ Inst tl (encB imm rs2 rs1 op.funct3 0b1100011#7) σ s t := by
  obtain ⟨ht, hd⟩ := dec_branch imm rs2 rs1 op.funct3
  have ho : ((encB imm rs2 rs1 op.funct3 0b1100011#7).extractLsb' 0 7 : BitVec 7) = 0b1100011#7 := EncLemmas.encB_opc ..
  have h0 : s.gpr 0 = 0#32 := (h.regs 0 (by decide)).trans h.zero
  obtain ⟨a1, a2⟩ := args_congr (w := encB imm rs2 rs1 op.funct3 0b1100011#7) (pc := σ.pc) h.regs
  obtain ⟨u, o, hu, hb, hp, hg⟩ := Props.C09_branch op imm rs2 rs1 s.pc s.gpr h0 false 0#32
  rw [h.pc] at hu hb
  generalize encB imm rs2 rs1 op.funct3 0b1100011#7 = w at *
  have hsp := RefCpu.Proofs.not_special (w := w) (Or.inl (by rw [ho]; decide))
  rw [form h hi hw hsp, ho, if_neg (by decide), if_neg (by decide), if_neg (by decide), if_neg (by decide), if_neg (by decide), h.pc, hu]
  have hact : act w σ.pc σ.ext ((sysSem tl w σ.pc).arg1 σ.regs) ((sysSem tl w σ.pc).arg2 σ.regs) = σ.ext := by
    unfold act
    rw [ht]
  refine ⟨_, rfl, done_of h (t := { at_ s w with gpr := u.gpr, pc := u.pc }) (fun a ha32 ha0 => ?_) (regs_zero h.zero) ?_ ?_ ?_ rfl rfl
    ⟨rfl, rfl, h.last⟩, hsp.2.1, rfl⟩
  · rw [regs_off hd]
    show u.gpr a = _
    rw [hg]
    exact h.regs a ha32
  · show u.pc = (sysSem tl w σ.pc).next _ _ _
    rw [next_plain (by rw [ht]; decide), hp]
    have := next_exec (Or.inl ht) hb
    rw [a1, a2] at this
    exact this.symm
  · rw [hact]
    exact h.mem
  · rw [hact]

/-! ### Memory accesses -/

theorem no_fault {x : Ext} {a b : W} (h : faultOf w pc x a b = none) :
    (∃ p, tr x .fetch pc = some p) ∧ (decode w).type ≠ .ecall ∧
    ((decode w).type = .store ∨ ((decode w).type = .amo ∧ (decode w).amoOp ≠ 2#7) →
      ∃ p, tr x .store (addrOf .sta w pc a b) = some p) ∧
    ((decode w).type = .load ∨ ((decode w).type = .amo ∧ (decode w).amoOp ≠ 3#7) →
      ∃ p, tr x .load (addrOf .ld w pc a b) = some p) := by
  unfold faultOf at h
  have some_of : ∀ o : Option W, o ≠ none → ∃ p, o = some p := fun o ho => by
    cases o with
    | none => exact absurd rfl ho
    | some p => exact ⟨p, rfl⟩
  split at h
  · cases h
  · next h1 =>
    split at h
    · cases h
    · split at h
      · cases h
      · next h3 =>
        split at h
        · cases h
        · next h4 =>
          split at h
          · cases h
          · next h5 =>
            exact ⟨some_of _ h1, h3, fun hs => some_of _ fun hh => h4 ⟨hs, hh⟩, fun hs => some_of _ fun hh => h5 ⟨hs, hh⟩⟩

variable {v p : W}

/-- The reference finds the address `p` for the access to `v`. -/
def Finds (e : Env) (s : RefCpu.State) (k : Nat) (v p : W) : Prop :=
  (RefMmu.dataTranslation s.ctx = true ∧ s.fix e v k = .ok p) ∨ (RefMmu.dataTranslation s.ctx = false ∧ p = v)

theorem finds_load (h : On e σ s) (hl : Level σ.ext.csr) (hf : Flag e .load false) (ht : tr σ.ext .load v = some p) :
    Finds e s 1 v p := by
  cases he : RefMmu.dataTranslation s.ctx with
  | true => exact Or.inl ⟨he, fix_ok hf (walk_ok h.mem h.csr hl he ht)⟩
  | false =>
    rw [tr_off (acc := .load) h.mem h.csr he] at ht
    exact Or.inr ⟨he, (Option.some.inj ht).symm⟩

theorem finds_store (h : On e σ s) (hl : Level σ.ext.csr) (hf : Flag e .store false) (ht : tr σ.ext .store v = some p) :
    Finds e s 2 v p := by
  cases he : RefMmu.dataTranslation s.ctx with
  | true => exact Or.inl ⟨he, fix_ok hf (walk_ok h.mem h.csr hl he ht)⟩
  | false =>
    rw [tr_off (acc := .store) h.mem h.csr he] at ht
    exact Or.inr ⟨he, (Option.some.inj ht).symm⟩

theorem load_go (hx : Finds e s 1 v p) (hv : s.gpr (w.extractLsb' 15 5).toNat + (immI w).setWidth 32 = v) :
    RefCpu.loadInst e (at_ s w) = (RefMem.load e.now (at_ s w).memIn (w.extractLsb' 12 3) p).map fun d =>
      { at_ s w with gpr := Ref.wr s.gpr (w.extractLsb' 7 5).toNat d, pc := s.pc + 4#32 } := by
  subst hv
  unfold RefCpu.loadInst
  dsimp only
  rcases hx with ⟨h1, h2⟩ | ⟨h1, rfl⟩
  · rw [if_pos (show RefMmu.dataTranslation (at_ s w).ctx = true from h1),
      show (at_ s w).fix e ((at_ s w).gpr ((at_ s w).inst.extractLsb' 15 5).toNat + (immI (at_ s w).inst).setWidth 32) 1 = .ok p from h2]
    rfl
  · rw [if_neg (show ¬ RefMmu.dataTranslation (at_ s w).ctx = true from fun h => Bool.false_ne_true (h1.symm.trans h))]
    rfl

theorem store_go (hx : Finds e s 2 v p) (hv : s.gpr (w.extractLsb' 15 5).toNat + (immS w).setWidth 32 = v) :
    RefCpu.storeInst e (at_ s w) = (RefMem.storeInst e.now (at_ s w).memIn (w.extractLsb' 12 3) p (s.gpr (w.extractLsb' 20 5).toNat)).map
      fun m => { (at_ s w).memOut m with pc := s.pc + 4#32 } := by
  subst hv
  unfold RefCpu.storeInst
  dsimp only
  rcases hx with ⟨h1, h2⟩ | ⟨h1, rfl⟩
  · rw [if_pos (show RefMmu.dataTranslation (at_ s w).ctx = true from h1),
      show (at_ s w).fix e ((at_ s w).gpr ((at_ s w).inst.extractLsb' 15 5).toNat + (immS (at_ s w).inst).setWidth 32) 2 = .ok p from h2]
    rfl
  · rw [if_neg (show ¬ RefMmu.dataTranslation (at_ s w).ctx = true from fun h => Bool.false_ne_true (h1.symm.trans h))]
    rfl

/-- The result of an atomic. -/
def amoDone (s : RefCpu.State) (w : W) (r : Option W × RefMem.State) : RefCpu.State :=
  { (at_ s w).memOut r.2 with
    gpr := match r.1 with
      | some d => Ref.wr s.gpr (w.extractLsb' 7 5).toNat d
      | none => s.gpr
    pc := s.pc + 4#32 }

theorem lr_go (hx : Finds e s 1 v p) (hv : s.gpr (w.extractLsb' 15 5).toNat = v) (h5 : w.extractLsb' 27 5 = 2#5) :
    RefCpu.amoInst e (at_ s w) = (RefMem.amo e.now (at_ s w).memIn 2#5 p (s.gpr (w.extractLsb' 20 5).toNat)).map (amoDone s w) := by
  subst hv
  unfold RefCpu.amoInst
  dsimp only
  rw [show (at_ s w).inst = w from rfl, h5]
  rcases hx with ⟨h1, h2⟩ | ⟨h1, rfl⟩
  · rw [if_pos (show RefMmu.dataTranslation (at_ s w).ctx = true from h1), if_pos rfl,
      show (at_ s w).fix e ((at_ s w).gpr (w.extractLsb' 15 5).toNat) 1 = .ok p from h2]
    rfl
  · rw [if_neg (show ¬ RefMmu.dataTranslation (at_ s w).ctx = true from fun h => Bool.false_ne_true (h1.symm.trans h))]
    rfl

theorem amo_go (hx : Finds e s 1 v p) (hy : Finds e s 2 v p) (hv : s.gpr (w.extractLsb' 15 5).toNat = v)
    (h2 : w.extractLsb' 27 5 ≠ 2#5) (h3 : w.extractLsb' 27 5 ≠ 3#5) :
    RefCpu.amoInst e (at_ s w) =
      (RefMem.amo e.now (at_ s w).memIn (w.extractLsb' 27 5) p (s.gpr (w.extractLsb' 20 5).toNat)).map (amoDone s w) := by
  subst hv
  unfold RefCpu.amoInst
  dsimp only
  rw [show (at_ s w).inst = w from rfl]
  rcases hx with ⟨h1, h1'⟩ | ⟨h1, rfl⟩
  · rcases hy with ⟨-, hy⟩ | ⟨hy, -⟩
    · rw [if_pos (show RefMmu.dataTranslation (at_ s w).ctx = true from h1), if_neg h2, if_neg h3,
        show (at_ s w).fix e ((at_ s w).gpr (w.extractLsb' 15 5).toNat) 1 = .ok p from h1',
        show (at_ s w).fix e ((at_ s w).gpr (w.extractLsb' 15 5).toNat) 2 = .ok p from hy]
      rfl
    · rw [h1] at hy
      cases hy
  · rw [if_neg (show ¬ RefMmu.dataTranslation (at_ s w).ctx = true from fun h => Bool.false_ne_true (h1.symm.trans h))]
    rfl

theorem view_in : RefMem.view (at_ s w).memIn = RefMem.view s.mem := rfl

/-- The interrupt registers survive a store. -/
theorem out_file {m : RefMem.State} (h1 : m.mip = s.file .mip) (h2 : m.sip = s.file .sip) : ((at_ s w).memOut m).file = s.file := by
  show Csr.set (Csr.set s.file .mip m.mip) .sip m.sip = s.file
  rw [h1, h2, RefCpu.Proofs.set_same, RefCpu.Proofs.set_same]

theorem inst_load (h : On e σ s) (hi : σ.ext.csr.interruptReq = false) (hl : Level σ.ext.csr) (hfl : Flag e .load false)
    (sz : Size) (sg : Bool) (f3 : BitVec 3) (imm : BitVec 12) (rs1 rd : BitVec 5) (hc : loadCode sz sg = some f3)
    (hw : Fetches e s (encI imm rs1 f3 rd 0b0000011#7))
    (hnf : faultOf (encI imm rs1 f3 rd 0b0000011#7) σ.pc σ.ext ((sysSem tl (encI imm rs1 f3 rd 0b0000011#7) σ.pc).arg1 σ.regs)
      ((sysSem tl (encI imm rs1 f3 rd 0b0000011#7) σ.pc).arg2 σ.regs) = none)
    (hal : ∀ p, tr σ.ext .load (σ.regs rs1.toNat + imm.signExtend 32) = some p → aligned sz p ∧ ¬ Props.Device p) :
    ∃ t, RefCpu.exec F e s = some t ∧ Inst tl (encI imm rs1 f3 rd 0b0000011#7) σ s t := by
  obtain ⟨ht, h3, hd⟩ := dec_load imm rs1 rd f3
  have ho : ((encI imm rs1 f3 rd 0b0000011#7).extractLsb' 0 7 : BitVec 7) = 0b0000011#7 := EncLemmas.encI_opc ..
  have e3 : ((encI imm rs1 f3 rd 0b0000011#7).extractLsb' 12 3 : BitVec 3) = f3 := EncLemmas.encI_f3 ..
  have e1 : ((encI imm rs1 f3 rd 0b0000011#7).extractLsb' 15 5 : BitVec 5) = rs1 := EncLemmas.encI_rs1 ..
  have ed : ((encI imm rs1 f3 rd 0b0000011#7).extractLsb' 7 5 : BitVec 5) = rd := EncLemmas.encI_rd ..
  have ei : (immI (encI imm rs1 f3 rd 0b0000011#7)).setWidth 32 = imm.signExtend 32 := ImmLemmas.immI_enc ..
  have had := (Props.C06_store_load imm 0 rs1 rd f3 σ.pc 0 σ.regs).2.2
  rw [addr_sum] at had
  generalize encI imm rs1 f3 rd 0b0000011#7 = w at *
  have hsp := RefCpu.Proofs.not_special (w := w) (Or.inl (by rw [ho]; decide))
  have hx : s.gpr rs1.toNat = σ.regs rs1.toNat := h.regs _ rs1.isLt
  have hadr : ∀ b, addrOf .ld w σ.pc ((sysSem tl w σ.pc).arg1 σ.regs) b = σ.regs rs1.toNat + imm.signExtend 32 :=
    addr_exec ((flags w).2.2.2.1 (Or.inr (Or.inl ht))) had
  obtain ⟨p, hp⟩ := (no_fault hnf).2.2.2 (Or.inl ht)
  rw [hadr] at hp
  obtain ⟨al, dv⟩ := hal p hp
  have hldr := Props.C33_ref_load e.now (at_ s w).memIn sz sg f3 hc p al dv
  rw [view_in, h.mem] at hldr
  have hact : act w σ.pc σ.ext ((sysSem tl w σ.pc).arg1 σ.regs) ((sysSem tl w σ.pc).arg2 σ.regs) = σ.ext := by
    unfold act
    rw [ht]
  rw [form h hi hw hsp, ho, if_neg (by decide), if_neg (by decide), if_neg (by decide), if_pos rfl,
    load_go (finds_load h hl hfl hp) (by rw [e1, ei, hx]), e3, hldr, ed]
  refine ⟨_, rfl, done_of h (t := { at_ s w with gpr := Ref.wr s.gpr rd.toNat (load σ.ext.mem sz sg p), pc := s.pc + 4#32 })
    (fun a ha32 ha0 => ?_) (regs_zero h.zero) ?_ ?_ ?_ rfl rfl ⟨rfl, rfl, h.last⟩, hsp.2.1, rfl⟩
  · rw [regs_dest hd ha32 ha0]
    show Ref.wr s.gpr rd.toNat _ a = _
    unfold Ref.wr
    rw [if_neg ha0]
    split
    · show _ = (match (decode w).type with | .csr => _ | .load | .amo => _ | _ => _)
      rw [ht]
      show _ = loaded w σ.pc σ.ext _ _
      unfold loaded
      rw [hadr, hp, h3]
      exact (Props.C33_core_load σ.ext.mem sz sg f3 hc _ al).symm
    · exact h.regs a ha32
  · show s.pc + 4#32 = (sysSem tl w σ.pc).next _ _ _
    rw [next_plain (by rw [ht]; decide), next_other (by rw [ht]; decide), h.pc]
  · rw [hact]
    exact h.mem
  · rw [hact]

theorem inst_store (h : On e σ s) (hi : σ.ext.csr.interruptReq = false) (hl : Level σ.ext.csr) (hfl : Flag e .store false)
    (sz : Size) (imm : BitVec 12) (rs2 rs1 : BitVec 5) (hw : Fetches e s (encS imm rs2 rs1 sz.code 0b0100011#7))
    (hnf : faultOf (encS imm rs2 rs1 sz.code 0b0100011#7) σ.pc σ.ext ((sysSem tl (encS imm rs2 rs1 sz.code 0b0100011#7) σ.pc).arg1 σ.regs)
      ((sysSem tl (encS imm rs2 rs1 sz.code 0b0100011#7) σ.pc).arg2 σ.regs) = none)
    (hal : ∀ p, tr σ.ext .store (σ.regs rs1.toNat + imm.signExtend 32) = some p → aligned sz p ∧ ¬ Props.Device p) :
    ∃ t, RefCpu.exec F e s = some t ∧ Inst tl (encS imm rs2 rs1 sz.code 0b0100011#7) σ s t := by
  obtain ⟨ht, h3, hd⟩ := dec_store imm rs2 rs1 sz.code
  have ho : ((encS imm rs2 rs1 sz.code 0b0100011#7).extractLsb' 0 7 : BitVec 7) = 0b0100011#7 := EncLemmas.encS_opc ..
  have e3 : ((encS imm rs2 rs1 sz.code 0b0100011#7).extractLsb' 12 3 : BitVec 3) = sz.code := EncLemmas.encS_f3 ..
  have e1 : ((encS imm rs2 rs1 sz.code 0b0100011#7).extractLsb' 15 5 : BitVec 5) = rs1 := EncLemmas.encS_rs1 ..
  have e2 : ((encS imm rs2 rs1 sz.code 0b0100011#7).extractLsb' 20 5 : BitVec 5) = rs2 := EncLemmas.encS_rs2 ..
  have ei : (immS (encS imm rs2 rs1 sz.code 0b0100011#7)).setWidth 32 = imm.signExtend 32 := ImmLemmas.immS_enc ..
  have hsl := fun old => Props.C06_store_load imm rs2 rs1 0 sz.code σ.pc old σ.regs
  simp only [addr_sum] at hsl
  generalize encS imm rs2 rs1 sz.code 0b0100011#7 = w at *
  have hsp := RefCpu.Proofs.not_special (w := w) (Or.inl (by rw [ho]; decide))
  have hx : s.gpr rs1.toNat = σ.regs rs1.toNat := h.regs _ rs1.isLt
  have hy : s.gpr rs2.toNat = σ.regs rs2.toNat := h.regs _ rs2.isLt
  have h12 := (flags w).2.1 (Or.inr (Or.inr (Or.inr ht)))
  have hadr : ∀ b, addrOf .sta w σ.pc ((sysSem tl w σ.pc).arg1 σ.regs) b = σ.regs rs1.toNat + imm.signExtend 32 :=
    addr_exec h12.1 (hsl 0).2.1
  obtain ⟨p, hp⟩ := (no_fault hnf).2.2.1 (Or.inl ht)
  rw [hadr] at hp
  obtain ⟨al, dv⟩ := hal p hp
  obtain ⟨m, hm, hvm⟩ := Props.C33_ref_store e.now (at_ s w).memIn sz p (σ.regs rs2.toNat) al dv
  rw [view_in, h.mem] at hvm
  have hfr := store_frame dv hm
  have hact : act w σ.pc σ.ext ((sysSem tl w σ.pc).arg1 σ.regs) ((sysSem tl w σ.pc).arg2 σ.regs) =
      { σ.ext with mem := putLanes σ.ext.mem p (σ.regs rs2.toNat) sz.code } := by
    unfold act
    rw [ht]
    dsimp only
    rw [if_neg (by simp), hadr, hp, h3]
    have := data_exec (Or.inl ht) (hsl (loaded w σ.pc σ.ext ((sysSem tl w σ.pc).arg1 σ.regs) ((sysSem tl w σ.pc).arg2 σ.regs))).1
    show ({ σ.ext with mem := putLanes σ.ext.mem p (dataOf w σ.pc ((coreSem w σ.pc).arg1 σ.regs) ((coreSem w σ.pc).arg2 σ.regs)
      (loaded w σ.pc σ.ext ((sysSem tl w σ.pc).arg1 σ.regs) ((sysSem tl w σ.pc).arg2 σ.regs))) sz.code } : Ext) = _
    rw [this]
  rw [form h hi hw hsp, ho, if_neg (by decide), if_neg (by decide), if_neg (by decide), if_neg (by decide), if_pos rfl,
    store_go (finds_store h hl hfl hp) (by rw [e1, ei, hx]), e3, e2, hy, hm]
  refine ⟨_, rfl, done_of h (t := { (at_ s w).memOut m with pc := s.pc + 4#32 })
    (fun a ha32 ha0 => ?_) (regs_zero h.zero) ?_ ?_ ?_ rfl (out_file hfr.mip hfr.sip) ⟨hfr.cmp, hfr.off, ?_⟩, hsp.2.1, rfl⟩
  · rw [regs_off hd]
    exact h.regs a ha32
  · show s.pc + 4#32 = (sysSem tl w σ.pc).next _ _ _
    rw [next_plain (by rw [ht]; decide), next_other (by rw [ht]; decide), h.pc]
  · rw [hact]
    show RefMem.view m = _
    rw [hvm]
    funext a
    exact (Props.C33_core_store σ.ext.mem sz _ _ al a).symm
  · rw [hact]
  · show ¬ Props.Device m.storeAddr
    rw [hfr.addr]
    exact dv

theorem inst_amo (h : On e σ s) (hi : σ.ext.csr.interruptReq = false) (hl : Level σ.ext.csr) (hfl : Flag e .load false)
    (hfs : Flag e .store false) (op : AmoOp) (aqrl : BitVec 2) (rs2 rs1 rd : BitVec 5)
    (hw : Fetches e s (Props.encAmo op.funct5 aqrl rs2 rs1 rd))
    (hnf : faultOf (Props.encAmo op.funct5 aqrl rs2 rs1 rd) σ.pc σ.ext ((sysSem tl (Props.encAmo op.funct5 aqrl rs2 rs1 rd) σ.pc).arg1 σ.regs)
      ((sysSem tl (Props.encAmo op.funct5 aqrl rs2 rs1 rd) σ.pc).arg2 σ.regs) = none)
    (hal : ∀ p, tr σ.ext .store (σ.regs rs1.toNat) = some p → aligned .word p ∧ ¬ Props.Device p) :
    ∃ t, RefCpu.exec F e s = some t ∧ Inst tl (Props.encAmo op.funct5 aqrl rs2 rs1 rd) σ s t := by
  have hop7 : ((op.funct5 ++ aqrl : BitVec (5 + 2)).cast rfl : BitVec 7) >>> 2 ≠ 2#7 ∧
      ((op.funct5 ++ aqrl : BitVec (5 + 2)).cast rfl : BitVec 7) >>> 2 ≠ 3#7 := by
    rw [show ((op.funct5 ++ aqrl : BitVec (5 + 2)).cast rfl : BitVec 7) >>> 2 = _ from Props.amoOp_code _ _]
    cases op <;> decide
  obtain ⟨hd, h3⟩ := dec_amo_dest ((op.funct5 ++ aqrl : BitVec (5 + 2)).cast rfl) rs2 rs1 rd hop7.1 hop7.2
  obtain ⟨u, hu, ht, h7, -⟩ := Props.dec_amo ((op.funct5 ++ aqrl : BitVec (5 + 2)).cast rfl) rs2 rs1 rd 2
  have ho : ((Props.encAmo op.funct5 aqrl rs2 rs1 rd).extractLsb' 0 7 : BitVec 7) = 0b0101111#7 := EncLemmas.encR_opc ..
  have hrd : ((Props.encAmo op.funct5 aqrl rs2 rs1 rd).extractLsb' 7 5 : BitVec 5) = rd := EncLemmas.encR_rd ..
  have hr1 : ((Props.encAmo op.funct5 aqrl rs2 rs1 rd).extractLsb' 15 5 : BitVec 5) = rs1 := EncLemmas.encR_rs1 ..
  have hr2 : ((Props.encAmo op.funct5 aqrl rs2 rs1 rd).extractLsb' 20 5 : BitVec 5) = rs2 := EncLemmas.encR_rs2 ..
  have hf5 := encAmo_f5 op.funct5 aqrl rs2 rs1 rd
  change Dest (Props.encAmo op.funct5 aqrl rs2 rs1 rd) rd.toNat at hd
  change (decode (Props.encAmo op.funct5 aqrl rs2 rs1 rd)).func3 = 2#3 at h3
  change decode (Props.encAmo op.funct5 aqrl rs2 rs1 rd) = u at hu
  have htw : (decode (Props.encAmo op.funct5 aqrl rs2 rs1 rd)).type = .amo := by rw [hu, ht]
  have hn2 : (decode (Props.encAmo op.funct5 aqrl rs2 rs1 rd)).amoOp ≠ 2#7 := by
    rw [hu, DecInst.amoOp, h7]
    exact hop7.1
  have hn3 : (decode (Props.encAmo op.funct5 aqrl rs2 rs1 rd)).amoOp ≠ 3#7 := by
    rw [hu, DecInst.amoOp, h7]
    exact hop7.2
  obtain ⟨opr, hcode, hres⟩ := amo_ops op
  have c := fun old => Props.C06_amo op aqrl rs2 rs1 rd σ.pc old σ.regs
  have hq2 : op.funct5 ≠ 2#5 := by cases op <;> decide
  have hq3 : op.funct5 ≠ 3#5 := by cases op <;> decide
  generalize Props.encAmo op.funct5 aqrl rs2 rs1 rd = w at *
  have hsp := RefCpu.Proofs.not_special (w := w) (Or.inl (by rw [ho]; decide))
  have g1 : (decode w).src1En = true := (flags w).2.2.2.1 (Or.inr (Or.inr htw))
  have adl : ∀ b, addrOf .ld w σ.pc ((sysSem tl w σ.pc).arg1 σ.regs) b = σ.regs rs1.toNat := addr_exec g1 (c 0).2.1
  have ads : ∀ b, addrOf .sta w σ.pc ((sysSem tl w σ.pc).arg1 σ.regs) b = σ.regs rs1.toNat := addr_exec g1 (c 0).2.2
  obtain ⟨p, hp⟩ := (no_fault hnf).2.2.1 (Or.inr ⟨htw, hn2⟩)
  obtain ⟨q, hq⟩ := (no_fault hnf).2.2.2 (Or.inr ⟨htw, hn3⟩)
  rw [ads] at hp
  rw [adl] at hq
  have hpq := tr_same hq hp
  subst hpq
  obtain ⟨al, dv⟩ := hal q hp
  have hx : s.gpr rs1.toNat = σ.regs rs1.toNat := h.regs _ rs1.isLt
  have hy : s.gpr rs2.toNat = σ.regs rs2.toNat := h.regs _ rs2.isLt
  obtain ⟨m, hm, hvm⟩ := Props.C50_amo e.now (at_ s w).memIn opr q (σ.regs rs2.toNat) al dv
  rw [view_in, h.mem] at hm hvm
  have hfr := amo_frame dv al hm
  rw [hcode] at hm
  rw [hres] at hvm
  have hld : Lane.extractData (word σ.ext.mem q) q 2#3 = load σ.ext.mem .word false q := by
    rw [Props.C33_core_load σ.ext.mem .word true 2#3 rfl _ al, load_word_signed]
  have hloaded : loaded w σ.pc σ.ext ((sysSem tl w σ.pc).arg1 σ.regs) ((sysSem tl w σ.pc).arg2 σ.regs) = load σ.ext.mem .word false q := by
    unfold loaded
    rw [adl, hq, h3]
    exact hld
  have hact : act w σ.pc σ.ext ((sysSem tl w σ.pc).arg1 σ.regs) ((sysSem tl w σ.pc).arg2 σ.regs) =
      { σ.ext with mem := putLanes σ.ext.mem q (op.sem (load σ.ext.mem .word false q) (σ.regs rs2.toNat)) 2#3 } := by
    unfold act
    rw [htw]
    dsimp only
    rw [if_neg (fun hh => hn2 hh.2), ads, hp, h3, hloaded]
    have := data_exec (Or.inr ⟨htw, hn2⟩) (c (load σ.ext.mem .word false q)).1
    show ({ σ.ext with mem := putLanes σ.ext.mem q (dataOf w σ.pc ((coreSem w σ.pc).arg1 σ.regs) ((coreSem w σ.pc).arg2 σ.regs)
      (load σ.ext.mem .word false q)) 2#3 } : Ext) = _
    rw [this]
  rw [form h hi hw hsp, ho, if_neg (by decide), if_pos rfl,
    amo_go (finds_load h hl hfl hq) (finds_store h hl hfs hp) (by rw [hr1, hx]) (by rw [hf5]; exact hq2) (by rw [hf5]; exact hq3),
    hf5, hr2, hy, hm]
  refine ⟨_, rfl, done_of h (t := amoDone s w (some (load σ.ext.mem .word false q), m))
    (fun a ha32 ha0 => ?_) (regs_zero h.zero) ?_ ?_ ?_ rfl (out_file hfr.mip hfr.sip) ⟨hfr.cmp, hfr.off, ?_⟩, hsp.2.1, rfl⟩
  · rw [regs_dest hd ha32 ha0]
    show Ref.wr s.gpr (w.extractLsb' 7 5).toNat _ a = _
    rw [hrd]
    unfold Ref.wr
    rw [if_neg ha0]
    split
    · show _ = (match (decode w).type with | .csr => _ | .load | .amo => _ | _ => _)
      rw [htw]
      exact hloaded.symm
    · exact h.regs a ha32
  · show s.pc + 4#32 = (sysSem tl w σ.pc).next _ _ _
    rw [next_plain (by rw [htw]; decide), next_other (by rw [htw]; decide), h.pc]
  · rw [hact]
    show RefMem.view m = _
    rw [hvm]
    funext a
    exact (Props.C33_core_store σ.ext.mem .word _ _ al a).symm
  · rw [hact]
  · show ¬ Props.Device m.storeAddr
    rw [hfr.addr]
    exact dv

end Verif.SysRef

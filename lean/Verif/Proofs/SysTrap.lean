import Verif.Proofs.SysPriv
/- Traps, interrupts and the timer: the reference does what the CSR unit of the core does. -/
namespace Verif.SysRef
open Verif.Core Verif.CoreRef Verif.Decode Verif.Isa Verif.Spec.ByteMem Verif.Csr Verif.Csr.Spec
open Verif.Spec.Sv32 (Access)
open Verif.RefCpu (Env zero0 clear syncTimer)
open Verif.RefCpu.Spec
open Verif.RefCpu.Proofs (noIrq)

variable {tl : Nat → Bool} {F : Fp.SoftFloat} {e e' : Env} {σ : Core.Isa Ext} {s t t' : RefCpu.State} {w pc v : W}

/-! ### The timer -/

/-- The reference's timer has expired. -/
def late (e : Env) (m : RefMem.State) : Bool := decide (m.timerCmp.toNat ≤ (e.now + m.timerOff).toNat)

theorem effMip_eq (m : W) : RefCpu.effMip e s m = if late e s.mem = true then m ||| MTIP else m &&& ~~~MTIP := by
  unfold RefCpu.effMip late RefMem.timerNow
  simp only [decide_eq_true_eq, ge_iff_le]

theorem tick_bit (m : W) (b : Bool) : ((if b = true then m ||| MTIP else m &&& ~~~MTIP) : W).getLsbD 7 = b := by
  cases b <;> simp [MTIP]

theorem tick_twice (m : W) (b b' : Bool) : ((if b = true then (if b' = true then m ||| MTIP else m &&& ~~~MTIP) ||| MTIP
    else (if b' = true then m ||| MTIP else m &&& ~~~MTIP) &&& ~~~MTIP) : W) = if b = true then m ||| MTIP else m &&& ~~~MTIP := by
  cases b <;> cases b' <;> simp only [Bool.false_eq_true, if_true, if_false]
  · rw [BitVec.and_assoc, BitVec.and_self]
  · apply BitVec.eq_of_getLsbD_eq
    intro i hi
    simp only [BitVec.getLsbD_and, BitVec.getLsbD_or, BitVec.getLsbD_not]
    cases MTIP.getLsbD i <;> simp
  · apply BitVec.eq_of_getLsbD_eq
    intro i hi
    simp only [BitVec.getLsbD_and, BitVec.getLsbD_or, BitVec.getLsbD_not]
    cases MTIP.getLsbD i <;> simp [hi]
  · rw [BitVec.or_assoc, BitVec.or_self]

theorem sync_def : syncTimer e s = { s with
    file := (Csr.set (Csr.set s.file .mip (RefCpu.effMip e s (s.file .mip))) .sip (RefCpu.effMip e s (s.file .mip) &&& sieMask)) } := rfl

theorem sync_twice : syncTimer e' (syncTimer e s) = syncTimer e' s := by
  have h1 : (syncTimer e s).file .mip = RefCpu.effMip e s (s.file .mip) := by
    simp [RefCpu.syncTimer, Csr.set]
  have h2 : RefCpu.effMip e' (syncTimer e s) ((syncTimer e s).file .mip) = RefCpu.effMip e' s (s.file .mip) := by
    rw [h1, effMip_eq, effMip_eq, effMip_eq]
    exact tick_twice _ _ _
  rw [sync_def (e := e') (s := syncTimer e s), h2]
  unfold RefCpu.syncTimer
  dsimp only
  congr 1
  funext r
  cases r <;> simp [Csr.set]

theorem sync_sync : TimerSync e (syncTimer e s) := by
  unfold TimerSync
  have h1 : (syncTimer e s).file .mip = RefCpu.effMip e s (s.file .mip) := by
    simp [RefCpu.syncTimer, Csr.set]
  rw [h1, effMip_eq, tick_bit]
  exact decide_eq_true_iff

/-- The timer line of the core and the reference's timer. -/
theorem on_next {q : W} {r : Nat → W} {x : Ext} (h : Done q r x s t) (hl : tl (x.k + 1) = late e' s.mem) :
    On e' ⟨q, r, tick tl x⟩ (syncTimer e' t) := by
  have hstep : Csr.step idle nothing ⟨none, some (tl (x.k + 1))⟩ x.csr =
      some { x.csr with file := Csr.inject ⟨none, some (tl (x.k + 1))⟩ x.csr.file } := by
    unfold Csr.step
    simp only [show Csr.exception x.csr nothing = (x.csr.file, x.csr.priv, _) from by
      simp [Csr.exception, Csr.mTrap, Csr.sTrap, nothing]; rfl]
    simp [nothing, idle]
  have hcsr : (tick tl x).csr = { x.csr with file := Csr.inject ⟨none, some (tl (x.k + 1))⟩ x.csr.file } := by
    unfold tick
    dsimp only
    rw [hstep]
    rfl
  have hlt : late e' t.mem = late e' s.mem := by
    unfold late
    rw [h.cmp, h.off]
  refine ⟨h.regs, h.zero, h.pc, h.mem, ⟨?_, ?_⟩, sync_sync, h.last, ?_, ?_⟩
  · show (syncTimer e' t).file = (tick tl x).csr.file
    rw [hcsr]
    unfold RefCpu.syncTimer
    dsimp only
    rw [effMip_eq, hlt, ← hl, h.csr.file]
    unfold Csr.inject Csr.injectLine
    cases tl (x.k + 1) <;> rfl
  · show t.priv = (tick tl x).csr.priv
    rw [hcsr]
    exact h.csr.priv
  · show Csr.Spec.Reach (tick tl x).csr
    have : (tick tl x).csr = (Csr.step idle nothing ⟨none, some (tl (x.k + 1))⟩ x.csr).getD x.csr := rfl
    rw [this, hstep]
    exact .step _ _ _ _ _ h.reach hstep
  · show (tick tl x).csr.we = false
    rw [hcsr]
    exact h.we

/-- A state is the same after sampling the timer. -/
structure Like (t' t : RefCpu.State) : Prop where
  sync : ∀ e', syncTimer e' t' = syncTimer e' t
  inst : t'.inst = t.inst
  irq : t'.irq = t.irq

/-- A value put in the interrupt-pending registers survives a trap. -/
theorem stamp_exception (m n : W) : RefCpu.exception v { s with file := Csr.set (Csr.set s.file .mip m) .sip n } =
    { RefCpu.exception v s with file := Csr.set (Csr.set (RefCpu.exception v s).file .mip m) .sip n } := by
  have hm : RefCpu.mTrap { s with file := Csr.set (Csr.set s.file .mip m) .sip n } = RefCpu.mTrap s := rfl
  have hs : RefCpu.sTrap { s with file := Csr.set (Csr.set s.file .mip m) .sip n } = RefCpu.sTrap s := rfl
  have h1 : RefCpu.mCause { s with file := Csr.set (Csr.set s.file .mip m) .sip n } = RefCpu.mCause s := rfl
  have h2 : RefCpu.sCause { s with file := Csr.set (Csr.set s.file .mip m) .sip n } = RefCpu.sCause s := rfl
  unfold RefCpu.exception
  dsimp only
  rw [hm, hs, h1, h2]
  repeat' split
  all_goals
    first
    | rfl
    | (congr 1; funext r; cases r <;> rfl)

theorem sync_exception : RefCpu.exception v (syncTimer e s) = syncTimer e (RefCpu.exception v s) := by
  have hf : (RefCpu.exception v s).file .mip = s.file .mip := by
    unfold RefCpu.exception
    dsimp only
    repeat' split
    all_goals rfl
  have hm : RefCpu.effMip e (RefCpu.exception v s) ((RefCpu.exception v s).file .mip) = RefCpu.effMip e s (s.file .mip) := by
    rw [hf, effMip_eq, effMip_eq, (Props.exception_frame v s).2.1]
  rw [sync_def, sync_def, hm]
  exact stamp_exception _ _

/-- `exec` after sampling the timer is `exec`. -/
theorem exec_sync (hf : (∃ w, Fetches e (syncTimer e s) w ∧ w ≠ 0x00100073#32) ∨
      RefMmu.fetchTranslation (syncTimer e s).ctx = true ∧ (syncTimer e s).fix e (syncTimer e s).pc 0 = .fault)
    (hx : RefCpu.exec F e (syncTimer e s) = some t) : ∃ t', RefCpu.exec F e s = some t' ∧ Like t' t := by
  rcases hf with ⟨w, hw, hb⟩ | ⟨h1, h2⟩
  · refine ⟨t, ?_, fun _ => rfl, rfl, rfl⟩
    rw [RefCpu.Proofs.fetch_word hw hb] at hx
    rw [RefCpu.Proofs.fetch_word (s := s) (w := w) hw hb, ← hx]
    unfold RefCpu.riscv
    have : syncTimer e { clear (syncTimer e s) with inst := w } = syncTimer e { clear s with inst := w } :=
      sync_twice (e := e) (e' := e) (s := { clear s with inst := w })
    rw [this]
  · rw [RefCpu.Proofs.fetch_fault h1 h2] at hx
    rw [RefCpu.Proofs.fetch_fault (s := s) h1 h2]
    refine ⟨_, rfl, ?_⟩
    obtain rfl := Option.some.inj hx
    have hc : ({ clear (syncTimer e s) with pfInst := true } : RefCpu.State) = syncTimer e { clear s with pfInst := true } := rfl
    rw [hc, sync_exception]
    exact ⟨fun e' => sync_twice.symm, rfl, rfl⟩

/-! ### Which exception -/

theorem fault_inv {x : Ext} {a b : W} {exc : Exc} (h : faultOf w pc x a b = some (exc, v)) :
    (exc = .pfInst ∧ v = pc ∧ tr x .fetch pc = none) ∨ (exc = .illegal ∧ v = w) ∨ (exc = .ecall ∧ v = 0#32) ∨
    (exc = .pfStore ∧ v = addrOf .sta w pc a b ∧ tr x .store v = none) ∨
    (exc = .pfLoad ∧ v = addrOf .ld w pc a b ∧ tr x .load v = none) := by
  unfold faultOf at h
  split at h
  · next h1 =>
    simp only [Option.some.injEq, Prod.mk.injEq] at h
    exact Or.inl ⟨h.1.symm, h.2.symm, h1⟩
  split at h
  · simp only [Option.some.injEq, Prod.mk.injEq] at h
    exact Or.inr (Or.inl ⟨h.1.symm, h.2.symm⟩)
  split at h
  · simp only [Option.some.injEq, Prod.mk.injEq] at h
    exact Or.inr (Or.inr (Or.inl ⟨h.1.symm, h.2.symm⟩))
  split at h
  · next h1 =>
    simp only [Option.some.injEq, Prod.mk.injEq] at h
    exact Or.inr (Or.inr (Or.inr (Or.inl ⟨h.1.symm, h.2.symm, h.2 ▸ h1.2⟩)))
  split at h
  · next h1 =>
    simp only [Option.some.injEq, Prod.mk.injEq] at h
    exact Or.inr (Or.inr (Or.inr (Or.inr ⟨h.1.symm, h.2.symm, h.2 ▸ h1.2⟩)))
  · cases h

theorem word_i (w : W) : encI (w.extractLsb' 20 12) (w.extractLsb' 15 5) (w.extractLsb' 12 3) (w.extractLsb' 7 5)
    (w.extractLsb' 0 7) = w := by
  apply BitVec.eq_of_getLsbD_eq
  intro i hi
  simp only [encI, BitVec.cast_eq, BitVec.getLsbD_append, BitVec.getLsbD_extractLsb']
  grind

theorem word_r (w : W) : encR (w.extractLsb' 25 7) (w.extractLsb' 20 5) (w.extractLsb' 15 5) (w.extractLsb' 12 3)
    (w.extractLsb' 7 5) (w.extractLsb' 0 7) = w := by
  apply BitVec.eq_of_getLsbD_eq
  intro i hi
  simp only [encR, BitVec.cast_eq, BitVec.getLsbD_append, BitVec.getLsbD_extractLsb']
  grind

theorem word_s (w : W) : encS (w.extractLsb' 25 7 ++ w.extractLsb' 7 5) (w.extractLsb' 20 5) (w.extractLsb' 15 5)
    (w.extractLsb' 12 3) (w.extractLsb' 0 7) = w := by
  apply BitVec.eq_of_getLsbD_eq
  intro i hi
  simp only [encS, BitVec.cast_eq, BitVec.getLsbD_append, BitVec.getLsbD_extractLsb']
  grind

theorem load_word (ho : w.extractLsb' 0 7 = 0x03#7) (b : W) : addrOf .ld w pc ((sysSem tl w pc).arg1 σ.regs) b =
    σ.regs (w.extractLsb' 15 5).toNat + (w.extractLsb' 20 12).signExtend 32 := by
  have hw := word_i w
  rw [ho] at hw
  have ht := (dec_load (w.extractLsb' 20 12) (w.extractLsb' 15 5) (w.extractLsb' 7 5) (w.extractLsb' 12 3)).1
  have had := (Props.C06_store_load (w.extractLsb' 20 12) 0 (w.extractLsb' 15 5) (w.extractLsb' 7 5) (w.extractLsb' 12 3)
    pc 0 σ.regs).2.2
  rw [addr_sum] at had
  rw [hw] at ht had
  exact addr_exec ((flags w).2.2.2.1 (Or.inr (Or.inl ht))) had b

theorem store_word (ho : w.extractLsb' 0 7 = 0x23#7) (b : W) : addrOf .sta w pc ((sysSem tl w pc).arg1 σ.regs) b =
    σ.regs (w.extractLsb' 15 5).toNat + (w.extractLsb' 25 7 ++ w.extractLsb' 7 5).signExtend 32 := by
  have hw := word_s w
  rw [ho] at hw
  have ht := (dec_store (w.extractLsb' 25 7 ++ w.extractLsb' 7 5) (w.extractLsb' 20 5) (w.extractLsb' 15 5) (w.extractLsb' 12 3)).1
  have had := (Props.C06_store_load (w.extractLsb' 25 7 ++ w.extractLsb' 7 5) (w.extractLsb' 20 5) (w.extractLsb' 15 5) 0
    (w.extractLsb' 12 3) pc 0 σ.regs).2.1
  rw [addr_sum] at had
  rw [hw] at ht had
  exact addr_exec ((flags w).2.1 (Or.inr (Or.inr (Or.inr ht)))).1 had b

theorem amo_word (ho : w.extractLsb' 0 7 = 0x2f#7) (b : W) :
    (w.extractLsb' 27 5 = 2#5 → addrOf .ld w pc ((sysSem tl w pc).arg1 σ.regs) b = σ.regs (w.extractLsb' 15 5).toNat) ∧
    (w.extractLsb' 27 5 = 3#5 → addrOf .sta w pc ((sysSem tl w pc).arg1 σ.regs) b = σ.regs (w.extractLsb' 15 5).toNat) := by
  have hw := word_r w
  rw [ho] at hw
  obtain ⟨u, hu, ht, h7, himm, hat, hs1, hs2⟩ := Props.dec_amo (w.extractLsb' 25 7) (w.extractLsb' 20 5) (w.extractLsb' 15 5)
    (w.extractLsb' 7 5) (w.extractLsb' 12 3)
  rw [hw] at hu
  have hop : ∀ f : BitVec 5, w.extractLsb' 27 5 = f → u.amoOp = f.setWidth 7 := by
    intro f hf
    rw [DecInst.amoOp, h7, ← hf]
    apply BitVec.eq_of_getLsbD_eq
    intro i hi
    simp only [BitVec.getLsbD_ushiftRight, BitVec.getLsbD_extractLsb', BitVec.getLsbD_setWidth]
    grind
  have h1 : (decode w).src1En = true := (flags w).2.2.2.1 (by rw [hu]; simp [ht])
  refine ⟨fun hf => ?_, fun hf => ?_⟩
  · refine addr_exec h1 ?_ b
    rw [execAddr, hu]
    unfold decompose
    rw [ht]
    simp [hop _ hf, Fu.agu, MicroOp.toInst, himm, hs1]
  · refine addr_exec h1 ?_ b
    rw [execAddr, hu]
    unfold decompose
    rw [ht]
    simp [hop _ hf, Fu.agu, MicroOp.toInst, himm, hs1]

/-! ### Fetching -/

variable {text : W → W}

theorem fetches_of (h : On e σ s) (hl : Level σ.ext.csr) (hf : Flag e .fetch false) (hp : Present text σ) :
    Fetches e s (text σ.pc) := by
  obtain ⟨p, hp, hw⟩ := hp
  have hwd : RefMem.loadWord s.mem p = text σ.pc := by rw [loadWord_word, h.mem, hw]
  cases he : RefMmu.fetchTranslation s.ctx with
  | true =>
    refine Or.inr ⟨he, p, ?_, hwd⟩
    rw [h.pc]
    exact fix_ok hf (walk_ok (acc := .fetch) h.mem h.csr hl he hp)
  | false =>
    rw [tr_off (acc := .fetch) h.mem h.csr he] at hp
    exact Or.inl ⟨he, (congrArg _ (h.pc.trans (Option.some.inj hp))).trans hwd⟩

theorem no_super {rd : W → W} {satp v : W} {acc : Access} {m : Spec.Sv32.Mode} {b : Bool} (h : acc ≠ .fetch) :
    ¬ Props.SuperUserFetch rd satp v acc m b := by
  intro hh
  exact h hh.1

/-- The exception is one the reference raises. -/
theorem raises_of (h : On e σ s) (hl : Level σ.ext.csr) {x : Exc} (hn : x ≠ .pfInst)
    (hf : faultOf (text σ.pc) σ.pc σ.ext ((program tl text σ.pc).arg1 σ.regs) ((program tl text σ.pc).arg2 σ.regs) = some (x, v))
    (ht : Told e (.trap x v)) (hp : Present text σ) (hc : Cause (text σ.pc) x) : Raises e s x v := by
  have hfe : Flag e .fetch false := by
    intro hk
    cases hd : e.dutInst with
    | false => exact hd
    | true =>
      obtain ⟨v', hv⟩ := (ht hk).1.1 hd
      cases hv
      exact absurd rfl hn
  have hw := fetches_of h hl hfe hp
  have hreg : ∀ r : BitVec 5, s.gpr r.toNat = σ.regs r.toNat := fun r => h.regs _ r.isLt
  have hinv := fault_inv hf
  have hld : x = .pfLoad → tr σ.ext .load v = none → DataFault e s v 1 := by
    rintro rfl htr
    obtain ⟨h1, h2⟩ := walk_fault (acc := .load) h.mem h.csr hl (no_super (by decide)) htr
    exact ⟨h1, fix_fault (acc := .load) (fun hk => (ht hk).2.1.2 ⟨v, rfl⟩) h2⟩
  have hst : x = .pfStore → tr σ.ext .store v = none → DataFault e s v 2 := by
    rintro rfl htr
    obtain ⟨h1, h2⟩ := walk_fault (acc := .store) h.mem h.csr hl (no_super (by decide)) htr
    exact ⟨h1, fix_fault (acc := .store) (fun hk => (ht hk).2.2.2 ⟨v, rfl⟩) h2⟩
  cases hc with
  | ecall ho =>
    rw [ho] at hw
    rcases hinv with ⟨hh, -⟩ | ⟨hh, -⟩ | ⟨-, rfl⟩ | ⟨hh, -⟩ | ⟨hh, -⟩ <;> first | cases hh | skip
    exact .ecall hw
  | load ho =>
    rcases hinv with ⟨hh, -⟩ | ⟨hh, -⟩ | ⟨hh, -⟩ | ⟨hh, -⟩ | ⟨-, hv, htr⟩ <;> first | cases hh | skip
    have hv2 : v = loadAddr s (text σ.pc) := by
      rw [hv]
      refine (load_word (tl := tl) ho _).trans ?_
      rw [loadAddr, hreg]
    have := hld rfl htr
    rw [hv2] at this ⊢
    exact .load _ hw ho this
  | lr ho h5 =>
    rcases hinv with ⟨hh, -⟩ | ⟨hh, -⟩ | ⟨hh, -⟩ | ⟨hh, -⟩ | ⟨-, hv, htr⟩ <;> first | cases hh | skip
    have hv2 : v = amoAddr s (text σ.pc) := by
      rw [hv]
      refine ((amo_word (tl := tl) ho _).1 h5).trans ?_
      rw [amoAddr, hreg]
    have := hld rfl htr
    rw [hv2] at this ⊢
    exact .lr _ hw ho h5 this
  | store ho =>
    rcases hinv with ⟨hh, -⟩ | ⟨hh, -⟩ | ⟨hh, -⟩ | ⟨-, hv, htr⟩ | ⟨hh, -⟩ <;> first | cases hh | skip
    have hv2 : v = storeAddr s (text σ.pc) := by
      rw [hv]
      refine (store_word (tl := tl) ho _).trans ?_
      rw [storeAddr, hreg]
    have := hst rfl htr
    rw [hv2] at this ⊢
    exact .store _ hw ho this
  | sc ho h5 =>
    rcases hinv with ⟨hh, -⟩ | ⟨hh, -⟩ | ⟨hh, -⟩ | ⟨-, hv, htr⟩ | ⟨hh, -⟩ <;> first | cases hh | skip
    have hv2 : v = amoAddr s (text σ.pc) := by
      rw [hv]
      refine ((amo_word (tl := tl) ho _).2 h5).trans ?_
      rw [amoAddr, hreg]
    have := hst rfl htr
    rw [hv2] at this ⊢
    exact .sc _ hw ho h5 this
  | time ho hf3 hr =>
    rcases hinv with ⟨hh, -⟩ | ⟨-, rfl⟩ | ⟨hh, -⟩ | ⟨hh, -⟩ | ⟨hh, -⟩ <;> first | cases hh | skip
    exact .time _ hw ho hf3 hr

/-! ### Steps -/

theorem trap_done (h : On e σ s) (hl : Level σ.ext.csr) (hi : σ.ext.csr.interruptReq = false) {x : Exc} (hx : Raises e s x v)
    (hq : x = .pfInst → Quiet s) (hv : Direct σ.ext.csr.file)
    (hd : x = .illegal → (σ.ext.csr.file .medeleg).getLsbD 2 = false) :
    ∃ t, RefCpu.exec F e s = some t ∧
      Done (trapPc (x.report σ.pc v) σ.ext) σ.regs (reported σ.ext (x.report σ.pc v)) s t ∧ (x ≠ .ecall → Quiet t) := by
  have hp : σ.ext.csr.priv = 0 ∨ σ.ext.csr.priv = 1 ∨ σ.ext.csr.priv = 3 := by
    have := hl.1
    simpa using this
  obtain ⟨t, c, hex, hs, hsame, hpc, hu⟩ := Props.C81_exception_partial (F := F) h.reach h.csr hp h.sync hi hx hq hv hd
  rw [h.pc] at hs hpc
  have hdone := done_trap h hs hsame hu
  refine ⟨t, hex, ?_, fun hne => ?_⟩
  · unfold trapPc
    rw [hpc]
    exact hdone
  · obtain ⟨u, hex', -, -, -, hirq, hec, -⟩ := Props.raises_exec (F := F) hx h.sync h.sip hq (h.noIrq hi)
    have hin : u.inst ≠ 0x00000073#32 := by
      have h1 : (x == Exc.ecall) = false := by
        cases x <;> first | rfl | exact absurd rfl hne
      rw [h1] at hec
      exact of_decide_eq_false hec
    obtain ⟨-, -, q1, q2⟩ := Props.exception_frame (x.value v) u
    rcases hex' with hex' | hex' <;> rw [hex] at hex' <;> obtain rfl := Option.some.inj hex'
    · exact ⟨by rw [q1]; exact hin, by rw [q2]; exact hirq⟩
    · exact ⟨fun hh => hin (q1.symm.trans hh), q2.trans hirq⟩

theorem irq_done (h : On e σ s) (hi : σ.ext.csr.interruptReq = true) (hw : Fetches e s w)
    (he : w ≠ 0x00000073#32) (hb : w ≠ 0x00100073#32) (hm : σ.ext.csr.file .mtvec &&& 3#32 ≠ 2#32)
    (hsv : σ.ext.csr.file .stvec &&& 3#32 ≠ 2#32) :
    ∃ t, RefCpu.exec F e s = some t ∧
      Done (trapPc (interruptAt σ.pc 0#32) σ.ext) σ.regs (reported σ.ext (interruptAt σ.pc 0#32)) s t := by
  obtain ⟨t, c, hex, hs, hsame, hpc, hu⟩ :=
    Props.C81_interrupt_partial (F := F) (v := 0#32) h.reach h.csr h.sync hi hw he hb hm hsv
  rw [h.pc] at hs hpc
  refine ⟨t, hex, ?_⟩
  unfold trapPc
  rw [hpc]
  exact done_trap h hs hsame hu

theorem inst_done (h : On e σ s) (hl : Level σ.ext.csr) (hi : σ.ext.csr.interruptReq = false) (hfl : Flag e .load false)
    (hfs : Flag e .store false) (hw : Fetches e s w)
    (hnf : faultOf w σ.pc σ.ext ((sysSem tl w σ.pc).arg1 σ.regs) ((sysSem tl w σ.pc).arg2 σ.regs) = none)
    (hk : Kind σ.ext σ.regs w) : ∃ t, RefCpu.exec F e s = some t ∧ Inst tl w σ s t := by
  cases hk with
  | int ins ho hr => subst ho; exact inst_int h hi ins hw hr
  | branch op imm rs2 rs1 ho => subst ho; exact inst_branch h hi op imm rs2 rs1 hw
  | load sz sg f3 imm rs1 rd hc ho hal => subst ho; exact inst_load h hi hl hfl sz sg f3 imm rs1 rd hc hw hnf hal
  | store sz imm rs2 rs1 ho hal => subst ho; exact inst_store h hi hl hfs sz imm rs2 rs1 hw hnf hal
  | amo op aqrl rs2 rs1 rd ho hal => subst ho; exact inst_amo h hi hl hfl hfs op aqrl rs2 rs1 rd hw hnf hal
  | lr aqrl rs1 rd ho hal => subst ho; exact inst_lr h hi hl hfl aqrl rs1 rd hw hnf hal
  | csr g ho hf hr hz hm => exact inst_csr h hi g hw ho hf hr hz hm
  | noCsr ho hf hr h1 h2 => exact inst_noCsr h hi hw ho hf hr h1 h2
  | mret ho => subst ho; exact inst_mret h hi hw
  | sret ho => subst ho; exact inst_sret h hi hw
  | fence imm rs1 rd f3 ho => subst ho; exact inst_fence h hi imm rs1 rd f3 hw
  | sfence rs2 rs1 ho => subst ho; exact inst_sfence h hi rs2 rs1 hw

/-- None of them is EBREAK. -/
theorem kind_ebreak {x : Ext} {r : Nat → W} (h : Kind x r 0x00100073#32) : False := by
  cases h with
  | int ins ho =>
    have := opc_int ins
    rw [← ho] at this
    exact this (by decide)
  | branch op imm rs2 rs1 ho =>
    have := congrArg (BitVec.extractLsb' 0 7) ho
    rw [show BitVec.extractLsb' 0 7 (encB imm rs2 rs1 op.funct3 0b1100011#7) = 0b1100011#7 from EncLemmas.encB_opc ..] at this
    exact absurd this (by decide)
  | load sz sg f3 imm rs1 rd hc ho =>
    have := congrArg (BitVec.extractLsb' 0 7) ho
    rw [show BitVec.extractLsb' 0 7 (encI imm rs1 f3 rd 0b0000011#7) = 0b0000011#7 from EncLemmas.encI_opc ..] at this
    exact absurd this (by decide)
  | store sz imm rs2 rs1 ho =>
    have := congrArg (BitVec.extractLsb' 0 7) ho
    rw [show BitVec.extractLsb' 0 7 (encS imm rs2 rs1 sz.code 0b0100011#7) = 0b0100011#7 from EncLemmas.encS_opc ..] at this
    exact absurd this (by decide)
  | amo op aqrl rs2 rs1 rd ho =>
    have := congrArg (BitVec.extractLsb' 0 7) ho
    rw [show BitVec.extractLsb' 0 7 (Props.encAmo op.funct5 aqrl rs2 rs1 rd) = 0b0101111#7 from EncLemmas.encR_opc ..] at this
    exact absurd this (by decide)
  | lr aqrl rs1 rd ho =>
    have := congrArg (BitVec.extractLsb' 0 7) ho
    rw [show BitVec.extractLsb' 0 7 (Props.encAmo 2#5 aqrl 0#5 rs1 rd) = 0b0101111#7 from EncLemmas.encR_opc ..] at this
    exact absurd this (by decide)
  | csr g ho hf => exact absurd hf (by decide)
  | noCsr ho hf => exact absurd hf (by decide)
  | mret ho => exact absurd ho (by decide)
  | sret ho => exact absurd ho (by decide)
  | fence imm rs1 rd f3 ho =>
    have := congrArg (BitVec.extractLsb' 0 7) ho
    rw [show BitVec.extractLsb' 0 7 (encI imm rs1 f3 rd 0b0001111#7) = 0b0001111#7 from EncLemmas.encI_opc ..] at this
    exact absurd this (by decide)
  | sfence rs2 rs1 ho =>
    have := congrArg (BitVec.extractLsb' 25 7) ho
    rw [show BitVec.extractLsb' 25 7 (encR 0b0001001#7 rs2 rs1 0#3 0#5 0b1110011#7) = 0b0001001#7 from EncLemmas.encR_f7 ..] at this
    exact absurd this (by decide)

/-! ### The run -/

/-- The previous event does not disturb the fetch of the next one. -/
def Calm (prev : Option Event) (s : RefCpu.State) : Prop := (∀ v, prev ≠ some (.trap .ecall v)) → prev ≠ some .irq → Quiet s

theorem like_on (h : Like t' t) (ho : On e σ (syncTimer e t)) : On e σ (syncTimer e t') := by
  rw [h.sync]
  exact ho

theorem sync_mem : (syncTimer e s).mem = s.mem := rfl

theorem act_k (w pc : W) (x : Ext) (a b : W) : (act w pc x a b).k = x.k := by
  unfold act
  split <;> try rfl
  all_goals
    split
    · rfl
    · rfl

/-- From a step of the reference after sampling the timer to the step it takes. -/
theorem finish_step {q : W} {r : Nat → W} {x : Ext} (hf : (∃ w, Fetches e (syncTimer e s) w ∧ w ≠ 0x00100073#32) ∨
      RefMmu.fetchTranslation (syncTimer e s).ctx = true ∧ (syncTimer e s).fix e (syncTimer e s).pc 0 = .fault)
    (hx : RefCpu.exec F e (syncTimer e s) = some t) (hd : Done q r x (syncTimer e s) t) (hl : tl (x.k + 1) = late e' s.mem) :
    ∃ t', RefCpu.exec F e s = some t' ∧ On e' ⟨q, r, tick tl x⟩ (syncTimer e' t') ∧ (Quiet t → Quiet t') ∧
      t'.mem.timerCmp = s.mem.timerCmp ∧ t'.mem.timerOff = s.mem.timerOff := by
  obtain ⟨t', hx', hk⟩ := exec_sync hf hx
  have hm : t'.mem = t.mem := by
    have := congrArg RefCpu.State.mem (hk.sync e)
    exact this
  refine ⟨t', hx', like_on hk (on_next hd hl), fun hq => ⟨?_, ?_⟩, by rw [hm]; exact hd.cmp, by rw [hm]; exact hd.off⟩
  · rw [hk.inst]
    exact hq.1
  · rw [hk.irq]
    exact hq.2

theorem told_fetch {i : Event} (ht : Told e i) (h : ∀ v, i ≠ .trap .pfInst v) : Flag e .fetch false := by
  intro hk
  cases hd : e.dutInst with
  | false => exact hd
  | true => obtain ⟨v, hv⟩ := (ht hk).1.1 hd; exact absurd hv (h v)

theorem told_load {i : Event} (ht : Told e i) (h : ∀ v, i ≠ .trap .pfLoad v) : Flag e .load false := by
  intro hk
  cases hd : e.dutLoad with
  | false => exact hd
  | true => obtain ⟨v, hv⟩ := (ht hk).2.1.1 hd; exact absurd hv (h v)

theorem told_store {i : Event} (ht : Told e i) (h : ∀ v, i ≠ .trap .pfStore v) : Flag e .store false := by
  intro hk
  cases hd : e.dutStore with
  | false => exact hd
  | true => obtain ⟨v, hv⟩ := (ht hk).2.2.1 hd; exact absurd hv (h v)

/-- An EBREAK has no exception of those covered. -/
theorem cause_ebreak {x : Exc} (h : Cause 0x00100073#32 x) : False := by
  cases h <;> rename_i h1 <;> revert h1 <;> decide

/-- One event. -/
theorem sys_step {i : Event} {prev : Option Event} (h : On e σ (syncTimer e s)) (hc : Calm prev s) (hf : Fits text prev σ i)
    (hr : Right tl text σ i) (ht : Told e i) (hl : tl (σ.ext.k + 1) = late e' s.mem) :
    ∃ t, RefCpu.exec F e s = some t ∧ On e' (sysStep tl text σ i) (syncTimer e' t) ∧ Calm (some i) t ∧
      t.mem.timerCmp = s.mem.timerCmp ∧ t.mem.timerOff = s.mem.timerOff ∧ (sysStep tl text σ i).ext.k = σ.ext.k + 1 := by
  obtain ⟨hlev, hf⟩ := hf
  cases i with
  | inst =>
    obtain ⟨hp, hk⟩ := hf
    obtain ⟨hi, hnf⟩ := hr
    have hw := fetches_of h hlev (told_fetch ht (fun _ => Event.noConfusion)) hp
    have hb : text σ.pc ≠ 0x00100073#32 := by
      intro hh
      rw [hh] at hk
      exact kind_ebreak hk
    obtain ⟨t, hx, hd, hq⟩ := inst_done (F := F) (tl := tl) h hlev hi (told_load ht (fun _ => Event.noConfusion))
      (told_store ht (fun _ => Event.noConfusion)) hw hnf hk
    obtain ⟨t', hx', hon, hq', hcm, hof⟩ := finish_step (Or.inl ⟨_, hw, hb⟩) hx hd (e' := e') (tl := tl) (by rw [act_k]; exact hl)
    refine ⟨t', hx', hon, fun _ _ => hq' hq, hcm, hof, ?_⟩
    show (act (text σ.pc) σ.pc σ.ext _ _).k + 1 = _
    rw [act_k]
  | trap x v =>
    obtain ⟨hi, hfo⟩ := hr
    have key : ((∃ w, Fetches e (syncTimer e s) w ∧ w ≠ 0x00100073#32) ∨
        RefMmu.fetchTranslation (syncTimer e s).ctx = true ∧ (syncTimer e s).fix e (syncTimer e s).pc 0 = .fault) ∧
        Raises e (syncTimer e s) x v ∧ (x = .pfInst → Quiet (syncTimer e s)) ∧ Direct σ.ext.csr.file ∧
        (x = .illegal → (σ.ext.csr.file .medeleg).getLsbD 2 = false) := by
      by_cases hx : x = .pfInst
      · subst hx
        obtain ⟨hdir, hp1, hp2, hsu⟩ := hf
        have hq := hc hp1 hp2
        rcases fault_inv hfo with ⟨-, rfl, htr⟩ | ⟨hh, -⟩ | ⟨hh, -⟩ | ⟨hh, -⟩ | ⟨hh, -⟩ <;> first | cases hh | skip
        obtain ⟨h1, h2⟩ := walk_fault (acc := .fetch) h.mem h.csr hlev hsu htr
        have h3 := fix_fault (acc := .fetch) (fun hk => (ht hk).1.2 ⟨_, rfl⟩) h2
        have hpc := h.pc
        refine ⟨Or.inr ⟨h1, by rw [hpc]; exact h3⟩, ?_, fun _ => hq, hdir, nofun⟩
        rw [← hpc] at h3 ⊢
        exact .fetch h1 h3
      · have hf' : Present text σ ∧ Cause (text σ.pc) x ∧ RefCpu.Spec.Direct σ.ext.csr.file ∧
            (x = .illegal → (σ.ext.csr.file .medeleg).getLsbD 2 = false) := by
          cases x <;> first | exact hf | exact absurd rfl hx
        obtain ⟨hp, hca, hdir, hil⟩ := hf'
        have hw := fetches_of h hlev (told_fetch ht (fun v' hh => hx (by cases hh; rfl))) hp
        refine ⟨Or.inl ⟨_, hw, fun hh => ?_⟩, raises_of h hlev hx hfo ht hp hca, fun hh => absurd hh hx, hdir, hil⟩
        rw [hh] at hca
        exact cause_ebreak hca
    obtain ⟨hfe, hra, hq, hdir, hil⟩ := key
    obtain ⟨t, hx, hd, hqt⟩ := trap_done (F := F) h hlev hi hra hq hdir hil
    obtain ⟨t', hx', hon, hq', hcm, hof⟩ := finish_step hfe hx hd (e' := e') (tl := tl) hl
    exact ⟨t', hx', hon, fun hn _ => hq' (hqt (fun hh => hn v (by rw [hh]))), hcm, hof, rfl⟩
  | irq =>
    obtain ⟨hp, n1, n2, v1, v2⟩ := hf
    have hw := fetches_of h hlev (told_fetch ht (fun _ => Event.noConfusion)) hp
    obtain ⟨t, hx, hd⟩ := irq_done (F := F) h hr hw n1 n2 v1 v2
    obtain ⟨t', hx', hon, hq', hcm, hof⟩ := finish_step (Or.inl ⟨_, hw, n2⟩) hx hd (e' := e') (tl := tl) hl
    exact ⟨t', hx', hon, fun _ hn => absurd rfl hn, hcm, hof, rfl⟩

/-- The whole execution. -/
theorem sys_run {c o : BitVec 64} {e : Nat → Env} (htl : ∀ k, tl k = decide (c.toNat ≤ ((e k).now + o).toNat)) :
    ∀ (l : List Event) (k : Nat) (σ : Core.Isa Ext) (s : RefCpu.State) (prev : Option Event),
    On (e k) σ (syncTimer (e k) s) → Calm prev s → σ.ext.k = k → s.mem.timerCmp = c → s.mem.timerOff = o →
    Covered tl text prev σ l → AllRight tl text σ l → (∀ j i, l[j]? = some i → Told (e (k + j)) i) →
    ∃ t, refRun F e k l.length s = some t ∧ On (e (k + l.length)) (sysRun tl text σ l) (syncTimer (e (k + l.length)) t) := by
  intro l
  induction l with
  | nil =>
    intro k σ s prev h _ _ _ _ _ _ _
    exact ⟨s, rfl, h⟩
  | cons i l ih =>
    intro k σ s prev h hq hk hc ho hcov hri hto
    obtain ⟨t, hx, hon, hq', hc', ho', hk'⟩ := sys_step (F := F) (tl := tl) (e' := e (k + 1)) h hq hcov.1 hri.1 (hto 0 i rfl) (by
      rw [htl, hk]
      unfold late
      rw [hc, ho])
    obtain ⟨u, hu, hon'⟩ := ih (k + 1) _ t _ hon hq' (hk'.trans (by rw [hk])) (hc'.trans hc) (ho'.trans ho) hcov.2 hri.2
      (fun j i' hj => by
        have := hto (j + 1) i' hj
        rwa [show k + (j + 1) = k + 1 + j by omega] at this)
    have hlen : k + (i :: l).length = k + 1 + l.length := by simp only [List.length_cons]; omega
    rw [hlen]
    refine ⟨u, ?_, hon'⟩
    show (RefCpu.exec F (e k) s).bind (refRun F e (k + 1) l.length) = _
    rw [hx]
    exact hu

end Verif.SysRef

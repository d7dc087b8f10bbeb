import Verif.Proofs.SysStep
/- CSR instructions, returns, fences, load-reserved, exceptions and interrupts: the core and the reference model. -/
namespace Verif.SysRef
open Verif.Core Verif.CoreRef Verif.Decode Verif.Isa Verif.Spec.ByteMem Verif.Csr Verif.Csr.Spec
open Verif.Spec.Sv32 (Access)
open Verif.RefCpu (Env zero0 clear)
open Verif.RefCpu.Spec
open Verif.RefCpu.Proofs (noIrq)

variable {tl : Nat → Bool} {F : Fp.SoftFloat} {e : Env} {σ : Core.Isa Ext} {s : RefCpu.State} {w pc v p : W}

/-! ### Load-reserved -/

theorem dec_lr (aqrl : BitVec 2) (rs1 rd : BitVec 5) :
    (decode (Props.encAmo 2#5 aqrl 0#5 rs1 rd)).type = .amo ∧ (decode (Props.encAmo 2#5 aqrl 0#5 rs1 rd)).amoOp = 2#7 ∧
      (decode (Props.encAmo 2#5 aqrl 0#5 rs1 rd)).func3 = 2#3 ∧ Dest (Props.encAmo 2#5 aqrl 0#5 rs1 rd) rd.toNat ∧
      (∀ pc x, execAddr .ld (Props.encAmo 2#5 aqrl 0#5 rs1 rd) pc x = some (x rs1.toNat)) := by
  obtain ⟨u, hu, ht, h7, himm, hat, hs1, hs2⟩ := Props.dec_amo ((2#5 ++ aqrl : BitVec (5 + 2)).cast rfl) 0#5 rs1 rd 2
  have hw : decode (Props.encAmo 2#5 aqrl 0#5 rs1 rd) = u := hu
  have hop : u.amoOp = 2#7 := by
    rw [DecInst.amoOp, h7]
    exact Props.amoOp_code _ _
  have key : ∃ u', decodeOpcode (Props.encAmo 2#5 aqrl 0#5 rs1 rd) (decodeFields (Props.encAmo 2#5 aqrl 0#5 rs1 rd)) = u' ∧
      u'.destEn = true ∧ u'.destAreg = rd.toNat ∧ u'.func3 = 2#3 := by
    refine ⟨_, rfl, ?_⟩
    unfold decodeOpcode Props.encAmo
    rw [EncLemmas.encR_opc]
    simp only [decodeFields, EncLemmas.encR_rd, EncLemmas.encR_f3]
    exact ⟨trivial, trivial, rfl⟩
  obtain ⟨u', hu', he, hd, h3⟩ := key
  have huu : decodeFinish u' = u := by
    rw [← hw, decode, hu']
  obtain ⟨f1, f2, f3, -⟩ := Exec.finish_fields u'
  obtain ⟨g1, g2⟩ := finish_dest u'
  have hu7 : u'.amoOp = 2#7 := by
    rw [← hop, DecInst.amoOp, DecInst.amoOp, ← huu, f3]
  refine ⟨by rw [hw, ht], by rw [hw, hop], by rw [hw, ← huu, f2, h3], ?_, fun pc x => ?_⟩
  · unfold Dest
    rw [hw, ← huu, g1, g2, hd, he, hu7]
    by_cases h : rd.toNat = 0 <;> simp [h]
  · rw [execAddr, hw]
    unfold decompose
    rw [ht]
    simp [hop, Fu.agu, MicroOp.toInst, himm, hs1]

theorem inst_lr (h : On e σ s) (hi : σ.ext.csr.interruptReq = false) (hl : Level σ.ext.csr) (hfl : Flag e .load false)
    (aqrl : BitVec 2) (rs1 rd : BitVec 5) (hw : Fetches e s (Props.encAmo 2#5 aqrl 0#5 rs1 rd))
    (hnf : faultOf (Props.encAmo 2#5 aqrl 0#5 rs1 rd) σ.pc σ.ext ((sysSem tl (Props.encAmo 2#5 aqrl 0#5 rs1 rd) σ.pc).arg1 σ.regs)
      ((sysSem tl (Props.encAmo 2#5 aqrl 0#5 rs1 rd) σ.pc).arg2 σ.regs) = none)
    (hal : ∀ p, tr σ.ext .load (σ.regs rs1.toNat) = some p → aligned .word p ∧ ¬ Props.Device p) :
    ∃ t, RefCpu.exec F e s = some t ∧ Inst tl (Props.encAmo 2#5 aqrl 0#5 rs1 rd) σ s t := by
  obtain ⟨ht, hop, h3, hd, had⟩ := dec_lr aqrl rs1 rd
  have ho : ((Props.encAmo 2#5 aqrl 0#5 rs1 rd).extractLsb' 0 7 : BitVec 7) = 0b0101111#7 := EncLemmas.encR_opc ..
  have hrd : ((Props.encAmo 2#5 aqrl 0#5 rs1 rd).extractLsb' 7 5 : BitVec 5) = rd := EncLemmas.encR_rd ..
  have hr1 : ((Props.encAmo 2#5 aqrl 0#5 rs1 rd).extractLsb' 15 5 : BitVec 5) = rs1 := EncLemmas.encR_rs1 ..
  have hf5 := encAmo_f5 2#5 aqrl 0#5 rs1 rd
  generalize Props.encAmo 2#5 aqrl 0#5 rs1 rd = w at *
  have hsp := RefCpu.Proofs.not_special (w := w) (Or.inl (by rw [ho]; decide))
  have hx : s.gpr rs1.toNat = σ.regs rs1.toNat := h.regs _ rs1.isLt
  have hadr : ∀ b, addrOf .ld w σ.pc ((sysSem tl w σ.pc).arg1 σ.regs) b = σ.regs rs1.toNat :=
    addr_exec ((flags w).2.2.2.1 (Or.inr (Or.inr ht))) (had σ.pc σ.regs)
  obtain ⟨p, hp⟩ := (no_fault hnf).2.2.2 (Or.inr ⟨ht, by rw [hop]; decide⟩)
  rw [hadr] at hp
  obtain ⟨al, dv⟩ := hal p hp
  have hlast : ¬ Props.Device (at_ s w).memIn.storeAddr := h.last
  obtain ⟨m, hm, hvm⟩ := Props.C34_lr e.now (at_ s w).memIn p (s.gpr (w.extractLsb' 20 5).toNat) al hlast
  have hfr := lr_frame hlast al hm
  rw [view_in, h.mem] at hm hvm
  have hact : act w σ.pc σ.ext ((sysSem tl w σ.pc).arg1 σ.regs) ((sysSem tl w σ.pc).arg2 σ.regs) = σ.ext := by
    unfold act
    rw [ht]
    dsimp only
    rw [if_pos ⟨rfl, hop⟩]
  rw [form h hi hw hsp, ho, if_neg (by decide), if_pos rfl, lr_go (finds_load h hl hfl hp) (by rw [hr1, hx]) hf5, hm]
  refine ⟨_, rfl, done_of h (t := amoDone s w (some (load σ.ext.mem .word false p), m))
    (fun a ha32 ha0 => ?_) (regs_zero h.zero) ?_ ?_ ?_ rfl (out_file hfr.mip hfr.sip) ⟨hfr.cmp, hfr.off, ?_⟩, hsp.2.1, rfl⟩
  · rw [regs_dest hd ha32 ha0]
    show Ref.wr s.gpr (w.extractLsb' 7 5).toNat _ a = _
    rw [hrd]
    unfold Ref.wr
    rw [if_neg ha0]
    split
    · show _ = (match (decode w).type with | .csr => _ | .load | .amo => _ | _ => _)
      rw [ht]
      show _ = loaded w σ.pc σ.ext _ _
      unfold loaded
      rw [hadr, hp, h3]
      show _ = Lane.extractData (word σ.ext.mem p) p 2#3
      rw [Props.C33_core_load σ.ext.mem .word true 2#3 rfl _ al, load_word_signed]
    · exact h.regs a ha32
  · show s.pc + 4#32 = (sysSem tl w σ.pc).next _ _ _
    rw [next_plain (by rw [ht]; decide), next_other (by rw [ht]; decide), h.pc]
  · rw [hact]
    exact hvm
  · rw [hact]
  · show ¬ Props.Device m.storeAddr
    rw [hfr.addr]
    exact hlast

/-! ### Fences -/

/-- A step that only goes to the next word. -/
theorem inst_next (h : On e σ s) {t : RefCpu.State} (hx : RefCpu.exec F e s = some (zero0 t)) (htf : t.file = s.file)
    (htp : t.priv = s.priv) (htm : t.mem = { s.mem with store := false }) (htq : Quiet t) (htg : ∀ a, a ≠ 0 → t.gpr a = s.gpr a)
    (htc : t.pc = s.pc + 4#32)
    (hty : (decode w).type = .nop ∨ (decode w).type = .fence ∨ (decode w).type = .fenceI ∨ (decode w).type = .sfenceVma)
    (hde : (decode w).destEn = false) :
    ∃ t, RefCpu.exec F e s = some t ∧ Inst tl w σ s t := by
  have hact : act w σ.pc σ.ext ((sysSem tl w σ.pc).arg1 σ.regs) ((sysSem tl w σ.pc).arg2 σ.regs) = σ.ext := by
    unfold act
    rcases hty with ht | ht | ht | ht <;> rw [ht]
  refine ⟨_, hx, done_of h (t := t) (fun a ha32 ha0 => ?_) (regs_zero h.zero) ?_ ?_ ?_ htp htf ?_, htq.1, htq.2⟩
  · rw [regs_off hde, htg a ha0]
    exact h.regs a ha32
  · show t.pc = (sysSem tl w σ.pc).next _ _ _
    rw [next_plain (by rcases hty with ht | ht | ht | ht <;> rw [ht] <;> decide),
      next_other (by rcases hty with ht | ht | ht | ht <;> rw [ht] <;> decide), htc, h.pc]
  · rw [hact, htm]
    exact h.mem
  · rw [hact]
  · rw [htm]
    exact ⟨rfl, rfl, h.last⟩

theorem inst_fence (h : On e σ s) (hi : σ.ext.csr.interruptReq = false) (imm : BitVec 12) (rs1 rd : BitVec 5) (f3 : BitVec 3)
    (hw : Fetches e s (encI imm rs1 f3 rd 0b0001111#7)) :
    ∃ t, RefCpu.exec F e s = some t ∧ Inst tl (encI imm rs1 f3 rd 0b0001111#7) σ s t := by
  have key : ∃ u, decodeOpcode (encI imm rs1 f3 rd 0b0001111#7) (decodeFields (encI imm rs1 f3 rd 0b0001111#7)) = u ∧
      (u.type = .fence ∨ u.type = .fenceI) ∧ u.destEn = false := by
    refine ⟨_, rfl, ?_⟩
    unfold decodeOpcode
    rw [EncLemmas.encI_opc]
    refine ⟨?_, rfl⟩
    by_cases hf : (decodeFields (encI imm rs1 f3 rd 0b0001111#7)).func3 = 1#3 <;> simp [hf]
  obtain ⟨u, hu, ht, hd⟩ := key
  have ho : ((encI imm rs1 f3 rd 0b0001111#7).extractLsb' 0 7 : BitVec 7) = 0b0001111#7 := EncLemmas.encI_opc ..
  generalize encI imm rs1 f3 rd 0b0001111#7 = w at *
  have hsp := RefCpu.Proofs.not_special (w := w) (Or.inl (by rw [ho]; decide))
  have hx := form (F := F) h hi hw hsp
  rw [ho, if_neg (by decide), if_neg (by decide), if_neg (by decide), if_neg (by decide), if_neg (by decide)] at hx
  have hr : Ref.refIM w ⟨s.gpr, s.pc⟩ = some ⟨Ref.wr s.gpr 0 0#32, s.pc + 4#32⟩ := by
    unfold Ref.refIM
    rw [ho]
    rfl
  rw [hr] at hx
  refine inst_next h (t := { at_ s w with gpr := Ref.wr s.gpr 0 0#32, pc := s.pc + 4#32 }) hx rfl rfl rfl ⟨hsp.2.1, rfl⟩
    (fun a ha => ?_) rfl ?_ ?_
  · simp [Ref.wr, ha]
  · unfold decode
    rw [hu, (Exec.finish_fields u).1]
    rcases ht with ht | ht <;> rw [ht] <;> simp
  · unfold decode
    rw [hu]
    exact finish_off hd

theorem inst_sfence (h : On e σ s) (hi : σ.ext.csr.interruptReq = false) (rs2 rs1 : BitVec 5)
    (hw : Fetches e s (encR 0b0001001#7 rs2 rs1 0#3 0#5 0b1110011#7)) :
    ∃ t, RefCpu.exec F e s = some t ∧ Inst tl (encR 0b0001001#7 rs2 rs1 0#3 0#5 0b1110011#7) σ s t := by
  have ho : ((encR 0b0001001#7 rs2 rs1 0#3 0#5 0b1110011#7).extractLsb' 0 7 : BitVec 7) = 0b1110011#7 := EncLemmas.encR_opc ..
  have h7 : ((encR 0b0001001#7 rs2 rs1 0#3 0#5 0b1110011#7).extractLsb' 25 7 : BitVec 7) = 0b0001001#7 := EncLemmas.encR_f7 ..
  have h3 : ((encR 0b0001001#7 rs2 rs1 0#3 0#5 0b1110011#7).extractLsb' 12 3 : BitVec 3) = 0#3 := EncLemmas.encR_f3 ..
  have hd : ((encR 0b0001001#7 rs2 rs1 0#3 0#5 0b1110011#7).extractLsb' 7 5 : BitVec 5) = 0#5 := EncLemmas.encR_rd ..
  generalize encR 0b0001001#7 rs2 rs1 0#3 0#5 0b1110011#7 = w at *
  have hsp : w ≠ RefCpu.INST_EBREAK ∧ w ≠ RefCpu.INST_ECALL ∧ w ≠ RefCpu.INST_MRET ∧ w ≠ RefCpu.INST_SRET ∧ w ≠ RefCpu.INST_WFI := by
    refine ⟨?_, ?_, ?_, ?_, ?_⟩ <;> rintro rfl <;> revert h7 <;> decide
  obtain ⟨n1, n2, n3, n4, n5⟩ := hsp
  have key : ∃ u, decodeOpcode w (decodeFields w) = u ∧ u.type = .sfenceVma ∧ u.destEn = false := by
    refine ⟨_, rfl, ?_⟩
    unfold decodeOpcode
    rw [ho]
    have f3 : (decodeFields w).func3 = 0#3 := h3
    have f7 : (decodeFields w).func7 = 9#7 := h7
    have fd : (decodeFields w).destAreg = 0 := by
      show (w.extractLsb' 7 5).toNat = 0
      rw [hd]
      rfl
    show (decodeSystem w (decodeFields w)).type = _ ∧ (decodeSystem w (decodeFields w)).destEn = _
    unfold decodeSystem
    dsimp only
    rw [f3]
    rw [if_neg (by decide), if_neg n2, if_neg n1, if_neg n3, if_neg n5, if_neg n4, if_pos ⟨f7, rfl, fd⟩]
    exact ⟨rfl, rfl⟩
  obtain ⟨u, hu, ht, hde⟩ := key
  have hx := form (F := F) h hi hw ⟨n1, n2, n3, n4, n5⟩
  rw [ho, if_pos rfl] at hx
  have hnum : (w.extractLsb' 20 12).toNat / 32 = 9 := by
    have : (w.extractLsb' 25 7).toNat = (w.extractLsb' 20 12).toNat / 32 := by
      simp only [BitVec.extractLsb'_toNat, Nat.shiftRight_eq_div_pow]
      omega
    rw [← this, h7]
    rfl
  have hr : RefCpu.csrInst e (at_ s w) = { at_ s w with pc := s.pc + 4#32 } := by
    unfold RefCpu.csrInst
    dsimp only
    rw [show (at_ s w).inst = w from rfl, if_neg (by omega)]
    have : cvt (w.extractLsb' 20 12).toNat = none := by
      cases hc : cvt (w.extractLsb' 20 12).toNat with
      | none => rfl
      | some r =>
        have := (Props.C49_addressing _ _).1 hc
        rw [this] at hnum
        revert hnum
        cases r <;> decide
    rw [this]
    rfl
  rw [hr] at hx
  refine inst_next h (t := { at_ s w with pc := s.pc + 4#32 }) hx rfl rfl rfl ⟨n2, rfl⟩ (fun a ha => rfl) rfl ?_ ?_
  · unfold decode
    rw [hu, (Exec.finish_fields u).1, ht]
    simp
  · unfold decode
    rw [hu]
    exact finish_off hde

/-! ### CSR instructions -/

theorem f3_ne {w : W} (h : w.extractLsb' 12 2 ≠ 0#2) : w.extractLsb' 12 3 ≠ 0#3 := by
  intro hh
  have := Props.f3_low h
  rw [hh] at this
  exact this rfl

theorem f3_bits {w : W} (h : w.extractLsb' 12 2 ≠ 0#2) :
    (w.extractLsb' 12 3).getLsbD 0 = true ∨ (w.extractLsb' 12 3).getLsbD 1 = true := by
  have hf3 := Props.f3_low h
  generalize w.extractLsb' 12 3 = f at hf3
  revert hf3; revert f; decide

theorem csr_frame (t : RefCpu.State) : (RefCpu.csrInst e t).inst = t.inst ∧ (RefCpu.csrInst e t).irq = t.irq := by
  unfold RefCpu.csrInst
  dsimp only
  split
  · exact (Props.exception_frame _ _).2.2
  · split <;> exact ⟨rfl, rfl⟩

theorem csr_quiet (h : On e σ s) (hi : σ.ext.csr.interruptReq = false) (hw : Fetches e s w)
    (hop : w.extractLsb' 0 7 = 0x73#7) (hf : w.extractLsb' 12 2 ≠ 0#2) {t : RefCpu.State} (hx : RefCpu.exec F e s = some t) : Quiet t := by
  rw [Props.csr_exec hw h.sync h.sip (h.noIrq hi) hop (f3_ne hf)] at hx
  obtain rfl := Option.some.inj hx
  obtain ⟨h1, h2⟩ := csr_frame (e := e) { clear s with inst := w, irq := noIrq }
  exact ⟨fun hh => (RefCpu.Proofs.not_special (w := w) (Or.inr (f3_ne hf))).2.1 (h1.symm.trans hh), h2⟩

theorem csr_src1 {w : W} (hop : w.extractLsb' 0 7 = 0x73#7)
    (hf : (w.extractLsb' 12 3).getLsbD 0 = true ∨ (w.extractLsb' 12 3).getLsbD 1 = true)
    (hk : w.extractLsb' 20 12 ∈ knownCsr) : (decode w).src1En = true ∧ (decode w).src1Areg = (w.extractLsb' 15 5).toNat := by
  have hd : decodeOpcode w (decodeFields w) = decodeSystem w (decodeFields w) := by
    unfold decodeOpcode
    rw [hop]
    rfl
  unfold decode
  rw [hd, Props.system_csr (u := decodeFields w) hf hk, Props.finish_csr rfl]
  exact ⟨rfl, rfl⟩

theorem step_we {c c' : Csr.State} {r : Rob} (hc : c.we = false) (h : Csr.step idle r noLines c = some c') : c'.we = false := by
  unfold Csr.step at h
  simp only [hc, Bool.and_false, Bool.false_eq_true, if_false, idle, Option.some.injEq] at h
  rw [← h]

theorem commit_we {c c' : Csr.State} (h : Csr.step idle committed noLines c = some c') : c'.we = false := by
  cases hw : c.we with
  | false => exact step_we hw h
  | true =>
    unfold Csr.step at h
    simp only [hw, committed, Bool.and_true, if_true] at h
    cases hcv : cvt c.idx with
    | none => rw [hcv] at h; simp at h
    | some r =>
      rw [hcv] at h
      simp only [Option.map_some, Option.some.injEq] at h
      rw [← h]

theorem inst_csr (h : On e σ s) (hi : σ.ext.csr.interruptReq = false) (g : Reg) (hw : Fetches e s w)
    (hop : w.extractLsb' 0 7 = 0x73#7) (hf : w.extractLsb' 12 2 ≠ 0#2) (hr : w.extractLsb' 20 12 = BitVec.ofNat 12 (number g))
    (hz : w.extractLsb' 12 3 = 5#3 → w.extractLsb' 15 5 ≠ 0#5)
    (hm : g = .mip ∨ g = .sip → w.extractLsb' 12 3 ≠ 1#3 ∧ w.extractLsb' 15 5 = 0#5) :
    ∃ t, RefCpu.exec F e s = some t ∧ Inst tl w σ s t := by
  have h0 : s.gpr 0 = 0#32 := (h.regs 0 (by decide)).trans h.zero
  obtain ⟨t, c1, c2, v, hx, hty, hrd, hs1, hs2, hsame, hgpr, hpc, hmem⟩ :=
    Props.C82_csr_partial (F := F) h.reach h.csr h.we hi h.sync h0 hw hop hf hr hz hm
  obtain ⟨g1, g2⟩ := csr_src1 hop (f3_bits hf) (by rw [hr]; exact Props.known_number g)
  have ha1 : (sysSem tl w σ.pc).arg1 σ.regs = s.gpr (decode w).src1Areg := by
    refine (arg1_on (pc := σ.pc) g1).trans (h.regs _ ?_).symm
    rw [g2]
    exact (w.extractLsb' 15 5).isLt
  have hci : csrInst w ((sysSem tl w σ.pc).arg1 σ.regs) σ.ext.csr = c2 := by
    unfold csrInst
    dsimp only
    rw [ha1, hs1]
    show ((Csr.step idle committed noLines c1)).getD _ = c2
    rw [hs2]
    rfl
  have hact : act w σ.pc σ.ext ((sysSem tl w σ.pc).arg1 σ.regs) ((sysSem tl w σ.pc).arg2 σ.regs) = { σ.ext with csr := c2 } := by
    unfold act
    rw [hty]
    dsimp only
    rw [hci]
  refine ⟨t, hx, ⟨fun a ha => ?_, regs_zero h.zero, ?_, ?_, ?_, by rw [hmem], by rw [hmem], ?_, ?_, ?_⟩, csr_quiet h hi hw hop hf hx⟩
  · rw [hgpr a]
    show _ = (if (decode w).destEn = true then Ring.upd σ.regs (decode w).destAreg _ else σ.regs) a
    by_cases hde : (decode w).destEn = true
    · rw [if_pos hde]
      by_cases had : a = (decode w).destAreg
      · rw [if_pos ⟨hde, had⟩]
        show v = if a = (decode w).destAreg then _ else _
        rw [if_pos had]
        show v = (match (decode w).type with | .csr => _ | .load | .amo => _ | _ => _)
        rw [hty]
        show v = (Csr.read σ.ext.csr (decode w).csrIdx.toNat).getD 0#32
        rw [hrd]
        rfl
      · rw [if_neg (fun hh => had hh.2)]
        show s.gpr a = if a = (decode w).destAreg then _ else _
        rw [if_neg had]
        exact h.regs a ha
    · rw [if_neg hde, if_neg (fun hh => hde hh.1)]
      exact h.regs a ha
  · show t.pc = (sysSem tl w σ.pc).next _ _ _
    rw [next_plain (by rw [hty]; decide), next_other (by rw [hty]; decide), hpc, h.pc]
  · rw [hact, hmem]
    exact h.mem
  · rw [hact]
    exact hsame
  · rw [hmem]
    exact h.last
  · rw [hact]
    exact .step _ _ _ _ _ (.step _ _ _ _ _ h.reach hs1) hs2
  · rw [hact]
    exact commit_we hs2

theorem inst_noCsr (h : On e σ s) (hi : σ.ext.csr.interruptReq = false) (hw : Fetches e s w)
    (hop : w.extractLsb' 0 7 = 0x73#7) (hf : w.extractLsb' 12 2 ≠ 0#2) (hr : ∀ g, (w.extractLsb' 20 12).toNat ≠ number g)
    (ht1 : w.extractLsb' 20 12 ≠ 0xc01#12) (ht2 : w.extractLsb' 20 12 ≠ 0xc81#12) :
    ∃ t, RefCpu.exec F e s = some t ∧ Inst tl w σ s t := by
  have h0 : s.gpr 0 = 0#32 := (h.regs 0 (by decide)).trans h.zero
  obtain ⟨d1, d2, d3, t, hx, hsame, hgpr, hpc, hmem⟩ :=
    Props.C82_unknown (F := F) h.reach h.csr hi h.sync h0 hw hop hf hr ht1 ht2
  have hz : zero0 t = t := by
    have : Ref.wr t.gpr 0 0#32 = t.gpr := by
      funext n
      by_cases hn : n = 0
      · subst hn
        rw [hgpr, h0]
        rfl
      · simp [Ref.wr, hn]
    show { t with gpr := Ref.wr t.gpr 0 0#32 } = t
    rw [this]
  refine inst_next h (t := t) (by rw [hz]; exact hx) (hsame.file.trans h.csr.file.symm) (hsame.priv.trans h.csr.priv.symm) hmem
    (csr_quiet h hi hw hop hf hx) (fun a _ => by rw [hgpr]) hpc (Or.inl d1) d3

/-! ### Returns -/

theorem ret_exec (h : On e σ s) (hi : σ.ext.csr.interruptReq = false) (hw : Fetches e s w)
    (hr : w = RefCpu.INST_MRET ∨ w = RefCpu.INST_SRET) :
    RefCpu.exec F e s = some (zero0 (RefCpu.exception 0#32 (at_ s w))) := by
  have n1 : w ≠ RefCpu.INST_EBREAK := by rcases hr with rfl | rfl <;> decide
  have n5 : w ≠ RefCpu.INST_WFI := by rcases hr with rfl | rfl <;> decide
  rw [RefCpu.Proofs.fetch_word hw n1, RefCpu.Proofs.riscv_sync (s := { clear s with inst := w }) h.sync h.sip rfl rfl n5]
  have he : RefCpu.evalIrq { clear s with inst := w } = noIrq := h.noIrq hi
  rw [he, if_pos]
  · rfl
  · left
    rcases hr with rfl | rfl <;> simp [RefCpu.asy]

/-- What a trap or a return does to the reference. -/
theorem done_trap (h : On e σ s) {t : RefCpu.State} {c : Csr.State} {r : Rob} (hs : Csr.step idle r noLines σ.ext.csr = some c)
    (hsame : Same c t) (hu : Untouched s t) : Done t.pc σ.regs (reported σ.ext r) s t := by
  have hre : reported σ.ext r = { σ.ext with csr := c } := by
    unfold reported
    rw [hs]
    rfl
  rw [hre]
  refine ⟨fun a ha => ?_, h.zero, rfl, ?_, hsame, by rw [hu.mem], by rw [hu.mem], ?_, ?_, ?_⟩
  · rcases hu.gpr a with hg | ⟨h0, hg⟩
    · rw [hg]
      exact h.regs a ha
    · rw [hg, h0]
      exact h.zero.symm
  · rw [hu.mem]
    exact h.mem
  · rw [hu.mem]
    exact h.last
  · exact .step _ _ _ _ _ h.reach hs
  · exact step_we h.we hs

theorem next_ret (hb : (decompose (decode w)).any (fun m => m.iq == .br) = false) :
    (Core.exec (sysSem tl w pc) σ).pc = resumePc w pc σ.ext := by
  show (if (decompose (decode w)).any (fun m => m.iq == .br) = true then nextOf _ _ _ _ else _) = _
  rw [hb]
  rfl

theorem inst_mret (h : On e σ s) (hi : σ.ext.csr.interruptReq = false) (hw : Fetches e s 0x30200073#32) :
    ∃ t, RefCpu.exec F e s = some t ∧ Inst tl 0x30200073#32 σ s t := by
  have hty : (decode 0x30200073#32).type = .mret := by decide
  have hde : (decode 0x30200073#32).destEn = false := by decide
  obtain ⟨t, c, hx, hs, hsame, hepc, hu⟩ := (Props.C81_return (F := F) h.reach h.csr h.sync hi).1 hw
  rw [h.pc] at hs hepc
  have hd := done_trap h hs hsame hu
  have hact : act 0x30200073#32 σ.pc σ.ext ((sysSem tl 0x30200073#32 σ.pc).arg1 σ.regs) ((sysSem tl 0x30200073#32 σ.pc).arg2 σ.regs) =
      reported σ.ext (mretAt σ.pc) := by
    unfold act
    rw [hty]
  have hnext : (Core.exec (sysSem tl 0x30200073#32 σ.pc) σ).pc = t.pc := by
    rw [next_ret (by decide)]
    unfold resumePc
    rw [hty]
    dsimp only
    rw [hepc]
    rfl
  refine ⟨t, hx, ?_, ?_⟩
  · rw [hnext, hact, regs_off hde]
    exact hd
  · rw [ret_exec h hi hw (Or.inl rfl)] at hx
    obtain rfl := Option.some.inj hx
    obtain ⟨-, -, q1, q2⟩ := Props.exception_frame 0#32 (at_ s 0x30200073#32)
    exact ⟨fun hh => absurd (q1.symm.trans hh) (show (0x30200073#32 : W) ≠ 0x00000073#32 by decide), q2⟩

theorem inst_sret (h : On e σ s) (hi : σ.ext.csr.interruptReq = false) (hw : Fetches e s 0x10200073#32) :
    ∃ t, RefCpu.exec F e s = some t ∧ Inst tl 0x10200073#32 σ s t := by
  have hty : (decode 0x10200073#32).type = .sret := by decide
  have hde : (decode 0x10200073#32).destEn = false := by decide
  obtain ⟨t, c, hx, hs, hsame, hepc, hu⟩ := (Props.C81_return (F := F) h.reach h.csr h.sync hi).2 hw
  rw [h.pc] at hs hepc
  have hd := done_trap h hs hsame hu
  have hact : act 0x10200073#32 σ.pc σ.ext ((sysSem tl 0x10200073#32 σ.pc).arg1 σ.regs) ((sysSem tl 0x10200073#32 σ.pc).arg2 σ.regs) =
      reported σ.ext (sretAt σ.pc) := by
    unfold act
    rw [hty]
  have hnext : (Core.exec (sysSem tl 0x10200073#32 σ.pc) σ).pc = t.pc := by
    rw [next_ret (by decide)]
    unfold resumePc
    rw [hty]
    dsimp only
    rw [hepc]
    rfl
  refine ⟨t, hx, ?_, ?_⟩
  · rw [hnext, hact, regs_off hde]
    exact hd
  · rw [ret_exec h hi hw (Or.inr rfl)] at hx
    obtain rfl := Option.some.inj hx
    obtain ⟨-, -, q1, q2⟩ := Props.exception_frame 0#32 (at_ s 0x10200073#32)
    exact ⟨fun hh => absurd (q1.symm.trans hh) (show (0x10200073#32 : W) ≠ 0x00000073#32 by decide), q2⟩

end Verif.SysRef

import Verif.Props.RefTrap
/-
C82: the core and the reference model execute the CSR instructions alike.
-/
namespace Verif.Props
open Verif.Csr Verif.Csr.Spec
open Verif.RefCpu (Env exec exception zero0 clear)
open Verif.RefCpu.Spec
open Verif.RefCpu.Proofs

/-- How the reference executes a CSR instruction when no interrupt is recognised. -/
theorem csr_exec {F : Fp.SoftFloat} {e : Env} {s : RefCpu.State} {w : BitVec 32} (hw : Fetches e s w)
    (ht : TimerSync e s) (hv : s.file .sip = s.file .mip &&& sieMask) (hi : RefCpu.evalIrq s = noIrq)
    (hop : w.extractLsb' 0 7 = 0x73#7) (hf : w.extractLsb' 12 3 ≠ 0#3) :
    exec F e s = some (zero0 (RefCpu.csrInst e { clear s with inst := w, irq := noIrq })) := by
  obtain ⟨n1, n2, n3, n4, n5⟩ := not_special (w := w) (Or.inr hf)
  rw [fetch_word hw n1, riscv_sync (s := { clear s with inst := w }) ht hv rfl rfl n5]
  have he : RefCpu.evalIrq { clear s with inst := w } = noIrq := hi
  rw [he]
  rw [if_neg (show ¬ (RefCpu.asy { clear s with inst := w, irq := noIrq } = true ∨ w = RefCpu.INST_ECALL) by
    rintro (h | h)
    · rw [asy_quiet rfl rfl rfl n2 n3 n4] at h
      exact absurd h (by decide)
    · exact n2 h)]
  dsimp only
  rw [if_pos hop]
  rfl

theorem system_csr {w : BitVec 32} {u : Decode.DecInst} (hf : u.func3.getLsbD 0 = true ∨ u.func3.getLsbD 1 = true)
    (hk : u.csrIdx ∈ Decode.knownCsr) :
    Decode.decodeSystem w u = { u with
      src2IsImm := u.func3.getLsbD 2
      type := .csr
      destEn := true
      src1En := true
      src2En := !u.func3.getLsbD 2
      imm := (w.extractLsb' 15 5).setWidth 32 } := by
  have h : (u.func3.getLsbD 0 || u.func3.getLsbD 1) = true := by rcases hf with h | h <;> simp only [h, Bool.true_or, Bool.or_true]
  unfold Decode.decodeSystem
  simp only [h, Bool.and_true, if_true]
  rw [if_neg (fun h => h hk)]

theorem system_unknown {w : BitVec 32} {u : Decode.DecInst} (hf : u.func3.getLsbD 0 = true ∨ u.func3.getLsbD 1 = true)
    (hk : u.csrIdx ∉ Decode.knownCsr) (h1 : u.csrIdx ≠ 0xc01#12) (h2 : u.csrIdx ≠ 0xc81#12) :
    Decode.decodeSystem w u = { u with
      src2IsImm := u.func3.getLsbD 2
      type := .nop
      destEn := false
      src1En := false
      src2En := false
      illegal := false } := by
  have h : (u.func3.getLsbD 0 || u.func3.getLsbD 1) = true := by rcases hf with h | h <;> simp only [h, Bool.true_or, Bool.or_true]
  unfold Decode.decodeSystem
  simp only [h, Bool.and_true, if_true]
  rw [if_pos hk]
  simp only [h1, h2, decide_false, Bool.or_self]

theorem finish_nop {u : Decode.DecInst} (h : u.type = .nop) (h2 : u.destEn = false) :
    (Decode.decodeFinish u).type = .nop ∧ (Decode.decodeFinish u).illegal = u.illegal ∧
      (Decode.decodeFinish u).destEn = false := by
  have d1 : ¬ Decode.InstType.nop = .jalr := by decide
  have d2 : ¬ Decode.InstType.nop = .amo := by decide
  unfold Decode.decodeFinish
  simp only [h, d1, d2, decide_false, Bool.false_and, false_and, if_false]
  split
  · exact ⟨rfl, rfl, rfl⟩
  · exact ⟨rfl, rfl, h2⟩

theorem finish_csr {u : Decode.DecInst} (h : u.type = .csr) :
    Decode.decodeFinish u = { u with isRet := false, destEn := if u.destAreg = 0 then false else u.destEn } := by
  have d1 : ¬ Decode.InstType.csr = .jalr := by decide
  have d2 : ¬ Decode.InstType.csr = .amo := by decide
  unfold Decode.decodeFinish
  simp only [h, d1, d2, decide_false, Bool.false_and, false_and, if_false]
  split <;> rfl

/-- The decoder on a CSR instruction. -/
theorem csr_decode {w : BitVec 32} (hop : w.extractLsb' 0 7 = 0x73#7)
    (hf : (w.extractLsb' 12 3).getLsbD 0 = true ∨ (w.extractLsb' 12 3).getLsbD 1 = true)
    (hk : w.extractLsb' 20 12 ∈ Decode.knownCsr) :
    let u := Decode.decode w
    u.type = .csr ∧ u.func3 = w.extractLsb' 12 3 ∧ u.imm = (w.extractLsb' 15 5).setWidth 32 ∧
      u.destAreg = (w.extractLsb' 7 5).toNat ∧ u.csrIdx = w.extractLsb' 20 12 ∧
      u.src2IsImm = (w.extractLsb' 12 3).getLsbD 2 ∧ u.src1Areg = (w.extractLsb' 15 5).toNat ∧ u.destEn = if u.destAreg = 0 then false else true := by
  have hd : Decode.decodeOpcode w (Decode.decodeFields w) = Decode.decodeSystem w (Decode.decodeFields w) := by
    unfold Decode.decodeOpcode
    rw [hop]
    rfl
  dsimp only
  unfold Decode.decode
  rw [hd, system_csr (u := Decode.decodeFields w) hf hk, finish_csr rfl]
  exact ⟨rfl, rfl, rfl, rfl, rfl, rfl, rfl, rfl⟩

theorem known_number (r : Reg) : BitVec.ofNat 12 (number r) ∈ Decode.knownCsr := by
  cases r <;> decide

theorem cvt_number (r : Reg) : cvt (number r) = some r := (C49_addressing _ _).2 rfl

theorem number_lt (r : Reg) : number r < 4096 := by cases r <;> decide

theorem number_ne_time (r : Reg) : number r ≠ 0xc01 ∧ number r ≠ 0xc81 := by cases r <;> decide

/-- The two models write registers alike, `mip` and `sip` apart. -/
theorem store_agree (f : File) {r : Reg} (h1 : r ≠ .mip) (h2 : r ≠ .sip) (w : BitVec 32) :
    RefCpu.csrStore f r w = applyWrite f f r w := by
  cases r <;> first | rfl | exact absurd rfl h1 | exact absurd rfl h2

theorem combine_agree (f3 : BitVec 3) (h : f3.extractLsb' 0 2 ≠ 0#2) (w old : BitVec 32) :
    RefCpu.csrCombine (f3 &&& 3#3) w old = combine (f3.toNat % 4) w old := by
  have hf : f3 = 1#3 ∨ f3 = 2#3 ∨ f3 = 3#3 ∨ f3 = 5#3 ∨ f3 = 6#3 ∨ f3 = 7#3 := by
    revert h; revert f3; decide
  have c1 : old ||| w = w ||| old := BitVec.or_comm _ _
  have c2 : old &&& ~~~w = ~~~w &&& old := BitVec.and_comm _ _
  rcases hf with h | h | h | h | h | h <;> subst h <;> simp [RefCpu.csrCombine, combine, c1, c2]

theorem f3_low {w : BitVec 32} (h : w.extractLsb' 12 2 ≠ 0#2) : (w.extractLsb' 12 3).extractLsb' 0 2 ≠ 0#2 := by
  have e : (w.extractLsb' 12 3).extractLsb' 0 2 = w.extractLsb' 12 2 := by
    ext i hi
    simp only [BitVec.getElem_extractLsb', BitVec.getLsbD_extractLsb', Nat.zero_add]
    simp [show i < 3 by omega]
  rw [e]; exact h

theorem value_agree {e : Env} {s t : RefCpu.State} (ht : TimerSync e s) (hv : s.file .sip = s.file .mip &&& sieMask)
    (hf : t.file = s.file) (hm : t.mem = { s.mem with store := false }) (r : Reg) : RefCpu.csrValue e t r = s.file r := by
  have hsync : RefCpu.effMip e t (t.file .mip) = s.file .mip := by
    rw [hf]
    have := effMip_sync (s := s) ht
    have e2 : RefCpu.effMip e t (s.file .mip) = RefCpu.effMip e s (s.file .mip) := by
      unfold RefCpu.effMip; rw [hm]; rfl
    rw [e2]; exact this
  cases r <;> first | exact hsync | (show RefCpu.effMip e t (t.file .mip) &&& 0x333#32 = _; rw [hsync, hv]) | exact congrFun hf _

/-- C82: a CSR instruction leaves core and reference with the same CSRs and privilege, the register named by `rd` receives
the old value of the CSR and no other register changes, and the reference continues at the next word. -/
theorem C82_csr_partial {F : Fp.SoftFloat} {e : Env} {c : Csr.State} {s : RefCpu.State} {w : BitVec 32} {r : Reg}
    (hc : Csr.Spec.Reach c) (hs : Same c s) (hl : c.we = false) (hn : c.interruptReq = false) (ht : TimerSync e s)
    (h0 : s.gpr 0 = 0#32) (hw : Fetches e s w) (hop : w.extractLsb' 0 7 = 0x73#7) (hf : w.extractLsb' 12 2 ≠ 0#2)
    (hr : w.extractLsb' 20 12 = BitVec.ofNat 12 (number r))
    (hz : w.extractLsb' 12 3 = 5#3 → w.extractLsb' 15 5 ≠ 0#5)
    (hm : r = .mip ∨ r = .sip → w.extractLsb' 12 3 ≠ 1#3 ∧ w.extractLsb' 15 5 = 0#5) :
    let u := Decode.decode w
    ∃ s' c1 c2 v, exec F e s = some s' ∧ u.type = .csr ∧
      Csr.read c u.csrIdx.toNat = some v ∧
      Csr.step (request u.func3.toNat u.imm u.destAreg u.csrIdx.toNat u.src2IsImm (s.gpr u.src1Areg)) nothing noLines c =
        some c1 ∧
      Csr.step idle committed noLines c1 = some c2 ∧ Same c2 s' ∧
      (∀ n, s'.gpr n = if u.destEn = true ∧ n = u.destAreg then v else s.gpr n) ∧
      s'.pc = s.pc + 4#32 ∧ s'.mem = { s.mem with store := false } := by
  have hf3 := f3_low hf
  have hb : (w.extractLsb' 12 3).getLsbD 0 = true ∨ (w.extractLsb' 12 3).getLsbD 1 = true := by
    generalize w.extractLsb' 12 3 = f at hf3
    revert hf3; revert f; decide
  have hne : w.extractLsb' 12 3 ≠ 0#3 := by
    intro h; rw [h] at hf3; exact hf3 rfl
  have hk : w.extractLsb' 20 12 ∈ Decode.knownCsr := by rw [hr]; exact known_number r
  obtain ⟨d1, d2, d3, d4, d5, d6, d7, d8⟩ := csr_decode hop hb hk
  have hnum : (w.extractLsb' 20 12).toNat = number r := by
    rw [hr, BitVec.toNat_ofNat]; exact Nat.mod_eq_of_lt (number_lt r)
  have hcons : s.file .sip = s.file .mip &&& sieMask := by
    rw [hs.file]; exact ((Csr.Proofs.inv_iff _).2 (C27_views_consistent hc)).ip
  have hi : RefCpu.evalIrq s = noIrq := by rw [evalIrq_eq hs]; exact irq_none hn
  have hx := csr_exec (F := F) hw ht hcons hi hop hne
  dsimp only
  rw [d1, d2, d3, d4, d5, d6, d7, d8, d4, hnum]
  have hval := value_agree (t := { clear s with inst := w, irq := noIrq }) ht hcons rfl rfl r
  have hci : RefCpu.csrInst e { clear s with inst := w, irq := noIrq } =
      { clear s with
        inst := w
        irq := noIrq
        gpr := if w.extractLsb' 12 3 ≠ 1#3 ∨ (w.extractLsb' 7 5).toNat ≠ 0 then
          Ref.wr s.gpr (w.extractLsb' 7 5).toNat (s.file r) else s.gpr
        file := if w.extractLsb' 12 3 = 1#3 ∨ w.extractLsb' 15 5 ≠ 0#5 then
          RefCpu.csrStore s.file r (RefCpu.csrCombine (w.extractLsb' 12 3 &&& 3#3)
            (if w.extractLsb' 12 3 &&& 4#3 ≠ 0#3 then (w.extractLsb' 15 5).setWidth 32 else
              s.gpr (w.extractLsb' 15 5).toNat) (s.file r)) else s.file
        pc := s.pc + 4#32 } := by
    unfold RefCpu.csrInst
    dsimp only
    rw [if_neg (by rw [hnum]; exact fun h => h.elim (number_ne_time r).1 (number_ne_time r).2), hnum, cvt_number]
    dsimp only
    rw [hval]
    rfl
  rw [hci] at hx
  have hgpr : ∀ n, Ref.wr (if w.extractLsb' 12 3 ≠ 1#3 ∨ (w.extractLsb' 7 5).toNat ≠ 0 then
          Ref.wr s.gpr (w.extractLsb' 7 5).toNat (c.file r) else s.gpr) 0 0#32 n =
      if (if (w.extractLsb' 7 5).toNat = 0 then false else true) = true ∧ n = (w.extractLsb' 7 5).toNat then c.file r
        else s.gpr n := by
    intro n
    generalize (w.extractLsb' 7 5).toNat = d
    by_cases hn0 : n = 0
    · subst hn0
      by_cases hd : d = 0
      · simp [Ref.wr, hd, h0]
      · simp [Ref.wr, h0, Ne.symm hd]
    · by_cases hd : d = 0
      · subst hd
        by_cases h1 : w.extractLsb' 12 3 = 1#3 <;> simp [Ref.wr, hn0, h1]
      · simp [Ref.wr, hn0, hd]
  have hread : Csr.read c (number r) = some (c.file r) := by unfold Csr.read; rw [cvt_number]; rfl
  have hnx : Csr.exception c nothing = (c.file, c.priv, ⟨none, none⟩) := by
    simp [Csr.exception, mTrap, sTrap, nothing]
  have hzz : ((w.extractLsb' 15 5).setWidth 32 != 0#32) = true ↔ w.extractLsb' 15 5 ≠ 0#5 := by
    generalize w.extractLsb' 15 5 = z
    revert z; decide +kernel
  have hq : request (w.extractLsb' 12 3).toNat ((w.extractLsb' 15 5).setWidth 32) (w.extractLsb' 7 5).toNat (number r)
      ((w.extractLsb' 12 3).getLsbD 2) (s.gpr (w.extractLsb' 15 5).toNat) =
      ⟨decide (w.extractLsb' 12 3 = 1#3 ∨ w.extractLsb' 15 5 ≠ 0#5),
        (request (w.extractLsb' 12 3).toNat ((w.extractLsb' 15 5).setWidth 32) (w.extractLsb' 7 5).toNat (number r)
      ((w.extractLsb' 12 3).getLsbD 2) (s.gpr (w.extractLsb' 15 5).toNat)).re, number r, (w.extractLsb' 12 3).toNat % 4,
        if w.extractLsb' 12 3 &&& 4#3 ≠ 0#3 then (w.extractLsb' 15 5).setWidth 32 else s.gpr (w.extractLsb' 15 5).toNat⟩ := by
    have e1 : (request (w.extractLsb' 12 3).toNat ((w.extractLsb' 15 5).setWidth 32) (w.extractLsb' 7 5).toNat (number r)
      ((w.extractLsb' 12 3).getLsbD 2) (s.gpr (w.extractLsb' 15 5).toNat)).we =
        decide (w.extractLsb' 12 3 = 1#3 ∨ w.extractLsb' 15 5 ≠ 0#5) := by
      rw [Bool.eq_iff_iff]
      simp only [request, Bool.or_eq_true, hzz, decide_eq_true_iff]
      constructor
      · rintro ((h | h) | h)
        · exact Or.inl (BitVec.eq_of_toNat_eq h)
        · exact Or.inr (hz (BitVec.eq_of_toNat_eq h))
        · exact Or.inr h
      · rintro (h | h)
        · exact Or.inl (Or.inl (by rw [h]; rfl))
        · exact Or.inr h
    have e2 : ((w.extractLsb' 12 3).getLsbD 2 = true) = (w.extractLsb' 12 3 &&& 4#3 ≠ 0#3) := by
      generalize w.extractLsb' 12 3 = f
      apply propext
      revert f; decide
    rw [← e1]
    simp only [request, e2]
  rw [hq]
  generalize (request (w.extractLsb' 12 3).toNat ((w.extractLsb' 15 5).setWidth 32) (w.extractLsb' 7 5).toNat (number r)
      ((w.extractLsb' 12 3).getLsbD 2) (s.gpr (w.extractLsb' 15 5).toNat)).re = re
  by_cases hwr : w.extractLsb' 12 3 = 1#3 ∨ w.extractLsb' 15 5 ≠ 0#5
  · have hne1 : r ≠ .mip := fun h => hwr.elim (fun h1 => (hm (Or.inl h)).1 h1) (fun h1 => h1 (hm (Or.inl h)).2)
    have hne2 : r ≠ .sip := fun h => hwr.elim (fun h1 => (hm (Or.inr h)).1 h1) (fun h1 => h1 (hm (Or.inr h)).2)
    rw [if_pos hwr, combine_agree _ hf3, store_agree _ hne1 hne2, hs.file] at hx
    refine ⟨_, _, _, _, hx, rfl, hread, ?_, step_commit (s := ⟨c.file, c.priv, true, number r, (w.extractLsb' 12 3).toNat % 4,
      if w.extractLsb' 12 3 &&& 4#3 ≠ 0#3 then (w.extractLsb' 15 5).setWidth 32 else s.gpr (w.extractLsb' 15 5).toNat⟩)
      rfl (cvt_number r), ⟨rfl, hs.priv⟩, hgpr, rfl, rfl⟩
    unfold Csr.step
    rw [hnx]
    simp only [hl, hwr, decide_true, if_true, Bool.and_false, Bool.false_eq_true, if_false]
    rfl
  · rw [if_neg hwr, hs.file] at hx
    refine ⟨_, c, c, _, hx, rfl, hread, ?_, ?_, ⟨rfl, hs.priv⟩, hgpr, rfl, rfl⟩
    · unfold Csr.step
      rw [hnx]
      simp only [hl, hwr, decide_false, Bool.and_false, Bool.false_eq_true, if_false]
      cases c; cases hl; rfl
    · have hnx : Csr.exception c committed = (c.file, c.priv, ⟨none, none⟩) := by
        simp [Csr.exception, mTrap, sTrap, committed]
      unfold Csr.step
      rw [hnx]
      simp only [hl, idle, Bool.and_false, Bool.false_eq_true, if_false]
      cases c; cases hl; rfl

/-- C82: a CSR instruction naming a register that does not exist does nothing but go to the next word; the decoder makes it
a no-operation. -/
theorem C82_unknown {F : Fp.SoftFloat} {e : Env} {c : Csr.State} {s : RefCpu.State} {w : BitVec 32}
    (hc : Csr.Spec.Reach c) (hs : Same c s) (hn : c.interruptReq = false) (ht : TimerSync e s)
    (h0 : s.gpr 0 = 0#32) (hw : Fetches e s w) (hop : w.extractLsb' 0 7 = 0x73#7) (hf : w.extractLsb' 12 2 ≠ 0#2)
    (hr : ∀ r, (w.extractLsb' 20 12).toNat ≠ number r)
    (ht1 : w.extractLsb' 20 12 ≠ 0xc01#12) (ht2 : w.extractLsb' 20 12 ≠ 0xc81#12) :
    (Decode.decode w).type = .nop ∧ (Decode.decode w).illegal = false ∧ (Decode.decode w).destEn = false ∧
    ∃ s', exec F e s = some s' ∧ Same c s' ∧ s'.gpr = s.gpr ∧ s'.pc = s.pc + 4#32 ∧
      s'.mem = { s.mem with store := false } := by
  have hf3 := f3_low hf
  have hb : (w.extractLsb' 12 3).getLsbD 0 = true ∨ (w.extractLsb' 12 3).getLsbD 1 = true := by
    generalize w.extractLsb' 12 3 = f at hf3
    revert hf3; revert f; decide
  have hne : w.extractLsb' 12 3 ≠ 0#3 := by
    intro h; rw [h] at hf3; exact hf3 rfl
  have hcons : s.file .sip = s.file .mip &&& sieMask := by
    rw [hs.file]; exact ((Csr.Proofs.inv_iff _).2 (C27_views_consistent hc)).ip
  have hi : RefCpu.evalIrq s = noIrq := by rw [evalIrq_eq hs]; exact irq_none hn
  have hk : w.extractLsb' 20 12 ∉ Decode.knownCsr := by
    intro h
    have : ∀ x ∈ Decode.knownCsr, (cvt x.toNat).isSome = true := by decide
    obtain ⟨r, h2⟩ := Option.isSome_iff_exists.1 (this _ h)
    exact hr r ((C49_addressing _ _).1 h2)
  have hcv : cvt (w.extractLsb' 20 12).toNat = none := by
    cases h : cvt (w.extractLsb' 20 12).toNat with
    | none => rfl
    | some r => exact absurd ((C49_addressing _ _).1 h) (hr r)
  have hx := csr_exec (F := F) hw ht hcons hi hop hne
  have hd : Decode.decode w = Decode.decodeFinish (Decode.decodeSystem w (Decode.decodeFields w)) := by
    unfold Decode.decode Decode.decodeOpcode
    rw [hop]
    rfl
  obtain ⟨d1, d2, d3⟩ : (Decode.decode w).type = .nop ∧ (Decode.decode w).illegal = false ∧ (Decode.decode w).destEn = false := by
    rw [hd, system_unknown (u := Decode.decodeFields w) hb hk ht1 ht2]
    exact finish_nop rfl rfl
  refine ⟨d1, d2, d3, _, hx, ?_⟩
  have hci : RefCpu.csrInst e { clear s with inst := w, irq := noIrq } =
      { clear s with inst := w, irq := noIrq, pc := s.pc + 4#32 } := by
    unfold RefCpu.csrInst
    dsimp only
    rw [if_neg (by
      rintro (h | h)
      · exact ht1 (BitVec.eq_of_toNat_eq h)
      · exact ht2 (BitVec.eq_of_toNat_eq h)), hcv]
    rfl
  rw [hci]
  refine ⟨⟨hs.file, hs.priv⟩, ?_, rfl, rfl⟩
  funext n
  show Ref.wr s.gpr 0 0#32 n = s.gpr n
  by_cases h : n = 0
  · subst h; simp [Ref.wr, h0]
  · simp [Ref.wr, h]

/-- C81: an atomic (other than LR and SC) to a page that can neither be read nor written always ends a run with differential
testing.  The reference aborts unless the core reports both faults, and if it does, the reference reports one only – which
`C83_check` says is reported as a disagreement.  (The core's ROB drops the load fault when
the store-address part of the atomic reports its fault last, Rob.cpp:602-612.) -/
theorem C81_amo_double_fault {F : Fp.SoftFloat} {e : Env} {c : Csr.State} {s : RefCpu.State} {w : BitVec 32}
    (hc : Csr.Spec.Reach c) (hs : Same c s) (hn : c.interruptReq = false) (ht : TimerSync e s) (hk : e.check = true)
    (hw : Fetches e s w) (hop : w.extractLsb' 0 7 = 0x2f#7) (h1 : w.extractLsb' 27 5 ≠ 2#5) (h2 : w.extractLsb' 27 5 ≠ 3#5)
    (hd : RefMmu.dataTranslation s.ctx = true)
    (hl : RefMmu.va2pa (RefMem.loadWord s.mem) s.ctx (amoAddr s w) 1 = none)
    (hst : RefMmu.va2pa (RefMem.loadWord s.mem) s.ctx (amoAddr s w) 2 = none) :
    exec F e s = none ∨ ∃ s', exec F e s = some s' ∧ e.dutLoad = true ∧ s'.pfLoad = false := by
  have hne : w.extractLsb' 0 7 ≠ 0x73#7 := by rw [hop]; decide
  have hcons : s.file .sip = s.file .mip &&& sieMask := by
    rw [hs.file]; exact ((Csr.Proofs.inv_iff _).2 (C27_views_consistent hc)).ip
  have hi : RefCpu.evalIrq s = noIrq := by rw [evalIrq_eq hs]; exact irq_none hn
  obtain ⟨n1, n2, n3, n4, n5⟩ := not_special (w := w) (Or.inl hne)
  have hx : exec F e s = Option.map zero0 (RefCpu.amoInst e { clear s with inst := w, irq := noIrq }) := by
    rw [fetch_word hw n1, riscv_sync (s := { clear s with inst := w }) ht hcons rfl rfl n5]
    have he : RefCpu.evalIrq { clear s with inst := w } = noIrq := hi
    rw [he]
    rw [if_neg (show ¬ (RefCpu.asy { clear s with inst := w, irq := noIrq } = true ∨ w = RefCpu.INST_ECALL) by
      rintro (h | h)
      · rw [asy_quiet rfl rfl rfl n2 n3 n4] at h
        exact absurd h (by decide)
      · exact n2 h)]
    dsimp only
    rw [if_neg hne, if_pos hop]
  have f1 : RefCpu.State.fix e { clear s with inst := w, irq := noIrq } (amoAddr s w) 1 =
      if e.dutLoad then .fault else .abort := by
    show RefMmu.va2paFix (RefMem.loadWord s.mem) s.ctx (amoAddr s w) 1 e.check (e.fault 1) = _
    unfold RefMmu.va2paFix
    rw [hl, hk]
    show (if _ then _ else if (e.dutLoad && _) = true then _ else if (!e.dutLoad && _) = true then _ else _) = _
    cases e.dutLoad <;> rfl
  have f2 : RefCpu.State.fix e { clear s with inst := w, irq := noIrq } (amoAddr s w) 2 =
      if e.dutStore then .fault else .abort := by
    show RefMmu.va2paFix (RefMem.loadWord s.mem) s.ctx (amoAddr s w) 2 e.check (e.fault 2) = _
    unfold RefMmu.va2paFix
    rw [hst, hk]
    show (if _ then _ else if (e.dutStore && _) = true then _ else if (!e.dutStore && _) = true then _ else _) = _
    cases e.dutStore <;> rfl
  have ha : RefCpu.amoInst e { clear s with inst := w, irq := noIrq } =
      match (if e.dutLoad then RefMmu.Fix.fault else .abort), (if e.dutStore then RefMmu.Fix.fault else .abort) with
      | .abort, _ => none
      | _, .abort => none
      | _, _ => some (exception (amoAddr s w) { clear s with inst := w, irq := noIrq, pfStore := true }) := by
    have hd' : RefMmu.dataTranslation (RefCpu.State.ctx { clear s with inst := w, irq := noIrq }) = true := hd
    unfold RefCpu.amoInst
    dsimp only
    rw [if_pos hd', if_neg h1, if_neg h2]
    have e1 : (clear s).gpr (w.extractLsb' 15 5).toNat = amoAddr s w := rfl
    rw [e1, f1, f2]
    cases e.dutLoad <;> cases e.dutStore <;> rfl
  rw [hx, ha]
  cases h3 : e.dutLoad <;> cases h4 : e.dutStore
  · exact Or.inl rfl
  · exact Or.inl rfl
  · exact Or.inl rfl
  · refine Or.inr ⟨_, rfl, rfl, ?_⟩
    show (exception (amoAddr s w) { clear s with inst := w, irq := noIrq, pfStore := true }).pfLoad = false
    unfold RefCpu.exception
    dsimp only
    repeat' split
    all_goals rfl

/-! ### Concrete runs -/
namespace RefRun
open CsrRun

/-- `amoadd.w a0, a1, (sp)` with x2 = 0x40000000 unmapped; the core reports the store fault. -/
example : exec noFloat ⟨5#64, true, false, false, false, true⟩ (at_ user 100#64 0x00b1252f#32) = none := by
  have h := C81_amo_double_fault (F := noFloat) (e := ⟨5#64, true, false, false, false, true⟩) (c := user)
    (s := at_ user 100#64 0x00b1252f#32) (w := 0x00b1252f#32) (reach_linux _ _ _) ⟨rfl, rfl⟩
    (by decide +kernel) (by unfold TimerSync; decide +kernel) rfl
    (Or.inr ⟨by decide +kernel, 0x80000100#32, by decide +kernel, by decide +kernel⟩) (by decide) (by decide) (by decide)
    (by decide +kernel) (by decide +kernel) (by decide +kernel)
  rcases h with h | ⟨s', _, h, _⟩
  · exact h
  · cases h

/-- `csrrw a0, sscratch, sp`: x10 receives the old value, the register the value of x2. -/
example : ∃ s' c2, exec noFloat env (at_ user 100#64 0x14011573#32) = some s' ∧ Csr.Spec.Reach c2 ∧ Same c2 s' ∧
    s'.file .sscratch = 0x40000000#32 := by
  obtain ⟨s', c1, c2, v, h1, _, _, h2, h3, h4, _⟩ := C82_csr_partial (F := noFloat) (e := env) (c := user)
    (s := at_ user 100#64 0x14011573#32) (w := 0x14011573#32) (r := .sscratch) (reach_linux _ _ _) ⟨rfl, rfl⟩
    (by decide +kernel) (by decide +kernel) (by unfold TimerSync; decide +kernel) rfl
    (fetches (by decide +kernel) (by decide +kernel) (by decide +kernel)) (by decide) (by decide) (by decide)
    (by decide) (by decide)
  refine ⟨s', c2, h1, .step _ _ _ _ _ (.step _ _ _ _ _ (reach_linux _ _ _) h2) h3, h4, ?_⟩
  have : (exec noFloat env (at_ user 100#64 0x14011573#32)).map (·.file .sscratch) = some 0x40000000#32 := by decide +kernel
  rw [h1] at this
  exact Option.some.inj this

/-- `csrr a0, cycle`. -/
example : ∃ s', exec noFloat env (at_ user 100#64 0xc0002573#32) = some s' ∧ Same user s' ∧
    s'.gpr = (at_ user 100#64 0xc0002573#32).gpr := by
  obtain ⟨_, _, _, s', h1, h2, h3, _⟩ := C82_unknown (F := noFloat) (e := env) (c := user)
    (s := at_ user 100#64 0xc0002573#32) (w := 0xc0002573#32) (reach_linux _ _ _) ⟨rfl, rfl⟩
    (by decide +kernel) (by unfold TimerSync; decide +kernel) rfl
    (fetches (by decide +kernel) (by decide +kernel) (by decide +kernel)) (by decide) (by decide)
    (fun r => by cases r <;> decide) (by decide) (by decide)
  exact ⟨s', h1, h2, h3⟩

/-- The core executes and commits the CSR instruction `w` of the user program. -/
def coreCsr (w : BitVec 32) (c : Csr.State) (src : BitVec 32) : Option Csr.State :=
  let u := Decode.decode w
  (Csr.step (request u.func3.toNat u.imm u.destAreg u.csrIdx.toNat u.src2IsImm src) nothing noLines c).bind
    (Csr.step idle committed noLines)

/-- The user program after `csrw sscratch, sp`. -/
def scratched : Csr.State := run (csrw nMie 0xaaa#32 ++ csrw nMedeleg 0xb100#32 ++ csrw nMideleg 0x222#32 ++
  csrw 0x140 0x40000000#32 ++ csrw 0x180 0x80080001#32 ++ csrw nMstatus 0x80#32 ++ [(idle, mretAt 0#32, noLines)])

/-- C82 fails for `csrrwi x0, sscratch, 0`: the core clears the register, the reference leaves it alone. -/
theorem C82_csrrwi_zero : ∃ (c : Csr.State) (s : RefCpu.State), Csr.Spec.Reach c ∧ Same c s ∧ c.we = false ∧
    c.interruptReq = false ∧ TimerSync env s ∧ Fetches env s 0x14005073#32 ∧
    (coreCsr 0x14005073#32 c 0#32).map (·.file .sscratch) = some 0#32 ∧
    (exec noFloat env s).map (·.file .sscratch) = some 0x40000000#32 :=
  ⟨scratched, at_ scratched 100#64 0x14005073#32, reach_run _, ⟨rfl, rfl⟩, by decide +kernel, by decide +kernel,
    (by unfold TimerSync; decide +kernel), fetches (by decide +kernel) (by decide +kernel) (by decide +kernel),
    by decide +kernel, by decide +kernel⟩

/-- C82 fails for writes of the interrupt-pending registers: after `csrrw x0, mip, sp` with x2 = 0x40000000 the core shows 0,
the reference 0x40000000; after `csrrwi x0, sip, 2` the core has the interrupt pending in `mip`, the reference does not. -/
theorem C82_pending_write : ∃ (c : Csr.State) (s t : RefCpu.State), Csr.Spec.Reach c ∧ Same c s ∧ Same c t ∧ c.we = false ∧
    c.interruptReq = false ∧ TimerSync env s ∧ TimerSync env t ∧ Fetches env s 0x34411073#32 ∧ Fetches env t 0x14415073#32 ∧
    (coreCsr 0x34411073#32 c (s.gpr 2)).map (·.file .mip) = some 0#32 ∧
    (exec noFloat env s).map (·.file .mip) = some 0x40000000#32 ∧
    (coreCsr 0x14415073#32 c 0#32).map (·.file .mip) = some 2#32 ∧
    (exec noFloat env t).map (·.file .mip) = some 0#32 :=
  ⟨user, at_ user 100#64 0x34411073#32, at_ user 100#64 0x14415073#32, reach_linux _ _ _, ⟨rfl, rfl⟩, ⟨rfl, rfl⟩,
    by decide +kernel, by decide +kernel,
    (by unfold TimerSync; decide +kernel), (by unfold TimerSync; decide +kernel),
    fetches (by decide +kernel) (by decide +kernel) (by decide +kernel),
    fetches (by decide +kernel) (by decide +kernel) (by decide +kernel),
    by decide +kernel, by decide +kernel, by decide +kernel, by decide +kernel⟩

end RefRun
end Verif.Props

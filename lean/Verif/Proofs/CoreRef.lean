import Verif.Spec.CoreRef
import Verif.Proofs.RefExec
import Verif.Props.RefAlu
/- A step of the core's instruction-set machine is a step of the reference model. -/
namespace Verif.CoreRef
open Verif.Core Verif.Decode Verif.Isa Verif.Spec.ByteMem

/-! ### The sources that are not read do not matter -/

theorem flags (w : W) :
    ((decode w).type = .add → ((decode w).src1En = true ∨ (decode w).src1IsPc = true) ∧
      ((decode w).src2En = true ∨ (decode w).src2IsImm = true)) ∧
    ((decode w).type = .mul ∨ (decode w).type = .div ∨ (decode w).type = .br ∨ (decode w).type = .store →
      (decode w).src1En = true ∧ (decode w).src2En = true) ∧
    ((decode w).type = .jal ∨ (decode w).type = .jalr → (decode w).src1IsPc = true ∧ (decode w).src2IsImm = true) ∧
    ((decode w).type = .jalr ∨ (decode w).type = .load ∨ (decode w).type = .amo → (decode w).src1En = true) ∧
    ((decode w).type = .amo → (decode w).amoOp ≠ 2#7 → (decode w).src2En = true) := by
  obtain ⟨h1, h2, h3, h4, h5, h6, h7, h8, h9, h10, h11, -⟩ := Exec.finish_fields (decodeOpcode w (decodeFields w))
  simp only [decode, DecInst.amoOp, h1, h3, h4, h5, h9, h10]
  clear h1 h2 h3 h4 h5 h6 h7 h8 h9 h10 h11
  unfold decodeOpcode
  split
  case h_11 =>
    unfold decodeSystem
    dsimp only
    repeat' split
    all_goals simp
  all_goals
    have hs : (decodeFields w).src2IsImm = true := rfl
    by_cases h1 : (decodeFields w).func3 = 1#3 <;> by_cases h7 : (decodeFields w).func7 = 1#7 <;>
      cases h2 : (decodeFields w).func3.getLsbD 2 <;> simp [h1, h7, h2, hs, DecInst.amoOp]

variable {w pc : W} {x y : Nat → W}

theorem arg1_on (h : (decode w).src1En = true) : (coreSem w pc).arg1 x = x (decode w).src1Areg := by
  simp [Sem.arg1, coreSem, h]

theorem arg2_on (h : (decode w).src2En = true) : (coreSem w pc).arg2 x = x (decode w).src2Areg := by
  simp [Sem.arg2, coreSem, h]

theorem value_exec (ht : (decode w).type = .add ∨ (decode w).type = .mul ∨ (decode w).type = .div ∨
      (decode w).type = .jal ∨ (decode w).type = .jalr) :
    valueOf w pc ((coreSem w pc).arg1 x) ((coreSem w pc).arg2 x) = execInt w pc x := by
  obtain ⟨f1, f2, f3, f4, f5⟩ := flags w
  unfold valueOf execInt decompose
  rcases ht with ht | ht | ht | ht | ht <;> rw [ht]
  · obtain ⟨g1, g2⟩ := f1 ht
    have e1 : (decode w).src1IsPc = false → (coreSem w pc).arg1 x = x (decode w).src1Areg := fun h =>
      arg1_on (g1.resolve_right (by rw [h]; decide))
    have e2 : (decode w).src2IsImm = false → (coreSem w pc).arg2 x = x (decode w).src2Areg := fun h =>
      arg2_on (g2.resolve_right (by rw [h]; decide))
    simp only [intResult, MicroOp.toInst, Fu.alu, Fu.operand1, Fu.operand2]
    have k1 : (if (decode w).src1IsPc = true then pc else (coreSem w pc).arg1 x) =
        if (decode w).src1IsPc = true then pc else x (decode w).src1Areg := by
      split
      · rfl
      · next h => exact e1 (by simpa using h)
    have k2 : (if (decode w).src2IsImm = true then (decode w).imm else if Fu.Uop.add = .jump then 4#32 else (coreSem w pc).arg2 x) =
        if (decode w).src2IsImm = true then (decode w).imm else if Fu.Uop.add = .jump then 4#32 else x (decode w).src2Areg := by
      split
      · rfl
      · next h => rw [e2 (by simpa using h)]
    have key := fun a b (h : a = b) c d (h' : c = d) => show Fu.aluAdd (decode w).func3 (decode w).func7 (decode w).src2IsImm
      (decode w).imm a c 0#32 = Fu.aluAdd (decode w).func3 (decode w).func7 (decode w).src2IsImm (decode w).imm b d 0#32 by
        rw [h, h']
    exact key _ _ k1 _ _ k2
  · obtain ⟨g1, g2⟩ := f2 (Or.inl ht)
    simp only [arg1_on g1, arg2_on g2]
  · obtain ⟨g1, g2⟩ := f2 (Or.inr (Or.inl ht))
    simp only [arg1_on g1, arg2_on g2]
  · obtain ⟨g1, g2⟩ := f3 (Or.inl ht)
    simp [intResult, MicroOp.toInst, Fu.alu, Fu.operand1, Fu.operand2, g1, g2]
  · obtain ⟨g1, g2⟩ := f3 (Or.inr ht)
    simp [intResult, MicroOp.toInst, Fu.alu, Fu.operand1, Fu.operand2, g1, g2]

theorem next_exec {pt : Bool} {pn : W} {o : Fu.BruOut} (ht : (decode w).type = .br ∨ (decode w).type = .jal ∨ (decode w).type = .jalr)
    (h : execBr w pc x pt pn = some o) :
    nextOf w pc ((coreSem w pc).arg1 x) ((coreSem w pc).arg2 x) = o.nextPc := by
  obtain ⟨f1, f2, f3, f4, f5⟩ := flags w
  unfold execBr decompose at h
  unfold nextOf decompose
  rcases ht with ht | ht | ht <;> rw [ht] at h ⊢
  · obtain ⟨g1, g2⟩ := f2 (Or.inr (Or.inr (Or.inl ht)))
    simp at h ⊢
    rw [← h, arg1_on g1, arg2_on g2]
    rfl
  · simp at h ⊢
    rw [← h]
    cases g1 : (decode w).src1En
    · simp [Fu.bru, Fu.bruTaken, Fu.bruTarget, MicroOp.toInst]
    · simp [Fu.bru, Fu.bruTaken, Fu.bruTarget, MicroOp.toInst, arg1_on g1]
  · simp at h ⊢
    have g1 := f4 (Or.inl ht)
    rw [← h]
    simp [Fu.bru, Fu.bruTaken, Fu.bruTarget, MicroOp.toInst, arg1_on g1]

theorem next_other (ht : (decode w).type ≠ .br ∧ (decode w).type ≠ .jal ∧ (decode w).type ≠ .jalr) (a b : W) :
    nextOf w pc a b = pc + 4#32 := by
  unfold nextOf decompose
  cases h : (decode w).type <;> simp_all
  all_goals (by_cases h2 : (decode w).amoOp = 2#7 <;> by_cases h3 : (decode w).amoOp = 3#7 <;> simp [h2, h3])

theorem addr_exec {q : Iq} {p : W} (g1 : (decode w).src1En = true) (h : execAddr q w pc x = some p) (b : W) :
    addrOf q w pc ((coreSem w pc).arg1 x) b = p := by
  rw [arg1_on g1]
  have key : ∀ m ∈ decompose (decode w), m.inst.src1Areg = (decode w).src1Areg := by
    intro m hm
    unfold decompose at hm
    cases h : (decode w).type <;> simp only [h] at hm
    case amo => split at hm <;> (try split at hm) <;> simp at hm <;> rcases hm with rfl | rfl | rfl <;> rfl
    all_goals simp at hm
    all_goals first | (rcases hm with rfl | rfl <;> rfl) | (subst hm; rfl)
  unfold execAddr at h
  unfold addrOf
  cases hf : (decompose (decode w)).find? (fun m => m.iq == q) with
  | none => rw [hf] at h; simp at h
  | some m =>
    rw [hf] at h
    simp only [Option.map_some, Option.some.injEq] at h
    rw [← h, key m (List.mem_of_find?_eq_some hf)]
    rfl

theorem data_exec {v old : W} (ht : (decode w).type = .store ∨ ((decode w).type = .amo ∧ (decode w).amoOp ≠ 2#7))
    (h : execStoreData w pc x old = some v) :
    dataOf w pc ((coreSem w pc).arg1 x) ((coreSem w pc).arg2 x) old = v := by
  obtain ⟨f1, f2, f3, f4, f5⟩ := flags w
  have g1 : (decode w).src1En = true := by
    rcases ht with ht | ht
    · exact (f2 (Or.inr (Or.inr (Or.inr ht)))).1
    · exact f4 (Or.inr (Or.inr ht.1))
  have g2 : (decode w).src2En = true := by
    rcases ht with ht | ht
    · exact (f2 (Or.inr (Or.inr (Or.inr ht)))).2
    · exact f5 ht.1 ht.2
  have key : ∀ m ∈ decompose (decode w), m.inst.src1Areg = (decode w).src1Areg ∧ m.inst.src2Areg = (decode w).src2Areg := by
    intro m hm
    unfold decompose at hm
    cases h : (decode w).type <;> simp only [h] at hm
    case amo => split at hm <;> (try split at hm) <;> simp at hm <;> rcases hm with rfl | rfl | rfl <;> exact ⟨rfl, rfl⟩
    all_goals simp at hm
    all_goals first | (rcases hm with rfl | rfl <;> exact ⟨rfl, rfl⟩) | (subst hm; exact ⟨rfl, rfl⟩)
  rw [arg1_on g1, arg2_on g2]
  unfold execStoreData at h
  unfold dataOf
  cases hf : (decompose (decode w)).find? (fun m => m.iq == .std) with
  | none => rw [hf] at h; simp at h
  | some m =>
    rw [hf] at h
    simp only [Option.map_some, Option.some.injEq] at h
    obtain ⟨k1, k2⟩ := key m (List.mem_of_find?_eq_some hf)
    rw [← h, k1, k2]

theorem args_congr (h : ∀ a, a < 32 → x a = y a) :
    (coreSem w pc).arg1 x = (coreSem w pc).arg1 y ∧ (coreSem w pc).arg2 x = (coreSem w pc).arg2 y := by
  obtain ⟨-, -, h1, h2⟩ := Props.C08_src w
  simp only [Sem.arg1, Sem.arg2, coreSem, h _ h1, h _ h2]
  exact ⟨rfl, rfl⟩


/-! ### The reference model on a calm state -/

/-- The state in which the reference executes the word it has fetched. -/
def ready (e : RefCpu.Env) (s : RefCpu.State) (w : W) : RefCpu.State :=
  let t := RefCpu.syncTimer e { RefCpu.clear s with inst := w }
  { t with irq := RefCpu.evalIrq t }

theorem ready_file (e : RefCpu.Env) (s : RefCpu.State) (w : W) (r : Csr.Reg) (h1 : r ≠ .mip) (h2 : r ≠ .sip) :
    (ready e s w).file r = s.file r := by
  simp [ready, RefCpu.syncTimer, RefCpu.clear, Csr.set, h1, h2]

theorem calm_of {s t : RefCpu.State} (h : Calm s) (hp : t.priv = s.priv)
    (hf : ∀ r, r ≠ .mip → r ≠ .sip → t.file r = s.file r) : Calm t := by
  have hc : t.ctx = s.ctx := by
    unfold RefCpu.State.ctx
    rw [hp, hf .mstatus (by decide) (by decide), hf .satp (by decide) (by decide)]
  refine ⟨by rw [hc]; exact h.fetch, by rw [hc]; exact h.data, fun m => ?_⟩
  rw [hp, hf .mstatus (by decide) (by decide), hf .mie (by decide) (by decide), hf .mideleg (by decide) (by decide)]
  exact h.irq m

/-- The part of `RISCV` after the interrupts have been looked at. -/
def body (F : Fp.SoftFloat) (e : RefCpu.Env) (s : RefCpu.State) : Option RefCpu.State :=
  if s.inst = RefCpu.INST_WFI ∧ RefCpu.asy s = false ∧ s.pfInst = false ∧ s.pfLoad = false ∧ s.pfStore = false then
    some { s with pc := s.pc + 4#32, simEnd := s.simEnd || e.refOnly }
  else
    Option.map RefCpu.zero0 <|
    if s.pfInst then some (RefCpu.exception s.pc s)
    else if s.illegal then some (RefCpu.exception s.inst s)
    else if RefCpu.asy s = true ∨ s.inst = RefCpu.INST_ECALL then some (RefCpu.exception 0#32 s)
    else
      let op : BitVec 7 := s.inst.extractLsb' 0 7
      if op = 0x73#7 then some (RefCpu.csrInst e s)
      else if op = 0x2f#7 then RefCpu.amoInst e s
      else if op = 0x53#7 ∨ op = 0x43#7 ∨ op = 0x4b#7 ∨ op = 0x4f#7 ∨ op = 0x47#7 then some (RefCpu.fpInst F s)
      else if op = 0x03#7 then RefCpu.loadInst e s
      else if op = 0x23#7 then RefCpu.storeInst e s
      else (Ref.refIM s.inst ⟨s.gpr, s.pc⟩).map fun t => { s with gpr := t.gpr, pc := t.pc }

theorem calm_exec {F : Fp.SoftFloat} {e : RefCpu.Env} {s : RefCpu.State} (h : Calm s)
    (hw : RefMem.loadWord s.mem s.pc = w) (hop : w.extractLsb' 0 7 ≠ 0x73#7) :
    RefCpu.exec F e s = Option.map RefCpu.zero0
      (if (w.extractLsb' 0 7 : BitVec 7) = 0x2f#7 then RefCpu.amoInst e (ready e s w)
       else if (w.extractLsb' 0 7 : BitVec 7) = 0x53#7 ∨ (w.extractLsb' 0 7 : BitVec 7) = 0x43#7 ∨
          (w.extractLsb' 0 7 : BitVec 7) = 0x4b#7 ∨ (w.extractLsb' 0 7 : BitVec 7) = 0x4f#7 ∨
          (w.extractLsb' 0 7 : BitVec 7) = 0x47#7 then some (RefCpu.fpInst F (ready e s w))
       else if (w.extractLsb' 0 7 : BitVec 7) = 0x03#7 then RefCpu.loadInst e (ready e s w)
       else if (w.extractLsb' 0 7 : BitVec 7) = 0x23#7 then RefCpu.storeInst e (ready e s w)
       else (Ref.refIM w ⟨s.gpr, s.pc⟩).map fun u => { ready e s w with gpr := u.gpr, pc := u.pc }) := by
  obtain ⟨n1, n2, n3, n4, n5⟩ := RefCpu.Proofs.not_special (w := w) (Or.inl hop)
  rw [RefCpu.Proofs.fetch_word (Or.inl ⟨h.fetch, hw⟩) n1]
  have hcr : Calm (ready e s w) := calm_of h rfl fun r h1 h2 => ready_file e s w r h1 h2
  have hirq : (ready e s w).irq = ⟨false, false, false, false, false, false⟩ := by
    have := hcr.irq ((ready e s w).file .mip)
    exact this
  show body F e (ready e s w) = _
  have hasy : RefCpu.asy (ready e s w) = false := RefCpu.Proofs.asy_quiet hirq rfl rfl n2 n3 n4
  have ho : (ready e s w).inst.extractLsb' 0 7 ≠ 0x73#7 := hop
  unfold body
  rw [if_neg (fun hh => n5 hh.1), if_neg (show ¬ (ready e s w).pfInst = true from Bool.false_ne_true),
    if_neg (show ¬ (ready e s w).illegal = true from Bool.false_ne_true),
    if_neg (fun hh => hh.elim (fun hh => Bool.false_ne_true (hasy ▸ hh)) n2)]
  dsimp only
  rw [if_neg ho]
  rfl

/-- What a step has to do for the two to agree afterwards. -/
theorem agrees_of {σ τ : Core.Isa Mem} {s t : RefCpu.State} (h : Agrees σ s)
    (hr : ∀ a, a < 32 → a ≠ 0 → t.gpr a = τ.regs a) (h0 : τ.regs 0 = 0#32) (hpc : t.pc = τ.pc)
    (hm : RefMem.view t.mem = τ.ext) (hp : t.priv = s.priv)
    (hf : ∀ r, r ≠ .mip → r ≠ .sip → t.file r = s.file r) : Agrees τ (RefCpu.zero0 t) := by
  refine ⟨fun a ha => ?_, h0, hpc, hm, calm_of h.calm hp hf⟩
  unfold RefCpu.zero0 Ref.wr
  by_cases hz : a = 0
  · subst hz; simp [h0]
  · simp [hz, hr a ha hz]

/-! ### Where the result goes -/

theorem finish_dest (u : DecInst) :
    (decodeFinish u).destAreg = (if u.type = .amo ∧ u.destAreg = 0 ∧ u.amoOp ≠ 2#7 ∧ u.amoOp ≠ 3#7 then 32 else u.destAreg) ∧
    (decodeFinish u).destEn = (if u.type = .amo ∧ u.destAreg = 0 ∧ u.amoOp ≠ 2#7 ∧ u.amoOp ≠ 3#7 then u.destEn
      else if u.destAreg = 0 then false else u.destEn) := by
  have g : ∀ b, DecInst.amoOp { u with isRet := b } = u.amoOp := fun _ => rfl
  unfold decodeFinish
  simp only [g]
  by_cases hc : u.type = .amo ∧ u.destAreg = 0 ∧ u.amoOp ≠ 2#7 ∧ u.amoOp ≠ 3#7
  · simp [hc]
  · simp only [hc, if_false]
    by_cases hd : u.destAreg = 0 <;> simp [hd]

theorem finish_off {u : DecInst} (h : u.destEn = false) : (decodeFinish u).destEn = false := by
  rw [(finish_dest u).2, h]
  simp

/-- The destination is `rd`; if that is register 0, nothing below register 32 is written. -/
def Dest (w : W) (rd : Nat) : Prop :=
  ((decode w).destEn = true ∧ (decode w).destAreg = rd ∧ rd ≠ 0) ∨
    (rd = 0 ∧ ((decode w).destEn = false ∨ (decode w).destAreg = 32))

theorem dest_regs {rd : Nat} (h : Dest w rd) (σ : Core.Isa Mem) {a : Nat} (ha : a < 32) (h0 : a ≠ 0) :
    (Core.exec (coreSem w pc) σ).regs a = if a = rd then
      (coreSem w pc).value σ.ext ((coreSem w pc).arg1 σ.regs) ((coreSem w pc).arg2 σ.regs) else σ.regs a := by
  show (if (decode w).destEn = true then Ring.upd σ.regs (decode w).destAreg _ else σ.regs) a = _
  rcases h with ⟨h1, h2, h3⟩ | ⟨h1, h2⟩
  · rw [if_pos h1, h2]
    rfl
  · rw [if_neg (by omega : ¬ a = rd)]
    split
    · next h =>
      have h2 := h2.resolve_left (by rw [h]; decide)
      rw [h2]
      exact if_neg (by omega)
    · rfl

theorem dest_zero (σ : Core.Isa Mem) (h : σ.regs 0 = 0#32) : (Core.exec (coreSem w pc) σ).regs 0 = 0#32 := by
  show (if (decode w).destEn = true then Ring.upd σ.regs (decode w).destAreg _ else σ.regs) 0 = _
  split
  · next h1 =>
    have h2 := (Props.C08_dest w h1).1
    exact (if_neg (fun hh => h2 hh.symm)).trans h
  · exact h

theorem dest_int (ins : Instr) : Dest ins.encode ins.rd.toNat := by
  obtain ⟨-, h1, h2⟩ := Props.C08_writes_rd ins
  by_cases h : ins.rd = 0#5
  · exact Or.inr ⟨by rw [h]; rfl, Or.inl (by rw [h1, h]; rfl)⟩
  · exact Or.inl ⟨by rw [h1]; simpa using h, h2, fun hh => h (BitVec.eq_of_toNat_eq hh)⟩

theorem dest_off (h : (decode w).destEn = false) (σ : Core.Isa Mem) : (Core.exec (coreSem w pc) σ).regs = σ.regs := by
  show (if (decode w).destEn = true then Ring.upd σ.regs (decode w).destAreg _ else σ.regs) = _
  rw [h]
  rfl

theorem dec_load (imm : BitVec 12) (rs1 rd : BitVec 5) (f3 : BitVec 3) :
    (decode (encI imm rs1 f3 rd 0b0000011#7)).type = .load ∧ (decode (encI imm rs1 f3 rd 0b0000011#7)).func3 = f3 ∧
      Dest (encI imm rs1 f3 rd 0b0000011#7) rd.toNat := by
  have key : ∃ u, decodeOpcode (encI imm rs1 f3 rd 0b0000011#7) (decodeFields (encI imm rs1 f3 rd 0b0000011#7)) = u ∧
      u.type = .load ∧ u.destEn = true ∧ u.destAreg = rd.toNat ∧ u.func3 = f3 := by
    refine ⟨_, rfl, ?_⟩
    unfold decodeOpcode
    rw [EncLemmas.encI_opc]
    simp only [decodeFields, EncLemmas.encI_rd, EncLemmas.encI_f3, and_self]
  obtain ⟨u, hu, ht, he, hd, h3⟩ := key
  obtain ⟨f1, f2, -⟩ := Exec.finish_fields u
  obtain ⟨g1, g2⟩ := finish_dest u
  unfold Dest decode
  rw [hu, f1, f2, g1, g2, ht, hd, h3, he]
  by_cases h : rd.toNat = 0 <;> simp [h]

theorem dec_amo_dest (f7 : BitVec 7) (rs2 rs1 rd : BitVec 5) (h2 : f7 >>> 2 ≠ 2#7) (h3 : f7 >>> 2 ≠ 3#7) :
    Dest (encR f7 rs2 rs1 2 rd 0b0101111#7) rd.toNat ∧ (decode (encR f7 rs2 rs1 2 rd 0b0101111#7)).func3 = 2#3 := by
  have key : ∃ u, decodeOpcode (encR f7 rs2 rs1 2 rd 0b0101111#7) (decodeFields (encR f7 rs2 rs1 2 rd 0b0101111#7)) = u ∧
      u.type = .amo ∧ u.destEn = true ∧ u.destAreg = rd.toNat ∧ u.amoOp ≠ 2#7 ∧ u.amoOp ≠ 3#7 ∧ u.func3 = 2#3 := by
    refine ⟨_, rfl, ?_⟩
    unfold decodeOpcode
    rw [EncLemmas.encR_opc]
    simp only [decodeFields, EncLemmas.encR_rd, EncLemmas.encR_f7, EncLemmas.encR_f3, DecInst.amoOp]
    exact ⟨trivial, trivial, trivial, h2, h3, rfl⟩
  obtain ⟨u, hu, ht, he, hd, k2, k3, h3⟩ := key
  obtain ⟨f1, f2, -⟩ := Exec.finish_fields u
  obtain ⟨g1, g2⟩ := finish_dest u
  unfold Dest decode
  rw [hu, f2, g1, g2, ht, hd, h3, he]
  by_cases h : rd.toNat = 0 <;> simp [h, k2, k3]

theorem dec_store (imm : BitVec 12) (rs2 rs1 : BitVec 5) (f3 : BitVec 3) :
    (decode (encS imm rs2 rs1 f3 0b0100011#7)).type = .store ∧ (decode (encS imm rs2 rs1 f3 0b0100011#7)).func3 = f3 ∧
      (decode (encS imm rs2 rs1 f3 0b0100011#7)).destEn = false := by
  have key : ∃ u, decodeOpcode (encS imm rs2 rs1 f3 0b0100011#7) (decodeFields (encS imm rs2 rs1 f3 0b0100011#7)) = u ∧
      u.type = .store ∧ u.destEn = false ∧ u.func3 = f3 := by
    refine ⟨_, rfl, ?_⟩
    unfold decodeOpcode
    rw [EncLemmas.encS_opc]
    simp only [decodeFields, EncLemmas.encS_f3, and_self]
  obtain ⟨u, hu, ht, he, h3⟩ := key
  obtain ⟨f1, f2, -⟩ := Exec.finish_fields u
  unfold decode
  rw [hu]
  refine ⟨f1.trans ht, f2.trans h3, ?_⟩
  exact finish_off he

theorem dec_branch (imm : BitVec 12) (rs2 rs1 : BitVec 5) (f3 : BitVec 3) :
    (decode (encB imm rs2 rs1 f3 0b1100011#7)).type = .br ∧ (decode (encB imm rs2 rs1 f3 0b1100011#7)).destEn = false := by
  have key : ∃ u, decodeOpcode (encB imm rs2 rs1 f3 0b1100011#7) (decodeFields (encB imm rs2 rs1 f3 0b1100011#7)) = u ∧
      u.type = .br ∧ u.destEn = false := by
    refine ⟨_, rfl, ?_⟩
    unfold decodeOpcode
    rw [EncLemmas.encB_opc]
    exact ⟨rfl, rfl⟩
  obtain ⟨u, hu, ht, he⟩ := key
  obtain ⟨f1, f2, -⟩ := Exec.finish_fields u
  unfold decode
  rw [hu]
  refine ⟨f1.trans ht, ?_⟩
  exact finish_off he

theorem type_of {u : DecInst} (h : decodeOpcode w (decodeFields w) = u) : (decode w).type = u.type := by
  unfold decode
  rw [h]
  exact (Exec.finish_fields u).1

theorem dec_int (ins : Instr) :
    ((decode ins.encode).type = .add ∨ (decode ins.encode).type = .mul ∨ (decode ins.encode).type = .div ∨
      (decode ins.encode).type = .jal ∨ (decode ins.encode).type = .jalr) ∧
    (Props.isJump ins = true ↔ (decode ins.encode).type = .jal ∨ (decode ins.encode).type = .jalr) := by
  cases ins with
  | r op rd rs1 rs2 =>
    obtain ⟨u, hu, ht, -⟩ := Exec.dec_r op.funct.1 rs2 rs1 rd op.funct.2
    have := type_of hu
    simp only [Instr.encode, this, ht, Props.isJump]
    split
    · split <;> simp
    · simp
  | i op rd rs1 imm =>
    obtain ⟨u, hu, ht, -⟩ := Exec.dec_i imm rs1 rd op.funct3
    have := type_of hu
    simp [Instr.encode, this, ht, Props.isJump]
  | sh op rd rs1 s =>
    obtain ⟨u, hu, ht, -⟩ := Exec.dec_i ((op.funct.1 ++ s : BitVec (7 + 5)).cast rfl) rs1 rd op.funct.2
    have := type_of hu
    simp only [Instr.encode, this, ht, Props.isJump]
    simp
  | un op rd rs1 =>
    obtain ⟨u, hu, ht, -⟩ := Exec.dec_i ((op.funct.1 ++ op.funct.2.1 : BitVec (7 + 5)).cast rfl) rs1 rd op.funct.2.2
    have := type_of hu
    simp only [Instr.encode, this, ht, Props.isJump]
    simp
  | lui rd imm =>
    obtain ⟨u, hu, ht, -⟩ := Exec.dec_lui imm rd
    have := type_of hu
    simp [Instr.encode, this, ht, Props.isJump]
  | auipc rd imm =>
    obtain ⟨u, hu, ht, -⟩ := Exec.dec_auipc imm rd
    have := type_of hu
    simp [Instr.encode, this, ht, Props.isJump]
  | jal rd imm =>
    obtain ⟨u, hu, ht, -⟩ := Exec.dec_jal imm rd
    have := type_of hu
    simp [Instr.encode, this, ht, Props.isJump]
  | jalr rd rs1 imm =>
    obtain ⟨u, hu, ht, -⟩ := Exec.dec_jalr imm rs1 rd 0
    have := type_of hu
    simp only [Instr.encode, this, ht, Props.isJump]
    simp

/-- The opcodes of the covered instructions. -/
theorem opc_int (ins : Instr) :
    (ins.encode.extractLsb' 0 7 : BitVec 7) ∉ [0x73#7, 0x2f#7, 0x53#7, 0x43#7, 0x4b#7, 0x4f#7, 0x47#7, 0x03#7, 0x23#7] := by
  cases ins <;> simp only [Instr.encode, EncLemmas.encR_opc, EncLemmas.encI_opc, EncLemmas.encU_opc, EncLemmas.encJ_opc] <;> decide


/-! ### One instruction -/

theorem addr_sum (a : W) (imm : BitVec 12) : BitVec.ofInt 32 ((a.toNat : Int) + imm.toInt) = a + imm.signExtend 32 := by
  rw [Exec.sx_ofInt, BitVec.ofInt_add]
  congr 1
  simp

variable {σ : Core.Isa Mem} {s : RefCpu.State} {F : Fp.SoftFloat} {e : RefCpu.Env}

theorem ready_view : RefMem.view (ready e s w).mem = RefMem.view s.mem := rfl
theorem ready_viewIn : RefMem.view (ready e s w).memIn = RefMem.view s.mem := rfl

theorem memOut_file (t : RefCpu.State) (m : RefMem.State) (r : Csr.Reg) (h1 : r ≠ .mip) (h2 : r ≠ .sip) :
    (t.memOut m).file r = t.file r := by
  simp [RefCpu.State.memOut, Csr.set, h1, h2]

theorem step_int (h : Agrees σ s) (ins : Instr) (hw : RefMem.loadWord s.mem s.pc = ins.encode)
    (hr : ¬ Exec.rotZero ins σ.regs) :
    ∃ s', RefCpu.exec F e s = some s' ∧ Agrees (Core.exec (coreSem ins.encode σ.pc) σ) s' := by
  obtain ⟨ht, hj⟩ := dec_int ins
  have ho := opc_int ins
  simp only [List.mem_cons, List.not_mem_nil, or_false, not_or] at ho
  obtain ⟨o1, o2, o3, o4, o5, o6, o7, o8, o9⟩ := ho
  have h0 : s.gpr 0 = 0#32 := (h.regs 0 (by decide)).trans h.zero
  obtain ⟨a1, a2⟩ := args_congr (w := ins.encode) (pc := σ.pc) h.regs
  have hv := value_exec (pc := σ.pc) (x := σ.regs) ht
  have hv' := value_exec (pc := σ.pc) (x := s.gpr) ht
  rw [a1, a2, hv] at hv'
  obtain ⟨v, hex, -⟩ := Exec.exec_sem ins σ.pc σ.regs h.zero hr
  have ha := Props.C09_alu ins s.gpr h0 s.pc
  rw [h.pc, ← hv', hex] at ha
  cases hu : Ref.refIM ins.encode ⟨s.gpr, σ.pc⟩ with
  | none => rw [hu] at ha; simp at ha
  | some u =>
    rw [hu] at ha
    simp only [Option.map_some, Option.some.injEq] at ha
    rw [calm_exec h.calm hw o1, if_neg o2, if_neg (by simp [o3, o4, o5, o6, o7]), if_neg o8, if_neg o9, h.pc, hu]
    refine ⟨_, rfl, agrees_of h (fun a ha32 ha0 => ?_) (dest_zero σ h.zero) ?_ ?_ rfl fun r h1 h2 => ready_file e s _ r h1 h2⟩
    · rw [dest_regs (dest_int ins) σ ha32 ha0]
      show u.gpr a = _
      rw [ha]
      unfold Props.writeReg
      rw [if_neg ha0]
      split
      · show v = (coreSem ins.encode σ.pc).value _ _ _
        have n1 : ¬ ((decode ins.encode).type = .load ∨ (decode ins.encode).type = .amo) := by
          rcases ht with ht | ht | ht | ht | ht <;> rw [ht] <;> decide
        show v = if _ then _ else _
        rw [if_neg n1, hv, hex]
        rfl
      · exact h.regs a ha32
    · obtain ⟨p1, p2⟩ := Props.C09_pc ins s.gpr σ.pc u hu
      show u.pc = nextOf _ _ _ _
      cases hb : Props.isJump ins with
      | false =>
        rw [p1 hb, next_other]
        have : ¬ ((decode ins.encode).type = .jal ∨ (decode ins.encode).type = .jalr) := fun hh => by
          have := hj.2 hh
          rw [hb] at this
          exact absurd this (by decide)
        rw [not_or] at this
        refine ⟨?_, this⟩
        rcases ht with ht | ht | ht | ht | ht <;> rw [ht] <;> decide
      | true =>
        obtain ⟨o, ho, hp⟩ := p2 hb false 0#32
        rw [hp, ← a1, ← a2]
        exact (next_exec (Or.inr (hj.1 hb)) ho).symm
    · show RefMem.view s.mem = if _ then _ else _
      rw [if_neg (by rcases ht with ht | ht | ht | ht | ht <;> rw [ht] <;> decide)]
      exact h.mem

theorem step_branch (h : Agrees σ s) (op : BrOp) (imm : BitVec 12) (rs2 rs1 : BitVec 5)
    (hw : RefMem.loadWord s.mem s.pc = encB imm rs2 rs1 op.funct3 0b1100011#7) :
    ∃ s', RefCpu.exec F e s = some s' ∧ Agrees (Core.exec (coreSem (encB imm rs2 rs1 op.funct3 0b1100011#7) σ.pc) σ) s' := by
  obtain ⟨ht, hd⟩ := dec_branch imm rs2 rs1 op.funct3
  have ho : ((encB imm rs2 rs1 op.funct3 0b1100011#7).extractLsb' 0 7 : BitVec 7) = 0b1100011#7 := EncLemmas.encB_opc ..
  have h0 : s.gpr 0 = 0#32 := (h.regs 0 (by decide)).trans h.zero
  obtain ⟨a1, a2⟩ := args_congr (w := encB imm rs2 rs1 op.funct3 0b1100011#7) (pc := σ.pc) h.regs
  obtain ⟨u, o, hu, hb, hp, hg⟩ := Props.C09_branch op imm rs2 rs1 s.pc s.gpr h0 false 0#32
  rw [h.pc] at hu hb
  rw [calm_exec h.calm hw (by rw [ho]; decide), ho, if_neg (by decide), if_neg (by decide), if_neg (by decide),
    if_neg (by decide), h.pc, hu]
  refine ⟨_, rfl, agrees_of h (fun a ha32 ha0 => ?_) (dest_zero σ h.zero) ?_ ?_ rfl fun r h1 h2 => ready_file e s _ r h1 h2⟩
  · rw [dest_off hd σ]
    show u.gpr a = _
    rw [hg]
    exact h.regs a ha32
  · show u.pc = nextOf _ _ _ _
    rw [hp, ← a1, ← a2]
    exact (next_exec (Or.inl ht) hb).symm
  · show RefMem.view s.mem = if _ then _ else _
    rw [if_neg (by rw [ht]; decide)]
    exact h.mem

theorem step_load (h : Agrees σ s) (sz : Size) (sg : Bool) (f3 : BitVec 3) (imm : BitVec 12) (rs1 rd : BitVec 5)
    (hc : loadCode sz sg = some f3) (hw : RefMem.loadWord s.mem s.pc = encI imm rs1 f3 rd 0b0000011#7)
    (hal : aligned sz (σ.regs rs1.toNat + imm.signExtend 32)) (hdv : ¬ Props.Device (σ.regs rs1.toNat + imm.signExtend 32)) :
    ∃ s', RefCpu.exec F e s = some s' ∧ Agrees (Core.exec (coreSem (encI imm rs1 f3 rd 0b0000011#7) σ.pc) σ) s' := by
  obtain ⟨ht, h3, hd⟩ := dec_load imm rs1 rd f3
  have ho : ((encI imm rs1 f3 rd 0b0000011#7).extractLsb' 0 7 : BitVec 7) = 0b0000011#7 := EncLemmas.encI_opc ..
  have hx : s.gpr rs1.toNat = σ.regs rs1.toNat := h.regs _ rs1.isLt
  have hldr := Props.C33_ref_load e.now (ready e s (encI imm rs1 f3 rd 0b0000011#7)).memIn sz sg f3 hc _ hal hdv
  rw [ready_viewIn, h.mem] at hldr
  have hli : RefCpu.loadInst e (ready e s (encI imm rs1 f3 rd 0b0000011#7)) = some
      { ready e s (encI imm rs1 f3 rd 0b0000011#7) with
        gpr := Ref.wr s.gpr rd.toNat (load σ.ext sz sg (σ.regs rs1.toNat + imm.signExtend 32))
        pc := s.pc + 4#32 } := by
    have hcr : Calm (ready e s (encI imm rs1 f3 rd 0b0000011#7)) := calm_of h.calm rfl fun r h1 h2 => ready_file e s _ r h1 h2
    unfold RefCpu.loadInst
    dsimp only
    rw [if_neg (by rw [hcr.data]; decide)]
    show Option.map _ (RefMem.load e.now _ ((encI imm rs1 f3 rd 0b0000011#7).extractLsb' 12 3)
      (s.gpr ((encI imm rs1 f3 rd 0b0000011#7).extractLsb' 15 5).toNat + (immI (encI imm rs1 f3 rd 0b0000011#7)).setWidth 32)) = _
    rw [EncLemmas.encI_f3, EncLemmas.encI_rs1, ImmLemmas.immI_enc, hx, hldr]
    simp only [Option.map_some, Option.some.injEq]
    show ({ ready e s (encI imm rs1 f3 rd 0b0000011#7) with
        gpr := Ref.wr s.gpr ((encI imm rs1 f3 rd 0b0000011#7).extractLsb' 7 5).toNat _
        pc := s.pc + 4#32 } : RefCpu.State) = _
    rw [EncLemmas.encI_rd]
  rw [calm_exec h.calm hw (by rw [ho]; decide), ho, if_neg (by decide), if_neg (by decide), if_pos rfl, hli]
  refine ⟨_, rfl, agrees_of h (fun a ha32 ha0 => ?_) (dest_zero σ h.zero) ?_ ?_ rfl fun r h1 h2 => ready_file e s _ r h1 h2⟩
  · rw [dest_regs hd σ ha32 ha0]
    show Ref.wr s.gpr rd.toNat _ a = _
    unfold Ref.wr
    rw [if_neg ha0]
    split
    · show _ = if _ then _ else _
      rw [if_pos (Or.inl ht)]
      have had := (Props.C06_store_load imm 0 rs1 rd f3 σ.pc 0 σ.regs).2.2
      rw [addr_sum] at had
      rw [addr_exec ((flags _).2.2.2.1 (Or.inr (Or.inl ht))) had, h3, Props.C33_core_load σ.ext sz sg f3 hc _ hal]
    · exact h.regs a ha32
  · show s.pc + 4#32 = nextOf _ _ _ _
    rw [next_other (by rw [ht]; decide), h.pc]
  · show RefMem.view s.mem = if _ then _ else _
    rw [if_neg (by rw [ht]; decide)]
    exact h.mem

theorem step_store (h : Agrees σ s) (sz : Size) (imm : BitVec 12) (rs2 rs1 : BitVec 5)
    (hw : RefMem.loadWord s.mem s.pc = encS imm rs2 rs1 sz.code 0b0100011#7)
    (hal : aligned sz (σ.regs rs1.toNat + imm.signExtend 32)) (hdv : ¬ Props.Device (σ.regs rs1.toNat + imm.signExtend 32)) :
    ∃ s', RefCpu.exec F e s = some s' ∧ Agrees (Core.exec (coreSem (encS imm rs2 rs1 sz.code 0b0100011#7) σ.pc) σ) s' := by
  obtain ⟨ht, h3, hd⟩ := dec_store imm rs2 rs1 sz.code
  have ho : ((encS imm rs2 rs1 sz.code 0b0100011#7).extractLsb' 0 7 : BitVec 7) = 0b0100011#7 := EncLemmas.encS_opc ..
  have hx : s.gpr rs1.toNat = σ.regs rs1.toNat := h.regs _ rs1.isLt
  have hy : s.gpr rs2.toNat = σ.regs rs2.toNat := h.regs _ rs2.isLt
  obtain ⟨m, hm, hvm⟩ := Props.C33_ref_store e.now (ready e s (encS imm rs2 rs1 sz.code 0b0100011#7)).memIn sz _
    (σ.regs rs2.toNat) hal hdv
  rw [ready_viewIn, h.mem] at hvm
  have hsi : RefCpu.storeInst e (ready e s (encS imm rs2 rs1 sz.code 0b0100011#7)) = some
      { (ready e s (encS imm rs2 rs1 sz.code 0b0100011#7)).memOut m with pc := s.pc + 4#32 } := by
    have hcr : Calm (ready e s (encS imm rs2 rs1 sz.code 0b0100011#7)) :=
      calm_of h.calm rfl fun r h1 h2 => ready_file e s _ r h1 h2
    unfold RefCpu.storeInst
    dsimp only
    rw [if_neg (by rw [hcr.data]; decide)]
    show Option.map _ (RefMem.storeInst e.now _ ((encS imm rs2 rs1 sz.code 0b0100011#7).extractLsb' 12 3)
      (s.gpr ((encS imm rs2 rs1 sz.code 0b0100011#7).extractLsb' 15 5).toNat +
        (immS (encS imm rs2 rs1 sz.code 0b0100011#7)).setWidth 32)
      (s.gpr ((encS imm rs2 rs1 sz.code 0b0100011#7).extractLsb' 20 5).toNat)) = _
    rw [EncLemmas.encS_f3, EncLemmas.encS_rs1, EncLemmas.encS_rs2, ImmLemmas.immS_enc, hx, hy, hm]
    rfl
  rw [calm_exec h.calm hw (by rw [ho]; decide), ho, if_neg (by decide), if_neg (by decide), if_neg (by decide), if_pos rfl, hsi]
  refine ⟨_, rfl, agrees_of h (fun a ha32 ha0 => ?_) (dest_zero σ h.zero) ?_ ?_ rfl
    fun r h1 h2 => (memOut_file _ m r h1 h2).trans (ready_file e s _ r h1 h2)⟩
  · rw [dest_off hd σ]
    exact h.regs a ha32
  · show s.pc + 4#32 = nextOf _ _ _ _
    rw [next_other (by rw [ht]; decide), h.pc]
  · show RefMem.view m = if _ then _ else _
    rw [if_pos (Or.inl ht), hvm, h3]
    have h12 := (flags _).2.1 (Or.inr (Or.inr (Or.inr ht)))
    obtain ⟨hsd, had, -⟩ := Props.C06_store_load imm rs2 rs1 0 sz.code σ.pc
      (Lane.extractData (word σ.ext (addrOf .ld (encS imm rs2 rs1 sz.code 0b0100011#7) σ.pc
        ((coreSem (encS imm rs2 rs1 sz.code 0b0100011#7) σ.pc).arg1 σ.regs)
        ((coreSem (encS imm rs2 rs1 sz.code 0b0100011#7) σ.pc).arg2 σ.regs)))
        (addrOf .ld (encS imm rs2 rs1 sz.code 0b0100011#7) σ.pc
        ((coreSem (encS imm rs2 rs1 sz.code 0b0100011#7) σ.pc).arg1 σ.regs)
        ((coreSem (encS imm rs2 rs1 sz.code 0b0100011#7) σ.pc).arg2 σ.regs)) sz.code) σ.regs
    rw [addr_sum] at had
    rw [addr_exec h12.1 had, data_exec (Or.inl ht) hsd]
    funext a
    exact (Props.C33_core_store σ.ext sz _ _ hal a).symm

/-- The two specifications of the read-modify-write instructions agree. -/
theorem amo_ops (op : AmoOp) : ∃ op' : Props.AmoOp, op'.code = op.funct5 ∧ ∀ a b, op'.result a b = op.sem a b := by
  cases op
  · exact ⟨.swap, rfl, fun _ _ => rfl⟩
  · refine ⟨.add, rfl, fun a b => ?_⟩
    show a + b = BitVec.ofNat 32 (a.toNat + b.toNat)
    simp [BitVec.ofNat_add]
  · refine ⟨.xor, rfl, fun a b => ?_⟩
    show a ^^^ b = ofBits _
    apply AluLemmas.eq_ofBits
    intro i hi
    simp [BitVec.getLsbD_xor]
  · refine ⟨.and, rfl, fun a b => ?_⟩
    show a &&& b = ofBits _
    apply AluLemmas.eq_ofBits
    intro i hi
    simp [BitVec.getLsbD_and]
  · refine ⟨.or, rfl, fun a b => ?_⟩
    show a ||| b = ofBits _
    apply AluLemmas.eq_ofBits
    intro i hi
    simp [BitVec.getLsbD_or]
  · exact ⟨.min, rfl, fun _ _ => rfl⟩
  · exact ⟨.max, rfl, fun _ _ => rfl⟩
  · exact ⟨.minu, rfl, fun _ _ => rfl⟩
  · exact ⟨.maxu, rfl, fun _ _ => rfl⟩

theorem load_word_signed (m : Mem) (p : W) : load m .word true p = load m .word false p := by
  unfold load
  simp only [if_true, Size.bytes]
  rw [BitVec.signExtend_eq_setWidth_of_le _ (by decide)]
  simp

theorem encAmo_f5 (f5 : BitVec 5) (aqrl : BitVec 2) (rs2 rs1 rd : BitVec 5) :
    (Props.encAmo f5 aqrl rs2 rs1 rd).extractLsb' 27 5 = f5 := by
  have h : ((Props.encAmo f5 aqrl rs2 rs1 rd).extractLsb' 25 7 : BitVec 7).extractLsb' 2 5 =
      (Props.encAmo f5 aqrl rs2 rs1 rd).extractLsb' 27 5 := by
    apply BitVec.eq_of_getLsbD_eq
    intro i hi
    simp [hi, (by omega : 2 + i < 7), ← Nat.add_assoc]
  rw [← h]
  unfold Props.encAmo
  rw [EncLemmas.encR_f7]
  clear h
  revert f5 aqrl
  decide

theorem step_amo (h : Agrees σ s) (op : AmoOp) (aqrl : BitVec 2) (rs2 rs1 rd : BitVec 5)
    (hw : RefMem.loadWord s.mem s.pc = Props.encAmo op.funct5 aqrl rs2 rs1 rd)
    (hal : aligned .word (σ.regs rs1.toNat)) (hdv : ¬ Props.Device (σ.regs rs1.toNat)) :
    ∃ s', RefCpu.exec F e s = some s' ∧ Agrees (Core.exec (coreSem (Props.encAmo op.funct5 aqrl rs2 rs1 rd) σ.pc) σ) s' := by
  have hop7 : ((op.funct5 ++ aqrl : BitVec (5 + 2)).cast rfl : BitVec 7) >>> 2 ≠ 2#7 ∧
      ((op.funct5 ++ aqrl : BitVec (5 + 2)).cast rfl : BitVec 7) >>> 2 ≠ 3#7 := by
    rw [show ((op.funct5 ++ aqrl : BitVec (5 + 2)).cast rfl : BitVec 7) >>> 2 = _ from Props.amoOp_code _ _]
    cases op <;> decide
  obtain ⟨hd, h3⟩ := dec_amo_dest ((op.funct5 ++ aqrl : BitVec (5 + 2)).cast rfl) rs2 rs1 rd hop7.1 hop7.2
  obtain ⟨u, hu, ht, h7, -⟩ := Props.dec_amo ((op.funct5 ++ aqrl : BitVec (5 + 2)).cast rfl) rs2 rs1 rd 2
  have ho : ((Props.encAmo op.funct5 aqrl rs2 rs1 rd).extractLsb' 0 7 : BitVec 7) = 0b0101111#7 := EncLemmas.encR_opc ..
  have hrd : ((Props.encAmo op.funct5 aqrl rs2 rs1 rd).extractLsb' 7 5 : BitVec 5) = rd := EncLemmas.encR_rd ..
  have hr1 : ((Props.encAmo op.funct5 aqrl rs2 rs1 rd).extractLsb' 15 5 : BitVec 5) = rs1 := EncLemmas.encR_rs1 ..
  have hr2 : ((Props.encAmo op.funct5 aqrl rs2 rs1 rd).extractLsb' 20 5 : BitVec 5) = rs2 := EncLemmas.encR_rs2 ..
  have hf5 := encAmo_f5 op.funct5 aqrl rs2 rs1 rd
  change Dest (Props.encAmo op.funct5 aqrl rs2 rs1 rd) rd.toNat at hd
  change (decode (Props.encAmo op.funct5 aqrl rs2 rs1 rd)).func3 = 2#3 at h3
  change decode (Props.encAmo op.funct5 aqrl rs2 rs1 rd) = u at hu
  have htw : (decode (Props.encAmo op.funct5 aqrl rs2 rs1 rd)).type = .amo := by rw [hu, ht]
  have hn2 : (decode (Props.encAmo op.funct5 aqrl rs2 rs1 rd)).amoOp ≠ 2#7 := by
    rw [hu, DecInst.amoOp, h7]
    exact hop7.1
  obtain ⟨opr, hcode, hres⟩ := amo_ops op
  obtain ⟨c1, c2, c3⟩ := Props.C06_amo op aqrl rs2 rs1 rd σ.pc (load σ.ext .word false (σ.regs rs1.toNat)) σ.regs
  generalize Props.encAmo op.funct5 aqrl rs2 rs1 rd = w at *
  have hx : s.gpr rs1.toNat = σ.regs rs1.toNat := h.regs _ rs1.isLt
  have hy : s.gpr rs2.toNat = σ.regs rs2.toNat := h.regs _ rs2.isLt
  obtain ⟨m, hm, hvm⟩ := Props.C50_amo e.now (ready e s w).memIn opr (σ.regs rs1.toNat) (σ.regs rs2.toNat) hal hdv
  rw [ready_viewIn, h.mem] at hm hvm
  rw [hcode] at hm
  rw [hres] at hvm
  have hai : RefCpu.amoInst e (ready e s w) = some
      { (ready e s w).memOut m with
        gpr := Ref.wr s.gpr rd.toNat (load σ.ext .word false (σ.regs rs1.toNat))
        pc := s.pc + 4#32 } := by
    have hcr : Calm (ready e s w) := calm_of h.calm rfl fun r h1 h2 => ready_file e s _ r h1 h2
    unfold RefCpu.amoInst
    dsimp only
    rw [if_neg (by rw [hcr.data]; decide)]
    show Option.map _ (RefMem.amo e.now _ (w.extractLsb' 27 5) (s.gpr (w.extractLsb' 15 5).toNat)
      (s.gpr (w.extractLsb' 20 5).toNat)) = _
    rw [hf5, hr1, hr2, hx, hy, hm]
    simp only [Option.map_some, Option.some.injEq]
    show ({ (ready e s w).memOut m with gpr := Ref.wr s.gpr (w.extractLsb' 7 5).toNat _, pc := s.pc + 4#32 } : RefCpu.State) = _
    rw [hrd]
  have g1 : (decode w).src1En = true := (flags w).2.2.2.1 (Or.inr (Or.inr htw))
  have hld : Lane.extractData (word σ.ext (σ.regs rs1.toNat)) (σ.regs rs1.toNat) 2#3 = load σ.ext .word false (σ.regs rs1.toNat) := by
    rw [Props.C33_core_load σ.ext .word true 2#3 rfl _ hal, load_word_signed]
  rw [calm_exec h.calm hw (by rw [ho]; decide), ho, if_pos rfl, hai]
  refine ⟨_, rfl, agrees_of h (fun a ha32 ha0 => ?_) (dest_zero σ h.zero) ?_ ?_ rfl
    fun r h1 h2 => (memOut_file _ m r h1 h2).trans (ready_file e s _ r h1 h2)⟩
  · rw [dest_regs hd σ ha32 ha0]
    show Ref.wr s.gpr rd.toNat _ a = _
    unfold Ref.wr
    rw [if_neg ha0]
    split
    · show _ = if _ then _ else _
      rw [if_pos (Or.inr htw), addr_exec g1 c2, h3, hld]
    · exact h.regs a ha32
  · show s.pc + 4#32 = nextOf _ _ _ _
    rw [next_other (by rw [htw]; decide), h.pc]
  · show RefMem.view m = if _ then _ else _
    rw [if_pos (Or.inr htw), hvm, h3, addr_exec g1 c2, hld, addr_exec g1 c3, data_exec (Or.inr ⟨htw, hn2⟩) c1]
    funext a
    exact (Props.C33_core_store σ.ext .word _ _ hal a).symm

/-- One instruction of the core is one step of the reference. -/
theorem step_agrees (h : Agrees σ s) (hpc : σ.pc.toNat % 4 = 0) (hw : load σ.ext .word false σ.pc = w) (hs : Step σ.regs w) :
    ∃ s', RefCpu.exec F e s = some s' ∧ Agrees (Core.exec (coreSem w σ.pc) σ) s' := by
  have hf : RefMem.loadWord s.mem s.pc = w := by
    rw [h.pc, Props.loadWord_view s.mem _ hpc, h.mem, hw]
  cases hs with
  | int ins he hr => subst he; exact step_int h ins hf hr
  | branch op imm rs2 rs1 he => subst he; exact step_branch h op imm rs2 rs1 hf
  | load sz sg f3 imm rs1 rd hc he hal hd => subst he; exact step_load h sz sg f3 imm rs1 rd hc hf hal hd
  | store sz imm rs2 rs1 he hal hd => subst he; exact step_store h sz imm rs2 rs1 hf hal hd
  | amo op aqrl rs2 rs1 rd he hal hd => subst he; exact step_amo h op aqrl rs2 rs1 rd hf hal hd

/-- `n` instructions are `n` steps. -/
theorem run_agrees {text : W → W} (e : Nat → RefCpu.Env) {n : Nat} {σ τ : Core.Isa Mem} {s : RefCpu.State} {l : List (Item Mem)}
    (hl : l.length = n) (hi : ∀ i ∈ l, ∃ p, i = .inst p) (hr : Runs (program text) σ l τ) (hg : Runnable text n σ) (h : Agrees σ s) :
    ∃ s', refRun F e n s = some s' ∧ Agrees τ s' := by
  induction hr generalizing n s with
  | nil σ => subst hl; exact ⟨s, rfl, h⟩
  | @inst σ τ l hr ih =>
    subst hl
    obtain ⟨g1, g2, g3, g4⟩ := hg
    obtain ⟨s', hs', ha⟩ := step_agrees (F := F) (e := e l.length) h g1 g2 g3
    obtain ⟨t, ht, hat⟩ := ih rfl (fun i hi' => hi i (List.mem_cons_of_mem _ hi')) g4 ha
    refine ⟨t, ?_, hat⟩
    show (RefCpu.exec F (e l.length) s).bind _ = _
    rw [hs']
    exact ht
  | jump p g hr ih =>
    obtain ⟨q, hq⟩ := hi _ (List.mem_cons_self ..)
    cases hq

end Verif.CoreRef

import Verif.Proofs.Exec
/-
C08: which registers and traps the decoder may produce, for every 32-bit word.
-/
namespace Verif.Props
open Verif.Isa Verif.Decode

/-- The opcode field of an instruction word. -/
def opcodeOf (w : Word) : BitVec 7 := w.extractLsb' 0 7
/-- The rd field of an instruction word. -/
def rdOf (w : Word) : Nat := (w.extractLsb' 7 5).toNat
/-- The rs1 field of an instruction word. -/
def rs1Of (w : Word) : Nat := (w.extractLsb' 15 5).toNat
/-- The rs2 field of an instruction word. -/
def rs2Of (w : Word) : Nat := (w.extractLsb' 20 5).toNat
/-- The funct5 field of an AMO word. -/
def funct5Of (w : Word) : BitVec 5 := w.extractLsb' 27 5

/-- The major opcodes the core implements: LUI AUIPC JAL JALR BRANCH LOAD STORE OP-IMM OP
MISC-MEM SYSTEM AMO OP-FP. -/
def knownOpcodes : List (BitVec 7) :=
  [0b0110111#7, 0b0010111#7, 0b1101111#7, 0b1100111#7, 0b1100011#7, 0b0000011#7, 0b0100011#7,
   0b0010011#7, 0b0110011#7, 0b0001111#7, 0b1110011#7, 0b0101111#7, 0b1010011#7]

/-- A Zicsr instruction (SYSTEM with funct3 1, 2, 3, 5, 6, 7). -/
def isCsrOp (w : Word) : Bool :=
  opcodeOf w == 0b1110011#7 && (w.getLsbD 12 || w.getLsbD 13)

theorem amoOp_of (w : Word) : (decodeFields w).amoOp = (funct5Of w).setWidth 7 := by
  apply BitVec.eq_of_getLsbD_eq
  intro i hi
  simp only [DecInst.amoOp, decodeFields, funct5Of, BitVec.getLsbD_ushiftRight,
    BitVec.getLsbD_extractLsb', BitVec.getLsbD_setWidth]
  by_cases h : i < 5
  · simp [h, hi, show 2 + i < 7 by omega]; congr 1; omega
  · simp [h, show ¬ 2 + i < 7 by omega]

/-- What the opcode switch does to the fields this file talks about. -/
theorem opcode_fields (w : Word) (u : DecInst) (hu : decodeOpcode w (decodeFields w) = u) :
    u.destAreg = rdOf w ∧ u.src2Areg = rs2Of w ∧
    (u.src1Areg = rs1Of w ∨ u.src1Areg = 0 ∧ opcodeOf w = 0b0110111#7) ∧
    u.func7 = (decodeFields w).func7 ∧
    (u.type = .amo ↔ opcodeOf w = 0b0101111#7) ∧
    (u.illegal = true ↔ opcodeOf w ∉ knownOpcodes ∨
      isCsrOp w = true ∧ (w.extractLsb' 20 12 = 0xc01#12 ∨ w.extractLsb' 20 12 = 0xc81#12)) ∧
    (u.illegal = true → u.destEn = false ∧ u.src1En = false ∧ u.src2En = false ∧
      u.type = .nop) := by
  subst hu
  have hf3 : ∀ i, i < 3 → (w.extractLsb' 12 3).getLsbD i = w.getLsbD (12 + i) := by
    intro i hi; simp [BitVec.getLsbD_extractLsb', hi]
  unfold decodeOpcode isCsrOp opcodeOf
  split
  case h_11 h =>
    rw [h]
    unfold decodeSystem
    simp only [decodeFields, hf3 0 (by decide), hf3 1 (by decide)]
    cases hc : (w.getLsbD (12 + 0) || w.getLsbD (12 + 1))
    · simp only [Bool.false_eq_true, if_false]
      have hc' : (w.getLsbD 12 || w.getLsbD 13) = false := hc
      have : (0b1110011#7 : BitVec 7) ∈ knownOpcodes := by decide
      simp only [hc', this]
      repeat' split
      all_goals simp [rdOf, rs2Of, rs1Of]
    · have hc' : (w.getLsbD 12 || w.getLsbD 13) = true := hc
      have hk : (0b1110011#7 : BitVec 7) ∈ knownOpcodes := by decide
      have h1 : (0xc01#12 : BitVec 12) ∉ knownCsr := by decide
      have h2 : (0xc81#12 : BitVec 12) ∉ knownCsr := by decide
      simp only [hc', hk, if_true]
      split
      · simp [rdOf, rs2Of, rs1Of]
        exact or_congr decide_eq_true_iff decide_eq_true_iff
      · rename_i hn
        have n1 : w.extractLsb' 20 12 ≠ 0xc01#12 := fun e => hn (by rw [e]; exact h1)
        have n2 : w.extractLsb' 20 12 ≠ 0xc81#12 := fun e => hn (by rw [e]; exact h2)
        simp [rdOf, rs2Of, rs1Of, n1, n2]
  case h_14 =>
    rename_i h1 h2 h3 h4 h5 h6 h7 h8 h9 h10 h11 h12 h13
    have : w.extractLsb' 0 7 ∉ knownOpcodes := by
      simp only [knownOpcodes, List.mem_cons, List.not_mem_nil, or_false, not_or]
      exact ⟨h1, h2, h3, h4, h5, h6, h7, h8, h9, h10, h11, h12, h13⟩
    simp only [decodeFields, this, not_false_eq_true, true_or, rdOf, rs2Of, rs1Of]
    simp
    exact h12
  all_goals
    rename_i h
    rw [h]
  case h_10 =>
    by_cases hf : (decodeFields w).func3 = 1#3
    · simp only [if_pos hf]; simp [decodeFields, rdOf, rs2Of, rs1Of, knownOpcodes]
    · simp only [if_neg hf]; simp [decodeFields, rdOf, rs2Of, rs1Of, knownOpcodes]
  case h_9 =>
    by_cases hf : (decodeFields w).func7 = 1#7
    · simp only [if_pos hf]
      cases (decodeFields w).func3.getLsbD 2 <;>
        simp [decodeFields, rdOf, rs2Of, rs1Of, knownOpcodes]
    · simp only [if_neg hf]; simp [decodeFields, rdOf, rs2Of, rs1Of, knownOpcodes]
  all_goals simp [decodeFields, rdOf, rs2Of, rs1Of, knownOpcodes]

/-- **C08, destinations.** For every word: a decoded instruction that writes a register
names a non-zero register, namely its rd field – except a read-modify-write AMO with
rd = x0, which writes the hidden register 32. -/
theorem C08_dest (w : Word) (h : (decode w).destEn = true) :
    (decode w).destAreg ≠ 0 ∧
    ((decode w).destAreg = rdOf w ∧ rdOf w < 32 ∨
     (decode w).destAreg = 32 ∧ rdOf w = 0 ∧ opcodeOf w = 0b0101111#7 ∧
       funct5Of w ≠ 2#5 ∧ funct5Of w ≠ 3#5) := by
  obtain ⟨hd, h2, h1, h7, hamo, -, -⟩ := opcode_fields w _ rfl
  have hlt : rdOf w < 32 := (w.extractLsb' 7 5).isLt
  have ha : (decodeOpcode w (decodeFields w)).amoOp = (funct5Of w).setWidth 7 := by
    rw [← amoOp_of]; simp only [DecInst.amoOp, h7]
  revert h
  unfold decode
  generalize decodeOpcode w (decodeFields w) = u at *
  have hc : ∀ k : BitVec 5, (u.amoOp = k.setWidth 7 ↔ funct5Of w = k) := by
    intro k; rw [ha]; revert k; generalize funct5Of w = f; revert f; decide
  have c2 := hc 2#5
  have c3 := hc 3#5
  unfold decodeFinish
  simp only
  split
  · rename_i hcond
    simp only [DecInst.amoOp] at hcond c2 c3
    intro _
    refine ⟨by simp, Or.inr ⟨by simp, by rw [← hd]; exact hcond.2.1, hamo.1 hcond.1, ?_, ?_⟩⟩
    · exact fun e => hcond.2.2.1 (c2.2 e)
    · exact fun e => hcond.2.2.2 (c3.2 e)
  · split
    · intro h; simp at h
    · rename_i hnz
      intro _
      exact ⟨hnz, Or.inl ⟨hd, hlt⟩⟩

/-- **C08, sources.** Source register numbers are the rs1/rs2 fields (LUI reads x0). -/
theorem C08_src (w : Word) :
    (decode w).src2Areg = rs2Of w ∧
    ((decode w).src1Areg = rs1Of w ∨ (decode w).src1Areg = 0 ∧ opcodeOf w = 0b0110111#7) ∧
    (decode w).src1Areg < 32 ∧ (decode w).src2Areg < 32 := by
  obtain ⟨-, h2, h1, -⟩ := opcode_fields w _ rfl
  obtain ⟨-, -, -, -, -, -, f7, f8, -⟩ := Exec.finish_fields (decodeOpcode w (decodeFields w))
  unfold decode
  rw [f7, f8]
  have l1 : rs1Of w < 32 := (w.extractLsb' 15 5).isLt
  have l2 : rs2Of w < 32 := (w.extractLsb' 20 5).isLt
  refine ⟨h2, h1, ?_, by omega⟩
  rcases h1 with h | h <;> omega

/-- **C08, traps.** A word is decoded to an illegal-instruction trap exactly when its major
opcode is not implemented or it is a CSR access to `time`/`timeh`; such an instruction reads
and writes no register. -/
theorem C08_illegal_iff (w : Word) :
    ((decode w).illegal = true ↔ opcodeOf w ∉ knownOpcodes ∨
      isCsrOp w = true ∧ (w.extractLsb' 20 12 = 0xc01#12 ∨ w.extractLsb' 20 12 = 0xc81#12)) ∧
    ((decode w).illegal = true → (decode w).destEn = false ∧ (decode w).src1En = false ∧
      (decode w).src2En = false) := by
  obtain ⟨-, -, -, -, -, hi, hn⟩ := opcode_fields w _ rfl
  obtain ⟨-, -, -, -, -, -, f7, f8, f9, f10, f11, f12, -⟩ :=
    Exec.finish_fields (decodeOpcode w (decodeFields w))
  unfold decode
  rw [f12, f9, f10]
  refine ⟨hi, fun h => ?_⟩
  obtain ⟨a, b, c, -⟩ := hn h
  refine ⟨?_, b, c⟩
  unfold decodeFinish
  simp only
  split <;> split <;> simp [a]

/-- **C08 (partial).** Full claim: every word that is not a supported instruction is decoded
to an illegal-instruction trap.  Proved: a word with an unimplemented major opcode traps, and
no instruction of the supported base/bit-manipulation set traps.  Missing (and false, see
`C08_reserved_not_trapped`): reserved encodings *inside* an implemented major opcode. -/
theorem C08_illegal_partial (w : Word) (h : opcodeOf w ∉ knownOpcodes) :
    (decode w).illegal = true := (C08_illegal_iff w).1.2 (Or.inl h)

/-- The full claim fails: OP with the reserved funct7 2 and funct3 0 is
executed as an ADD, and an access to an unimplemented CSR is a silent no-op. -/
theorem C08_reserved_not_trapped :
    (∃ w, opcodeOf w = 0b0110011#7 ∧ w.extractLsb' 25 7 = 0x02#7 ∧
      (decode w).illegal = false ∧ (decode w).destEn = true ∧
      execInt w 0#32 (fun _ => 3#32) = some 6#32) ∧
    (∃ w, isCsrOp w = true ∧ w.extractLsb' 20 12 = 0x7C0#12 ∧ (decode w).illegal = false ∧
      (decode w).type = .nop) :=
  ⟨⟨0x042081B3#32, by decide +kernel⟩, ⟨0x7C0090F3#32, by decide +kernel⟩⟩

/-- Every supported computational instruction is decoded as legal and writes exactly its rd
(and nothing if rd = x0). -/
theorem C08_writes_rd (ins : Instr) :
    (decode ins.encode).illegal = false ∧ (decode ins.encode).destEn = (ins.rd != 0) ∧
    (decode ins.encode).destAreg = ins.rd.toNat := by
  have key : ∀ (w : Word) (rd : BitVec 5), rdOf w = rd.toNat →
      opcodeOf w ∈ knownOpcodes → opcodeOf w ≠ 0b1110011#7 → opcodeOf w ≠ 0b0101111#7 →
      (decodeOpcode w (decodeFields w)).destEn = true →
      (decode w).illegal = false ∧ (decode w).destEn = (rd != 0) ∧
      (decode w).destAreg = rd.toNat := by
    intro w rd hrd hk hs ha hen
    have hil := (C08_illegal_iff w).1
    obtain ⟨hd, -, -, -, hamo, -, -⟩ := opcode_fields w _ rfl
    refine ⟨?_, ?_⟩
    · cases h : (decode w).illegal
      · rfl
      · rcases hil.1 h with h | h
        · exact absurd hk h
        · simp [isCsrOp, hs] at h
    · unfold decode
      generalize decodeOpcode w (decodeFields w) = u at *
      have hna : u.type ≠ .amo := fun h => ha (hamo.1 h)
      rw [hrd] at hd
      unfold decodeFinish
      simp only [hna, false_and, if_false]
      by_cases h0 : u.destAreg = 0
      · have : rd = 0 := by apply BitVec.eq_of_toNat_eq; rw [← hd, h0]; rfl
        rw [if_pos h0]
        exact ⟨by simp [this], hd⟩
      · have : rd ≠ 0 := by rintro rfl; exact h0 hd
        rw [if_neg h0]
        exact ⟨by rw [hen]; simpa using this, hd⟩
  cases ins <;>
    (refine key _ _ ?_ ?_ ?_ ?_ ?_) <;>
    simp only [Instr.encode, Instr.rd, rdOf, opcodeOf, decodeOpcode, EncLemmas.encR_opc,
      EncLemmas.encI_opc, EncLemmas.encU_opc, EncLemmas.encJ_opc, EncLemmas.encR_rd,
      EncLemmas.encI_rd, EncLemmas.encU_rd, EncLemmas.encJ_rd] <;> decide

/-- Non-trivial cases: `amoadd.w x0, x2, (x1)` uses the hidden register; `addi x5` writes x5. -/
example : (decode 0x0020A02F#32).destEn = true ∧ (decode 0x0020A02F#32).destAreg = 32 ∧
    (decode 0x00108293#32).destEn = true ∧ (decode 0x00108293#32).destAreg = 5 := by
  decide +kernel

end Verif.Props

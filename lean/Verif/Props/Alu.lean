import Verif.Proofs.Exec
/-
C01–C04: decode + operand selection + execution of every computational
instruction word yields the ISA value.  `Decode.execInt w pc x` is the value the
simulator's integer pipeline computes for word `w` at address `pc` when
architectural register `n` holds `x n`; `none` would be an `Assert` failure or
C++ undefined behaviour.
-/
namespace Verif.Props
open Verif.Isa Verif.Decode

/-- **C01.** Every RV32I computational instruction (OP, OP-IMM, LUI, AUIPC and the
link value of JAL/JALR) computes the ISA value, for all registers, immediates
and operand values. -/
theorem C01_rv32i (ins : Instr) (hi : ins.isRv32i = true) (pc : Word) (x : Nat → Word)
    (hx : x 0 = 0#32) : ∃ v, execInt ins.encode pc x = some v ∧ ins.Sem pc x v := by
  apply Exec.exec_sem ins pc x hx
  intro h
  cases ins with
  | r op rd rs1 rs2 =>
    rcases h.1 with h | h <;> subst h <;> simp [Instr.isRv32i, ROp.isBase] at hi
  | sh op rd rs1 s => have := h.1; subst this; simp [Instr.isRv32i, ShOp.isBase] at hi
  | _ => exact h

/-- `sub x3, x1, x2` with 5 and 7 gives -2; hypotheses of `C01_rv32i` hold. -/
example : (Instr.r .sub 3 1 2).isRv32i = true ∧
    execInt (Instr.r .sub 3 1 2).encode 0x1000#32
      (fun n => if n = 1 then 5#32 else if n = 2 then 7#32 else 0#32) = some 0xFFFFFFFE#32 := by
  decide +kernel

/-- `srai x3, x1, 4` on a negative number. -/
example : execInt (Instr.sh .srai 3 1 4).encode 0x1000#32
      (fun n => if n = 1 then 0x80000010#32 else 0#32) = some 0xF8000001#32 := by
  decide +kernel

/-- **C02 (partial).** Every Zba/Zbb/Zbs/Zbc instruction computes the value of the
bit-manipulation specification.  Missing from the full claim: rotations by zero
(`Exec.rotZero`), which the C++ code evaluates with an undefined shift; see
`C02_rotate_by_zero_undefined`. -/
theorem C02_zb_partial (ins : Instr) (_hi : ins.isZb = true) (pc : Word) (x : Nat → Word)
    (hx : x 0 = 0#32) (hr : ¬ Exec.rotZero ins x) :
    ∃ v, execInt ins.encode pc x = some v ∧ ins.Sem pc x v :=
  Exec.exec_sem ins pc x hx hr

/-- Every Zb* instruction other than `rol`, `ror`, `rori` is covered without exception. -/
theorem C02_zb_norotate (ins : Instr) (hi : ins.isZb = true)
    (h1 : ∀ rd rs1 rs2, ins ≠ .r .rol rd rs1 rs2) (h2 : ∀ rd rs1 rs2, ins ≠ .r .ror rd rs1 rs2)
    (h3 : ∀ rd rs1 s, ins ≠ .sh .rori rd rs1 s) (pc : Word) (x : Nat → Word) (hx : x 0 = 0#32) :
    ∃ v, execInt ins.encode pc x = some v ∧ ins.Sem pc x v := by
  apply C02_zb_partial ins hi pc x hx
  intro h
  cases ins with
  | r op rd rs1 rs2 =>
    rcases h.1 with h | h
    · exact h1 rd rs1 rs2 (by rw [h])
    · exact h2 rd rs1 rs2 (by rw [h])
  | sh op rd rs1 s => exact h3 rd rs1 s (by rw [h.1])
  | _ => exact h

/-- The full C02 claim is false of the code: a rotation whose amount is a multiple
of 32 evaluates a shift by 32, which C++ leaves undefined, although the ISA
defines the result (the operand itself). -/
theorem C02_rotate_by_zero_undefined :
    (∀ rd rs1 rs2 pc x, (x rs2.toNat).toNat % 32 = 0 →
      execInt (Instr.r .rol rd rs1 rs2).encode pc x = none ∧
      execInt (Instr.r .ror rd rs1 rs2).encode pc x = none) ∧
    (∀ rd rs1 pc x, execInt (Instr.sh .rori rd rs1 0).encode pc x = none) := by
  refine ⟨?_, ?_⟩
  · intro rd rs1 rs2 pc x h0
    have hs : (x rs2.toNat &&& 31#32).toNat = 0 := by rw [AluLemmas.shamt_eq]; exact h0
    refine ⟨?_, ?_⟩
    · obtain ⟨u, hu, ht, h3, h7, hpc, him, hs1, hs2⟩ := Exec.dec_r 0x30 rs2 rs1 rd 1
      have := Exec.exec_add _ pc x u hu ht
      simp only [Instr.encode, ROp.funct]
      rw [this, h3, h7, hpc, him, hs1, hs2]
      simp [Fu.aluAdd, CInt.shl, CInt.shr, hs]
    · obtain ⟨u, hu, ht, h3, h7, hpc, him, hs1, hs2⟩ := Exec.dec_r 0x30 rs2 rs1 rd 5
      have := Exec.exec_add _ pc x u hu ht
      simp only [Instr.encode, ROp.funct]
      rw [this, h3, h7, hpc, him, hs1, hs2]
      simp [Fu.aluAdd, CInt.shl, CInt.shr, hs]
  · intro rd rs1 pc x
    obtain ⟨u, hu, ht, h3, h7, hpc, him, hs1, himm⟩ :=
      Exec.dec_i (((0x30 : BitVec 7) ++ (0 : BitVec 5) : BitVec (7 + 5)).cast rfl) rs1 rd 5
    have := Exec.exec_add _ pc x u hu ht
    simp only [Instr.encode, ShOp.funct]
    rw [this, h3, h7, hpc, him, hs1, himm, EncLemmas.encI_f7]
    have hs := Exec.shamt_bits 0x30 0
    simp only [Bool.false_eq_true, if_false, if_true, Fu.aluAdd]
    rw [hs]
    simp [CInt.shl, CInt.shr]

/-- `clz x3, x1`, `clmulh`, `orc.b`, `rol` on concrete operands: hypotheses are met. -/
example : execInt (Instr.un .clz 3 1).encode 0#32 (fun n => if n = 1 then 0x00010000#32 else 0#32)
      = some 15#32 ∧
    execInt (Instr.r .clmulh 3 1 2).encode 0#32
      (fun n => if n = 1 then 0xFFFFFFFF#32 else if n = 2 then 3#32 else 0#32) = some 1#32 ∧
    execInt (Instr.un .orcb 3 1).encode 0#32 (fun n => if n = 1 then 0x00010080#32 else 0#32)
      = some 0x00FF00FF#32 ∧
    execInt (Instr.r .rol 3 1 2).encode 0#32
      (fun n => if n = 1 then 0x80000001#32 else if n = 2 then 4#32 else 0#32)
      = some 0x00000018#32 := by
  decide +kernel

/-- **C03.** MUL/MULH/MULHSU/MULHU return the low / high word of the exact integer
product. -/
theorem C03_mul (rd rs1 rs2 : BitVec 5) (pc : Word) (x : Nat → Word) :
    let a := x rs1.toNat
    let b := x rs2.toNat
    execInt (Instr.r .mul rd rs1 rs2).encode pc x = some (BitVec.ofInt 32 (a.toInt * b.toInt)) ∧
    execInt (Instr.r .mulh rd rs1 rs2).encode pc x =
      some (BitVec.ofInt 32 (a.toInt * b.toInt / 2 ^ 32)) ∧
    execInt (Instr.r .mulhsu rd rs1 rs2).encode pc x =
      some (BitVec.ofInt 32 (a.toInt * (b.toNat : Int) / 2 ^ 32)) ∧
    execInt (Instr.r .mulhu rd rs1 rs2).encode pc x =
      some (BitVec.ofNat 32 (a.toNat * b.toNat / 2 ^ 32)) := by
  intro a b
  have key : ∀ op : ROp, op.isMul = true →
      execInt (Instr.r op rd rs1 rs2).encode pc x = some (rSem op a b) := by
    intro op hm
    obtain ⟨u, hu, ht, h3, h7, hpc, him, hs1, hs2⟩ := Exec.dec_r op.funct.1 rs2 rs1 rd op.funct.2
    have : u.type = .mul := by
      rw [ht]; cases op <;> simp only [ROp.isMul, Bool.false_eq_true] at hm <;> rfl
    simp only [Instr.encode]
    rw [Exec.exec_mul _ _ _ u hu this, h3, hs1, hs2, Alu.mul_r op hm]
  refine ⟨?_, key .mulh rfl, key .mulhsu rfl, key .mulhu rfl⟩
  rw [key .mul rfl]
  congr 1
  show BitVec.ofNat 32 (a.toNat * b.toNat) = _
  rw [BitVec.ofInt_mul, BitVec.ofInt_toInt, BitVec.ofInt_toInt, BitVec.ofNat_mul]
  simp

/-- -1 * -1 and mixed signedness. -/
example : execInt (Instr.r .mulhsu 3 1 2).encode 0#32
      (fun n => if n = 1 then 0xFFFFFFFF#32 else if n = 2 then 0xFFFFFFFF#32 else 0#32)
      = some 0xFFFFFFFF#32 := by
  decide +kernel

/-- **C04.** DIV/DIVU/REM/REMU: truncating quotient and remainder, with the two
special cases of the ISA. -/
theorem C04_div (rd rs1 rs2 : BitVec 5) (pc : Word) (x : Nat → Word) :
    let a := x rs1.toNat
    let b := x rs2.toNat
    execInt (Instr.r .div rd rs1 rs2).encode pc x =
      some (if b.toInt = 0 then BitVec.ofInt 32 (-1) else BitVec.ofInt 32 (a.toInt.tdiv b.toInt)) ∧
    execInt (Instr.r .rem rd rs1 rs2).encode pc x =
      some (if b.toInt = 0 then a else BitVec.ofInt 32 (a.toInt.tmod b.toInt)) ∧
    execInt (Instr.r .divu rd rs1 rs2).encode pc x =
      some (if b.toNat = 0 then BitVec.ofNat 32 (2 ^ 32 - 1)
        else BitVec.ofNat 32 (a.toNat / b.toNat)) ∧
    execInt (Instr.r .remu rd rs1 rs2).encode pc x =
      some (if b.toNat = 0 then a else BitVec.ofNat 32 (a.toNat % b.toNat)) := by
  intro a b
  have key : ∀ op : ROp, op.isDiv = true →
      execInt (Instr.r op rd rs1 rs2).encode pc x = some (rSem op a b) := by
    intro op hm
    obtain ⟨u, hu, ht, h3, h7, hpc, him, hs1, hs2⟩ := Exec.dec_r op.funct.1 rs2 rs1 rd op.funct.2
    have : u.type = .div := by
      rw [ht]; cases op <;> simp only [ROp.isDiv, Bool.false_eq_true] at hm <;> rfl
    simp only [Instr.encode]
    rw [Exec.exec_div _ _ _ u hu this, h3, hs1, hs2, Alu.div_r op hm]
  exact ⟨key .div rfl, key .rem rfl, key .divu rfl, key .remu rfl⟩

/-- **C04, Euclid identity.** Quotient * divisor + remainder = dividend (mod 2^32), for
the signed and the unsigned pair, including division by zero and signed overflow. -/
theorem C04_euclid (rd rs1 rs2 : BitVec 5) (pc : Word) (x : Nat → Word) (q r qu ru : Word)
    (hq : execInt (Instr.r .div rd rs1 rs2).encode pc x = some q)
    (hr : execInt (Instr.r .rem rd rs1 rs2).encode pc x = some r)
    (hqu : execInt (Instr.r .divu rd rs1 rs2).encode pc x = some qu)
    (hru : execInt (Instr.r .remu rd rs1 rs2).encode pc x = some ru) :
    q * x rs2.toNat + r = x rs1.toNat ∧ qu * x rs2.toNat + ru = x rs1.toNat := by
  obtain ⟨h1, h2, h3, h4⟩ := C04_div rd rs1 rs2 pc x
  rw [h1] at hq; rw [h2] at hr; rw [h3] at hqu; rw [h4] at hru
  simp only [Option.some.injEq] at hq hr hqu hru
  generalize x rs1.toNat = a at *
  generalize x rs2.toNat = b at *
  constructor
  · by_cases hb : b.toInt = 0
    · rw [if_pos hb] at hq hr
      have : b = 0#32 := (Alu.toInt_eq_zero b).1 hb
      subst this; subst hr; simp
    · rw [if_neg hb] at hq hr
      rw [← hq, ← hr]
      have e : b = BitVec.ofInt 32 b.toInt := by simp
      conv => lhs; lhs; rhs; rw [e]
      rw [← BitVec.ofInt_mul, ← BitVec.ofInt_add, Int.tdiv_mul_add_tmod]
      simp
  · by_cases hb : b.toNat = 0
    · rw [if_pos hb] at hqu hru
      have : b = 0#32 := (Alu.toNat_eq_zero b).1 hb
      subst this; subst hru; simp
    · rw [if_neg hb] at hqu hru
      rw [← hqu, ← hru]
      have e : b = BitVec.ofNat 32 b.toNat := by simp
      conv => lhs; lhs; rhs; rw [e]
      rw [← BitVec.ofNat_mul, ← BitVec.ofNat_add, Nat.mul_comm, Nat.div_add_mod]
      simp

/-- The overflow and divide-by-zero corners, and an ordinary negative division. -/
example : execInt (Instr.r .div 3 1 2).encode 0#32
      (fun n => if n = 1 then 0x80000000#32 else if n = 2 then 0xFFFFFFFF#32 else 0#32)
      = some 0x80000000#32 ∧
    execInt (Instr.r .rem 3 1 2).encode 0#32
      (fun n => if n = 1 then 0xFFFFFFF9#32 else if n = 2 then 2#32 else 0#32)
      = some 0xFFFFFFFF#32 := by
  decide +kernel

end Verif.Props

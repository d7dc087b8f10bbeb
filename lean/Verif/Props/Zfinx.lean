import Verif.Proofs.Fp
import Verif.Props.RefCsr
import Verif.Props.DecodeLegal
/-
C84: single-precision arithmetic in integer registers.
-/
namespace Verif.Props
open Verif.Fp Verif.Fp.Spec Verif.Fp.Proofs

/-- C84: FCLASS sets exactly the bit of the operand's class. -/
theorem C84_classify (v : BitVec 32) : ∃ k < 10, classify v = 1#32 <<< k ∧ ∀ i < 32, Class i v ↔ i = k := by
  have h : ∀ s z f m q : Bool, (z && f) = false → ∃ k < 10, cls s z f m q = 1#32 <<< k := by decide +kernel
  obtain ⟨k, hk, he⟩ := h (sign v) (decide (expo v = 0#8)) (decide (expo v = 255#8)) (decide (frac v = 0#23))
    ((frac v).getLsbD 22) (by
      by_cases h : expo v = 0#8
      · rw [h]; rfl
      · simp [h])
  rw [← classify_cls] at he
  refine ⟨k, hk, he, fun i hi => ?_⟩
  rw [← classify_bit v i hi, he]
  have : ∀ k < 10, ∀ i < 32, (1#32 <<< k).getLsbD i = true ↔ i = k := by decide +kernel
  exact this k hk i hi

/-- C84: on every instruction of the list the floating-point unit computes the result, and so does the reference. -/
theorem C84_compute {F : SoftFloat} (hc : Compares F) (hs : Subtracts F) {a b v : BitVec 32} {f3 : BitVec 3} {f7 : BitVec 7}
    {x : BitVec 5} (c : BitVec 32) (h : Op F a b f3 f7 x v) :
    unit F f3 f7 x a b = some v ∧ refFp F 0x53#7 f3 f7 x a b c = .value v := by
  cases h with
  | add _ rm _ hr => obtain ⟨h1, h2⟩ := rounding_eq hr; simp [unit, refFp, refOpFp, h1, h2]
  | sub _ rm _ hr =>
    obtain ⟨h1, h2⟩ := rounding_eq hr; simp [unit, refFp, refOpFp, h1, h2, hs rm a b]
  | mul _ rm _ hr => obtain ⟨h1, h2⟩ := rounding_eq hr; simp [unit, refFp, refOpFp, h1, h2]
  | div _ rm _ hr => obtain ⟨h1, h2⟩ := rounding_eq hr; simp [unit, refFp, refOpFp, h1, h2]
  | sqrt _ rm hr => obtain ⟨h1, h2⟩ := rounding_eq hr; simp [unit, refFp, refOpFp, h1, h2]
  | toInt _ rm hr => obtain ⟨h1, h2⟩ := rounding_eq hr; simp [unit, refFp, refOpFp, h1, h2]
  | toUint _ rm hr => obtain ⟨h1, h2⟩ := rounding_eq hr; simp [unit, refFp, refOpFp, h1, h2]
  | ofInt _ rm hr => obtain ⟨h1, h2⟩ := rounding_eq hr; simp [unit, refFp, refOpFp, h1, h2]
  | ofUint _ rm hr => obtain ⟨h1, h2⟩ := rounding_eq hr; simp [unit, refFp, refOpFp, h1, h2]
  | sgnj _ _ h1 h2 =>
    obtain ⟨k1, k2⟩ := sgn_bit 0#3 a b _ rfl
    have := bits_unique h1 k1 (h2.trans k2.symm)
    subst this
    exact ⟨rfl, rfl⟩
  | sgnjn _ _ h1 h2 =>
    obtain ⟨k1, k2⟩ := sgn_bit 1#3 a b _ rfl
    have := bits_unique h1 k1 (h2.trans k2.symm)
    subst this
    exact ⟨rfl, rfl⟩
  | sgnjx _ _ h1 h2 =>
    obtain ⟨k1, k2⟩ := sgn_bit 2#3 a b _ rfl
    have := bits_unique h1 k1 (h2.trans k2.symm)
    subst this
    exact ⟨rfl, rfl⟩
  | eq _ _ h => have := cmp_bool (hc.eq a b) h; subst this; exact ⟨rfl, rfl⟩
  | lt _ _ h => have := cmp_bool (hc.lt a b) h; subst this; exact ⟨rfl, rfl⟩
  | le _ _ h => have := cmp_bool (hc.le a b) h; subst this; exact ⟨rfl, rfl⟩
  | min _ _ h => have := smaller_unique h (fmin_smaller hc a b); subst this; exact ⟨rfl, rfl⟩
  | max _ _ h => have := larger_unique h (fmax_larger hc a b); subst this; exact ⟨rfl, rfl⟩
  | cls _ h =>
    have : v = classify a := by
      apply BitVec.eq_of_getLsbD_eq
      intro i hi
      rw [Bool.eq_iff_iff, h i hi, classify_bit a i hi]
    subst this
    exact ⟨rfl, rfl⟩

theorem unit_rs2 (F : SoftFloat) (f3 : BitVec 3) {f7 : BitVec 7} (x : BitVec 5) (a b b' : BitVec 32)
    (h : f7 = 0x60#7 ∨ f7 = 0x68#7 ∨ f7 = 0x2C#7 ∨ f7 = 0x70#7) : unit F f3 f7 x a b = unit F f3 f7 x a b' := by
  rcases h with h | h | h | h <;> subst h <;> rfl

theorem finish_fp {u : Decode.DecInst} (h : u.type = .fp) :
    Decode.decodeFinish u = { u with isRet := false, destEn := if u.destAreg = 0 then false else u.destEn } := by
  have d1 : ¬ Decode.InstType.fp = .jalr := by decide
  have d2 : ¬ Decode.InstType.fp = .amo := by decide
  unfold Decode.decodeFinish
  simp only [h, d1, d2, decide_false, Bool.false_and, false_and, if_false]
  split <;> rfl

theorem fp_decode {w : BitVec 32} (hop : w.extractLsb' 0 7 = 0x53#7) :
    let u := Decode.decode w
    u.type = .fp ∧ u.func3 = w.extractLsb' 12 3 ∧ u.func7 = w.extractLsb' 25 7 ∧ u.imm = (w.extractLsb' 20 5).setWidth 32 ∧
      u.destAreg = (w.extractLsb' 7 5).toNat ∧ u.src1Areg = (w.extractLsb' 15 5).toNat ∧
      u.src2Areg = (w.extractLsb' 20 5).toNat ∧ u.src1En = true ∧
      (u.destEn = if u.destAreg = 0 then false else true) ∧ u.illegal = false ∧
      (u.src2En = false → u.func7 = 0x60#7 ∨ u.func7 = 0x68#7 ∨ u.func7 = 0x2C#7 ∨ u.func7 = 0x70#7) := by
  have hd : Decode.decodeOpcode w (Decode.decodeFields w) = { Decode.decodeFields w with
      destEn := true
      src1En := true
      src2IsImm := false
      src2En := !(w.extractLsb' 25 7 == 0x60#7 || w.extractLsb' 25 7 == 0x68#7 ||
        w.extractLsb' 25 7 == 0x2C#7 || w.extractLsb' 25 7 == 0x70#7)
      imm := (w.extractLsb' 20 5).setWidth 32
      type := .fp } := by
    unfold Decode.decodeOpcode
    rw [hop]
    rfl
  dsimp only
  unfold Decode.decode
  rw [hd, finish_fp rfl]
  refine ⟨rfl, rfl, rfl, rfl, rfl, rfl, rfl, rfl, rfl, rfl, ?_⟩
  intro h
  have h : (!(w.extractLsb' 25 7 == 0x60#7 || w.extractLsb' 25 7 == 0x68#7 ||
        w.extractLsb' 25 7 == 0x2C#7 || w.extractLsb' 25 7 == 0x70#7)) = false := h
  show w.extractLsb' 25 7 = _ ∨ w.extractLsb' 25 7 = _ ∨ w.extractLsb' 25 7 = _ ∨ w.extractLsb' 25 7 = _
  simp only [Bool.not_eq_false', Bool.or_eq_true, beq_iff_eq] at h
  rcases h with ((h | h) | h) | h
  · exact Or.inl h
  · exact Or.inr (Or.inl h)
  · exact Or.inr (Or.inr (Or.inl h))
  · exact Or.inr (Or.inr (Or.inr h))

section
open Verif.Csr Verif.Csr.Spec
open Verif.RefCpu (Env exec zero0 clear)
open Verif.RefCpu.Spec
open Verif.RefCpu.Proofs

/-- C84: every single-precision instruction of the list executes alike on both sides.  The core decodes it as a
floating-point operation with the register fields of the word, its unit computes the architectural result from the source
registers (whatever arrives for a second source that is not read), and the reference writes that result to `rd`, changes no
other register, no CSR and no memory, and continues at the next word. -/
theorem C84_instruction {F : SoftFloat} (hF : Compares F) (hS : Subtracts F) {e : Env} {c : Csr.State} {s : RefCpu.State}
    {w v : BitVec 32}
    (hc : Csr.Spec.Reach c) (hs : Same c s) (hn : c.interruptReq = false) (ht : TimerSync e s) (h0 : s.gpr 0 = 0#32)
    (hw : Fetches e s w) (hop : w.extractLsb' 0 7 = 0x53#7)
    (hv : Op F (s.gpr (w.extractLsb' 15 5).toNat) (s.gpr (w.extractLsb' 20 5).toNat) (w.extractLsb' 12 3) (w.extractLsb' 25 7)
      (w.extractLsb' 20 5) v) :
    let u := Decode.decode w
    u.type = .fp ∧ u.illegal = false ∧ u.src1En = true ∧
    (∀ b, (u.src2En = true → b = s.gpr u.src2Areg) →
      unit F u.func3 u.func7 (u.imm.setWidth 5) (s.gpr u.src1Areg) b = some v) ∧
    ∃ s', exec F e s = some s' ∧ Same c s' ∧ (∀ n, s'.gpr n = if u.destEn = true ∧ n = u.destAreg then v else s.gpr n) ∧
      s'.pc = s.pc + 4#32 ∧ s'.mem = { s.mem with store := false } := by
  have hne : w.extractLsb' 0 7 ≠ 0x73#7 := by rw [hop]; decide
  have hcons : s.file .sip = s.file .mip &&& sieMask := by
    rw [hs.file]; exact ((Csr.Proofs.inv_iff _).2 (C27_views_consistent hc)).ip
  have hi : RefCpu.evalIrq s = noIrq := by rw [evalIrq_eq hs]; exact irq_none hn
  obtain ⟨d1, d2, d3, d4, d5, d6, d7, d8, d9, d10, d11⟩ := fp_decode hop
  obtain ⟨k1, k2⟩ := C84_compute hF hS (s.gpr (w.extractLsb' 27 5).toNat) hv
  dsimp only
  refine ⟨d1, d10, d8, ?_, ?_⟩
  · intro b hb
    have hsel : (Decode.decode w).imm.setWidth 5 = w.extractLsb' 20 5 := by
      rw [d4]
      generalize w.extractLsb' 20 5 = z
      revert z; decide
    rw [d2, d3, hsel, d6]
    cases h2 : (Decode.decode w).src2En
    · rw [← d3, unit_rs2 F _ _ _ b (s.gpr (w.extractLsb' 20 5).toNat) (d11 h2), d3]
      exact k1
    · rw [hb h2, d7]
      exact k1
  · obtain ⟨n1, n2, n3, n4, n5⟩ := not_special (w := w) (Or.inl hne)
    have hx : exec F e s = some (zero0 (RefCpu.fpInst F { clear s with inst := w, irq := noIrq })) := by
      rw [fetch_word hw n1, riscv_sync (s := { clear s with inst := w }) ht hcons rfl rfl n5]
      have he : RefCpu.evalIrq { clear s with inst := w } = noIrq := hi
      rw [he]
      rw [if_neg (show ¬ (RefCpu.asy { clear s with inst := w, irq := noIrq } = true ∨ w = RefCpu.INST_ECALL) by
        rintro (h | h)
        · rw [asy_quiet rfl rfl rfl n2 n3 n4] at h
          exact absurd h (by decide)
        · exact n2 h)]
      dsimp only
      rw [if_neg hne, if_neg (by rw [hop]; decide), if_pos (Or.inl hop)]
      rfl
    refine ⟨_, hx, ?_⟩
    have hfp : RefCpu.fpInst F { clear s with inst := w, irq := noIrq } =
        { clear s with
          inst := w
          irq := noIrq
          gpr := Ref.wr s.gpr (w.extractLsb' 7 5).toNat v
          pc := s.pc + 4#32 } := by
      unfold RefCpu.fpInst
      dsimp only
      rw [hop]
      have k : refFp F 0x53#7 (w.extractLsb' 12 3) (w.extractLsb' 25 7) (w.extractLsb' 20 5)
        ((clear s).gpr (w.extractLsb' 15 5).toNat) ((clear s).gpr (w.extractLsb' 20 5).toNat)
        ((clear s).gpr (w.extractLsb' 27 5).toNat) = .value v := k2
      rw [k]
      rfl
    rw [hfp]
    refine ⟨⟨hs.file, hs.priv⟩, ?_, rfl, rfl⟩
    intro n
    rw [d9, d5]
    show Ref.wr (Ref.wr s.gpr (w.extractLsb' 7 5).toNat v) 0 0#32 n = _
    generalize (w.extractLsb' 7 5).toNat = d
    by_cases hn0 : n = 0
    · subst hn0
      by_cases hd : d = 0
      · simp [Ref.wr, hd, h0]
      · simp [Ref.wr, h0, Ne.symm hd]
    · by_cases hd : d = 0
      · subst hd
        simp [Ref.wr, hn0]
      · simp [Ref.wr, hn0, hd]

end

/-- C84: the instructions without rounding have a result for all operands. -/
theorem C84_defined {F : SoftFloat} (hF : Compares F) (a b : BitVec 32) (x : BitVec 5) :
    (∀ f3 : BitVec 3, f3.toNat ≤ 2 → ∃ v, Op F a b f3 0x10#7 x v) ∧
    (∀ f3 : BitVec 3, f3.toNat ≤ 2 → ∃ v, Op F a b f3 0x50#7 x v) ∧
    (∀ f3 : BitVec 3, f3.toNat ≤ 1 → ∃ v, Op F a b f3 0x14#7 x v) ∧ ∃ v, Op F a b 1#3 0x70#7 0#5 v := by
  have c3 : ∀ f3 : BitVec 3, f3.toNat ≤ 2 → f3 = 0#3 ∨ f3 = 1#3 ∨ f3 = 2#3 := by decide
  have c2 : ∀ f3 : BitVec 3, f3.toNat ≤ 1 → f3 = 0#3 ∨ f3 = 1#3 := by decide
  have em : ∀ P : Prop, ∃ v : BitVec 32, (v = 1#32 ∧ P) ∨ (v = 0#32 ∧ ¬ P) := by
    intro P
    by_cases h : P
    · exact ⟨1#32, Or.inl ⟨rfl, h⟩⟩
    · exact ⟨0#32, Or.inr ⟨rfl, h⟩⟩
  refine ⟨fun f3 h => ?_, fun f3 h => ?_, fun f3 h => ?_, ⟨_, .cls _ (fun i hi => classify_bit a i hi)⟩⟩
  · rcases c3 f3 h with rfl | rfl | rfl
    · obtain ⟨k1, k2⟩ := sgn_bit 0#3 a b _ rfl
      exact ⟨_, .sgnj x _ k1 k2⟩
    · obtain ⟨k1, k2⟩ := sgn_bit 1#3 a b _ rfl
      exact ⟨_, .sgnjn x _ k1 k2⟩
    · obtain ⟨k1, k2⟩ := sgn_bit 2#3 a b _ rfl
      exact ⟨_, .sgnjx x _ k1 k2⟩
  · rcases c3 f3 h with rfl | rfl | rfl
    · obtain ⟨v, h⟩ := em (¬ NaN a ∧ ¬ NaN b ∧ key a ≤ key b); exact ⟨v, .le x v h⟩
    · obtain ⟨v, h⟩ := em (¬ NaN a ∧ ¬ NaN b ∧ key a < key b); exact ⟨v, .lt x v h⟩
    · obtain ⟨v, h⟩ := em (¬ NaN a ∧ ¬ NaN b ∧ key a = key b); exact ⟨v, .eq x v h⟩
  · rcases c2 f3 h with rfl | rfl
    · exact ⟨_, .min x _ (fmin_smaller hF a b)⟩
    · exact ⟨_, .max x _ (fmax_larger hF a b)⟩

namespace RefRun
open CsrRun
open Verif.RefCpu (Env exec)
open Verif.RefCpu.Spec

/-- A library that compares as it should (and does no arithmetic). -/
def cmpFloat : SoftFloat :=
  { noFloat with
    eq := fun a b => !isNan a && !isNan b && decide (key a = key b)
    lt := fun a b => !isNan a && !isNan b && decide (key a < key b)
    le := fun a b => !isNan a && !isNan b && decide (key a ≤ key b) }

theorem cmpFloat_compares : Compares cmpFloat := by
  have h : ∀ v, (!isNan v) = true ↔ ¬ NaN v := fun v => by
    rw [← isNan_iff]; simp
  refine ⟨fun a b => ?_, fun a b => ?_, fun a b => ?_⟩ <;>
    simp only [cmpFloat, Bool.and_eq_true, h, decide_eq_true_iff, and_assoc]

theorem cmpFloat_subtracts : Subtracts cmpFloat := fun _ _ _ => rfl

/-- FCLASS of minus infinity and of a signalling NaN. -/
example : classify 0xff800000#32 = 1#32 ∧ Class 0 0xff800000#32 ∧ classify 0x7f800001#32 = 256#32 := by
  refine ⟨by decide, ?_, by decide⟩
  rw [← classify_bit _ _ (by decide)]
  decide

/-- `fmin.s`-like on the two zeros: -0; `fmax.s` of a NaN and 1: 1. -/
example : unit cmpFloat 0#3 0x14#7 0#5 0#32 0x80000000#32 = some 0x80000000#32 ∧
    unit cmpFloat 1#3 0x14#7 0#5 0x7fc00000#32 0x3f800000#32 = some 0x3f800000#32 := by decide

/-- `fmin.s a0, sp, zero` in the user program: 2.0 and 0.0. -/
example : ∃ s' v, exec cmpFloat env (at_ user 100#64 0x28010553#32) = some s' ∧ Same user s' ∧ s'.gpr 10 = v ∧
    Smaller 0x40000000#32 0#32 v := by
  obtain ⟨v, hv⟩ := ((C84_defined cmpFloat_compares 0x40000000#32 0#32 0#5).2.2.1 0#3 (by decide))
  obtain ⟨h1, h2, h3, h4, s', h5, h6, h7, _⟩ := C84_instruction (F := cmpFloat) cmpFloat_compares cmpFloat_subtracts (e := env) (c := user)
    (s := at_ user 100#64 0x28010553#32) (w := 0x28010553#32) (v := v) (reach_linux _ _ _) ⟨rfl, rfl⟩
    (by decide +kernel) (by unfold TimerSync; decide +kernel) rfl
    (fetches (by decide +kernel) (by decide +kernel) (by decide +kernel)) (by decide) hv
  refine ⟨s', v, h5, h6, ?_, ?_⟩
  · rw [h7 10, if_pos (by decide)]
  · cases hv
    assumption

/-- C84: encodings outside the list do not trap.  The decoder takes every word with the OP-FP opcode for a floating-point
operation and none for illegal, while the unit has no result for, e.g., the conversion with rs2 = 2: the program aborts
(in a build with assertions). -/
theorem C84_reserved_abort : (∀ w : BitVec 32, w.extractLsb' 0 7 = 0x53#7 → (Decode.decode w).illegal = false ∧
    (Decode.decode w).type = .fp) ∧
    ∀ (F : SoftFloat) (a b : BitVec 32), unit F (Decode.decode 0xc0200053#32).func3 (Decode.decode 0xc0200053#32).func7
      ((Decode.decode 0xc0200053#32).imm.setWidth 5) a b = none := by
  refine ⟨fun w h => ?_, fun F a b => ?_⟩
  · obtain ⟨d1, _, _, _, _, _, _, _, _, d10, _⟩ := fp_decode h
    exact ⟨d10, d1⟩
  · have h1 : (Decode.decode 0xc0200053#32).func3 = 0#3 := by decide
    have h2 : (Decode.decode 0xc0200053#32).func7 = 0x60#7 := by decide
    have h3 : (Decode.decode 0xc0200053#32).imm.setWidth 5 = 2#5 := by decide
    rw [h1, h2, h3]
    rfl

/-- C84: the fused multiply-adds, which the reference executes, are illegal in the core. -/
theorem C84_fused_illegal : ∀ op ∈ [0x43#7, 0x47#7, 0x4b#7, 0x4f#7], (∀ w : BitVec 32, w.extractLsb' 0 7 = op →
      (Decode.decode w).illegal = true) ∧
    ∀ (F : SoftFloat) (f7 : BitVec 7) (x : BitVec 5) (a b c : BitVec 32), ∃ v, refFp F op 0#3 f7 x a b c = .value v := by
  intro op hop
  refine ⟨fun w hw => ?_, fun F f7 x a b c => ?_⟩
  · apply C08_illegal_partial
    show w.extractLsb' 0 7 ∉ knownOpcodes
    rw [hw]
    have : ∀ op ∈ [0x43#7, 0x47#7, 0x4b#7, 0x4f#7], op ∉ knownOpcodes := by decide
    exact this op hop
  · simp only [List.mem_cons, List.not_mem_nil, or_false] at hop
    rcases hop with rfl | rfl | rfl | rfl <;> exact ⟨_, rfl⟩

/-- C84: bits of the format field and the reserved rounding modes are ignored by the core: a double-precision addition runs as
a single-precision one, rounding mode 5 is passed to the library; the reference does not move in either case. -/
theorem C84_format_ignored (F : SoftFloat) (x : BitVec 5) (a b c : BitVec 32) :
    unit F 0#3 0x01#7 x a b = unit F 0#3 0x00#7 x a b ∧ refFp F 0x53#7 0#3 0x01#7 x a b c = .stuck ∧
    unit F 5#3 0x00#7 x a b = some (F.add 5 a b) ∧ refFp F 0x53#7 5#3 0x00#7 x a b c = .stuck :=
  ⟨rfl, rfl, rfl, rfl⟩

end RefRun
end Verif.Props

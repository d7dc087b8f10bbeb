import Verif.Proofs.Imm
import Verif.Spec.FetchStream
import Verif.Model.RefIM

/-! Predecoding and the checker against the instruction encodings. -/
namespace Verif.Front
open Verif.FetchStream
open Verif.Isa
open Verif.AluLemmas

theorem signExt_bit (v m n : W32) (k : Nat) (hm : ∀ i < 32, m.getLsbD i = decide (i = k))
    (hn : ∀ i < 32, n.getLsbD i = decide (k ≤ i)) (hmn : -m = n) (hk : k < 32)
    (hv : ∀ i, k < i → i < 32 → v.getLsbD i = false) (i : Nat) (hi : i < 32) :
    ((v ^^^ m) - m).getLsbD i = if i < k then v.getLsbD i else v.getLsbD k := by
  cases hb : v.getLsbD k with
  | false =>
    have hz : v &&& m = 0#32 := by
      apply BitVec.eq_of_getLsbD_eq
      intro j hj
      rw [BitVec.getLsbD_and, hm j hj]
      by_cases h : j = k
      · subst h; simp [hb]
      · simp [h]
    have hx : v ^^^ m = v + m := by
      rw [BitVec.add_eq_or_of_and_eq_zero v m hz]
      apply BitVec.eq_of_getLsbD_eq
      intro j hj
      rw [BitVec.getLsbD_xor, BitVec.getLsbD_or, hm j hj]
      by_cases h : j = k
      · subst h; simp [hb]
      · simp [h]
    rw [hx, BitVec.add_sub_cancel]
    by_cases h : i < k
    · simp [h]
    · rw [if_neg h]
      by_cases h' : i = k
      · rw [h', hb]
      · exact hv i (by omega) hi
  | true =>
    have hz : (v ^^^ m) &&& n = 0#32 := by
      apply BitVec.eq_of_getLsbD_eq
      intro j hj
      rw [BitVec.getLsbD_and, BitVec.getLsbD_xor, hm j hj, hn j hj]
      by_cases h : j = k
      · subst h; simp [hb]
      · by_cases h' : k ≤ j
        · simp [h, hv j (by omega) hj]
        · simp [h']
    rw [BitVec.sub_eq_add_neg, hmn, BitVec.add_eq_or_of_and_eq_zero _ _ hz, BitVec.getLsbD_or, BitVec.getLsbD_xor,
      hm i hi, hn i hi]
    by_cases h : i < k
    · simp [h, show ¬ k ≤ i by omega, show ¬ i = k by omega]
    · simp [h, show k ≤ i by omega]

/-- A field of an instruction put at another place. -/
theorem field_bit (x mask : W32) (a s w i : Nat) (hi : i < 32) (hm : ∀ j < 32, mask.getLsbD j = decide (j < w)) :
    (((x >>> a) &&& mask) <<< s).getLsbD i = (decide (s ≤ i ∧ i - s < w) && x.getLsbD (a + (i - s))) := by
  rw [BitVec.getLsbD_shiftLeft, BitVec.getLsbD_and, BitVec.getLsbD_ushiftRight, hm _ (by omega)]
  by_cases h : i < s
  · simp [h, show ¬ s ≤ i by omega]
  · simp [hi, h, show s ≤ i by omega, Bool.and_comm]

theorem jal_imm (w : W32) :
    signExtendU32 (((((w >>> 31) &&& 0x1#32) <<< 20) ||| (((w >>> 12) &&& 0xff#32) <<< 12) |||
      (((w >>> 20) &&& 0x1#32) <<< 11) ||| (((w >>> 21) &&& 0x3ff#32) <<< 1))) 21 = ofBits (immJBit w) := by
  apply eq_ofBits
  intro i hi
  have h1 : ∀ j < 32, (0x1#32).getLsbD j = decide (j < 1) := by decide
  have h8 : ∀ j < 32, (0xff#32).getLsbD j = decide (j < 8) := by decide
  have h10 : ∀ j < 32, (0x3ff#32).getLsbD j = decide (j < 10) := by decide
  have hb : ∀ j < 32, ((((w >>> 31) &&& 0x1#32) <<< 20) ||| (((w >>> 12) &&& 0xff#32) <<< 12) |||
      (((w >>> 20) &&& 0x1#32) <<< 11) ||| (((w >>> 21) &&& 0x3ff#32) <<< 1)).getLsbD j =
      ((decide (20 ≤ j ∧ j - 20 < 1) && w.getLsbD (31 + (j - 20))) ||
        (decide (12 ≤ j ∧ j - 12 < 8) && w.getLsbD (12 + (j - 12))) ||
        (decide (11 ≤ j ∧ j - 11 < 1) && w.getLsbD (20 + (j - 11))) ||
        (decide (1 ≤ j ∧ j - 1 < 10) && w.getLsbD (21 + (j - 1)))) := by
    intro j hj
    rw [BitVec.getLsbD_or, BitVec.getLsbD_or, BitVec.getLsbD_or, field_bit _ _ _ _ _ _ hj h1,
      field_bit _ _ _ _ _ _ hj h8, field_bit _ _ _ _ _ _ hj h1, field_bit _ _ _ _ _ _ hj h10]
  rw [signExtendU32, signExt_bit _ (1#32 <<< 20) 0xFFF00000#32 20 (by decide) (by decide) (by decide) (by decide) _ i hi]
  · by_cases h : i < 20
    · rw [if_pos h, hb i hi, immJBit]
      have hc : i = 0 ∨ (1 ≤ i ∧ i ≤ 10) ∨ i = 11 ∨ (12 ≤ i ∧ i ≤ 19) := by omega
      rcases hc with h | h | h | h
      · subst h; simp
      · rw [if_neg (by omega : ¬ i = 0), if_pos (by omega : i ≤ 10)]
        simp [show ¬ 20 ≤ i by omega, show ¬ 12 ≤ i by omega, show ¬ 11 ≤ i by omega, show 1 ≤ i by omega,
          show i - 1 < 10 by omega]
      · subst h; simp
      · rw [if_neg (by omega : ¬ i = 0), if_neg (by omega : ¬ i ≤ 10), if_neg (by omega : ¬ i = 11),
          if_pos (by omega : i ≤ 19)]
        simp [show ¬ 20 ≤ i by omega, show 12 ≤ i by omega, show ¬ i - 11 < 1 by omega, show ¬ i - 1 < 10 by omega,
          show i - 12 < 8 by omega]
    · rw [if_neg h, hb 20 (by decide), immJBit, if_neg (by omega : ¬ i = 0), if_neg (by omega : ¬ i ≤ 10),
        if_neg (by omega : ¬ i = 11), if_neg (by omega : ¬ i ≤ 19)]
      simp
  · intro j h1' h2'
    rw [hb j h2']
    simp [show ¬ j - 20 < 1 by omega, show ¬ j - 12 < 8 by omega, show ¬ j - 11 < 1 by omega,
      show ¬ j - 1 < 10 by omega]

theorem branch_imm (w : W32) :
    signExtendU32 (((((w >>> 31) &&& 0x1#32) <<< 12) ||| (((w >>> 7) &&& 0x1#32) <<< 11) |||
      (((w >>> 25) &&& 0x3f#32) <<< 5) ||| (((w >>> 8) &&& 0xf#32) <<< 1))) 13 = ofBits (immBBit w) := by
  apply eq_ofBits
  intro i hi
  have h1 : ∀ j < 32, (0x1#32).getLsbD j = decide (j < 1) := by decide
  have h6 : ∀ j < 32, (0x3f#32).getLsbD j = decide (j < 6) := by decide
  have h4 : ∀ j < 32, (0xf#32).getLsbD j = decide (j < 4) := by decide
  have hb : ∀ j < 32, ((((w >>> 31) &&& 0x1#32) <<< 12) ||| (((w >>> 7) &&& 0x1#32) <<< 11) |||
      (((w >>> 25) &&& 0x3f#32) <<< 5) ||| (((w >>> 8) &&& 0xf#32) <<< 1)).getLsbD j =
      ((decide (12 ≤ j ∧ j - 12 < 1) && w.getLsbD (31 + (j - 12))) ||
        (decide (11 ≤ j ∧ j - 11 < 1) && w.getLsbD (7 + (j - 11))) ||
        (decide (5 ≤ j ∧ j - 5 < 6) && w.getLsbD (25 + (j - 5))) ||
        (decide (1 ≤ j ∧ j - 1 < 4) && w.getLsbD (8 + (j - 1)))) := by
    intro j hj
    rw [BitVec.getLsbD_or, BitVec.getLsbD_or, BitVec.getLsbD_or, field_bit _ _ _ _ _ _ hj h1,
      field_bit _ _ _ _ _ _ hj h1, field_bit _ _ _ _ _ _ hj h6, field_bit _ _ _ _ _ _ hj h4]
  rw [signExtendU32, signExt_bit _ (1#32 <<< 12) 0xFFFFF000#32 12 (by decide) (by decide) (by decide) (by decide) _ i hi]
  · by_cases h : i < 12
    · rw [if_pos h, hb i hi, immBBit]
      have hc : i = 0 ∨ (1 ≤ i ∧ i ≤ 4) ∨ (5 ≤ i ∧ i ≤ 10) ∨ i = 11 := by omega
      rcases hc with h | h | h | h
      · subst h; simp
      · rw [if_neg (by omega : ¬ i = 0), if_pos (by omega : i ≤ 4)]
        simp [show ¬ 12 ≤ i by omega, show ¬ 11 ≤ i by omega, show ¬ 5 ≤ i by omega, show 1 ≤ i by omega,
          show i - 1 < 4 by omega]
      · rw [if_neg (by omega : ¬ i = 0), if_neg (by omega : ¬ i ≤ 4), if_pos (by omega : i ≤ 10)]
        simp [show ¬ 12 ≤ i by omega, show ¬ 11 ≤ i by omega, show 5 ≤ i by omega, show ¬ i - 1 < 4 by omega,
          show i - 5 < 6 by omega]
      · subst h; simp
    · rw [if_neg h, hb 12 (by decide), immBBit, if_neg (by omega : ¬ i = 0), if_neg (by omega : ¬ i ≤ 4),
        if_neg (by omega : ¬ i ≤ 10), if_neg (by omega : ¬ i = 11)]
      simp
  · intro j h1' h2'
    rw [hb j h2']
    simp [show ¬ j - 12 < 1 by omega, show ¬ j - 11 < 1 by omega, show ¬ j - 5 < 6 by omega,
      show ¬ j - 1 < 4 by omega]

theorem opcode_eq (w : W32) (c : BitVec 7) : w &&& 0x7f#32 = c.setWidth 32 ↔ opcode w = c := by
  have h7 : ∀ j < 32, (0x7f#32).getLsbD j = decide (j < 7) := by decide
  have : w &&& 0x7f#32 = (opcode w).setWidth 32 := by
    apply BitVec.eq_of_getLsbD_eq
    intro j hj
    rw [BitVec.getLsbD_and, h7 j hj]
    by_cases h : j < 7
    · simp [opcode, h, hj]
    · simp [h]
      intro _; exact BitVec.getLsbD_of_ge _ _ (by omega)
  rw [this]
  constructor
  · intro h
    have := congrArg (BitVec.setWidth 7) h
    simpa using this
  · rintro rfl; rfl

theorem predecode_eq (w pc : W32) :
    predecode w pc = if opcode w = 0b1101111#7 then (.jal, jalTarget pc w)
      else if opcode w = 0b1100011#7 then (.direct, branchTarget pc w)
      else if opcode w = 0b1100111#7 then (.jalr, 0#32) else (.non, 0#32) := by
  by_cases h : w = 0#32 ∨ w = instNop
  · rcases h with h | h
    · subst h; simp [predecode, opcode]
    · subst h; simp [predecode, opcode, instNop]
  · have e1 : (w &&& 0x7f#32 = 0b1101111#32) = (opcode w = 0b1101111#7) := propext (opcode_eq w 0b1101111#7)
    have e2 : (w &&& 0x7f#32 = 0b1100011#32) = (opcode w = 0b1100011#7) := propext (opcode_eq w 0b1100011#7)
    have e3 : (w &&& 0x7f#32 = 0b1100111#32) = (opcode w = 0b1100111#7) := propext (opcode_eq w 0b1100111#7)
    rw [predecode, if_neg h]
    simp only [e1, e2, e3, jal_imm, branch_imm]
    rfl

/-! ### Behind the group -/

theorem line_mask (x : W32) (l : Nat) :
    (x &&& ~~~(BitVec.ofNat 32 (2 ^ l) - 1#32)) = (x >>> l) <<< l := by
  have e : BitVec.ofNat 32 (2 ^ l) - 1#32 = BitVec.ofNat 32 (2 ^ l - 1) := by
    apply BitVec.eq_of_toNat_eq
    have := Nat.one_le_two_pow (n := l)
    simp only [BitVec.toNat_sub, BitVec.toNat_ofNat]
    omega
  rw [e]
  apply BitVec.eq_of_getLsbD_eq
  intro i hi
  rw [BitVec.getLsbD_and, BitVec.getLsbD_not, BitVec.getLsbD_ofNat, Nat.testBit_two_pow_sub_one,
    BitVec.getLsbD_shiftLeft, BitVec.getLsbD_ushiftRight]
  by_cases h : i < l
  · simp [h]
  · simp [h, hi, show l + (i - l) = i by omega]

theorem line_mask_toNat (x : W32) (l : Nat) :
    (x &&& ~~~(BitVec.ofNat 32 (2 ^ l) - 1#32)).toNat = 2 ^ l * (x.toNat / 2 ^ l) := by
  rw [line_mask, BitVec.toNat_shiftLeft, BitVec.toNat_ushiftRight, Nat.shiftRight_eq_div_pow, Nat.shiftLeft_eq,
    Nat.mul_comm]
  apply Nat.mod_eq_of_lt
  exact Nat.lt_of_le_of_lt (Nat.mul_div_le _ _) x.isLt

theorem seqNext_eq {W : Nat} (k : Cfg) (l : Nat) (hline : k.line = BitVec.ofNat 32 (2 ^ l)) (hl : l < 32)
    (hW : W * 4 ≤ 2 ^ l) (r : Resp W) : (mkGroup k r).seqNext = after W (2 ^ l) r.pc := by
  have hm : ∀ x : W32, (x &&& ~~~(k.line - 1#32)).toNat = 2 ^ l * (x.toNat / 2 ^ l) := by
    intro x; rw [hline]; exact line_mask_toNat x l
  obtain ⟨L, hL⟩ : ∃ L, L = 2 ^ l := ⟨_, rfl⟩
  obtain ⟨K, hK⟩ : ∃ K, K = 2 ^ (32 - l) := ⟨_, rfl⟩
  have hLK : L * K = 2 ^ 32 := by rw [hL, hK, ← Nat.pow_add]; congr 1; omega
  have hL1 : 0 < L := by rw [hL]; exact Nat.pow_pos (by decide)
  have hK2 : 2 ≤ K := by
    rw [hK]
    calc 2 = 2 ^ 1 := rfl
      _ ≤ 2 ^ (32 - l) := Nat.pow_le_pow_right (by decide) (by omega)
  rw [← hL] at hm hW
  have hp := r.pc.isLt
  have hLle : L + L ≤ 2 ^ 32 := by
    rw [← hLK, ← Nat.mul_two]; exact Nat.mul_le_mul_left L hK2
  have hn : (r.pc + BitVec.ofNat 32 (W * 4)).toNat = (r.pc.toNat + W * 4) % 2 ^ 32 := by
    rw [BitVec.toNat_add, BitVec.toNat_ofNat]; omega
  have hd := Nat.mod_lt r.pc.toNat hL1
  have hdm := Nat.div_add_mod r.pc.toNat L
  have hq : r.pc.toNat / L < K := by
    apply Nat.div_lt_of_lt_mul; rw [hLK]; exact hp
  have hq1 : L * (r.pc.toNat / L) + L ≤ 2 ^ 32 := by
    rw [← hLK, ← Nat.mul_succ]; exact Nat.mul_le_mul_left L hq
  generalize hQ : r.pc.toNat / L = Q at *
  generalize hD : r.pc.toNat % L = D at *
  have hseq : (mkGroup k r).seqNext =
      if (r.pc + BitVec.ofNat 32 (W * 4)) &&& ~~~(k.line - 1#32) ≠ r.pc &&& ~~~(k.line - 1#32) then
        (r.pc + BitVec.ofNat 32 (W * 4)) &&& ~~~(k.line - 1#32) else r.pc + BitVec.ofNat 32 (W * 4) := rfl
  rw [hseq, after, ← hL, hD]
  by_cases hc : D + W * 4 < L
  · have hnv : (r.pc + BitVec.ofNat 32 (W * 4)).toNat = r.pc.toNat + W * 4 := by
      rw [hn]; apply Nat.mod_eq_of_lt; omega
    have hdiv : (r.pc.toNat + W * 4) / L = Q := by
      rw [← hdm, Nat.add_assoc, Nat.mul_add_div hL1, Nat.div_eq_of_lt hc, Nat.add_zero]
    have he : (r.pc + BitVec.ofNat 32 (W * 4)) &&& ~~~(k.line - 1#32) = r.pc &&& ~~~(k.line - 1#32) := by
      apply BitVec.eq_of_toNat_eq
      rw [hm, hm, hnv, hdiv, hQ]
    rw [if_neg (by rw [he]; simp), Nat.min_eq_left (by omega)]
  · have hmin : min (W * 4) (L - D) = L - D := Nat.min_eq_right (by omega)
    rw [hmin]
    have hv : ((r.pc + BitVec.ofNat 32 (W * 4)) &&& ~~~(k.line - 1#32)).toNat = (L * Q + L) % 2 ^ 32 := by
      rw [hm, hn]
      by_cases hw : Q + 1 < K
      · have : L * Q + L + L ≤ 2 ^ 32 := by
          rw [← hLK, ← Nat.mul_succ, ← Nat.mul_succ]; exact Nat.mul_le_mul_left L hw
        rw [Nat.mod_eq_of_lt (by omega), Nat.mod_eq_of_lt (by omega), ← hdm,
          show L * Q + D + W * 4 = L * (Q + 1) + (D + W * 4 - L) by
            have : L * (Q + 1) = L * Q + L := Nat.mul_succ L Q
            omega,
          Nat.mul_add_div hL1, Nat.div_eq_of_lt (show D + W * 4 - L < L by omega), Nat.add_zero, Nat.mul_succ L Q]
      · have hKq : Q + 1 = K := by omega
        have : L * Q + L = 2 ^ 32 := by rw [← hLK, ← Nat.mul_succ, ← hKq]
        rw [this, Nat.mod_self, show (r.pc.toNat + W * 4) % 2 ^ 32 = D + W * 4 - L by omega,
          Nat.div_eq_of_lt (show D + W * 4 - L < L by omega)]
        rfl
    have hne : (r.pc + BitVec.ofNat 32 (W * 4)) &&& ~~~(k.line - 1#32) ≠ r.pc &&& ~~~(k.line - 1#32) := by
      intro h
      have := congrArg BitVec.toNat h
      rw [hv, hm, hQ] at this
      omega
    rw [if_pos hne]
    apply BitVec.eq_of_toNat_eq
    rw [hv, BitVec.toNat_add, BitVec.toNat_ofNat]
    omega

/-! ### The checker -/

theorem firstTaken_some {W : Nat} {d : Fin W → Bool} {j : Fin W} (h : d j = true) (hf : ∀ j' < j, d j' = false) :
    firstTaken d = some j := by
  rw [firstTaken, List.find?_eq_some_iff_getElem]
  refine ⟨h, j.val, by simp, by simp, ?_⟩
  intro i hi
  have := hf ⟨i, by omega⟩ (by exact hi)
  simp [this]

theorem firstTaken_none {W : Nat} {d : Fin W → Bool} (h : ∀ j, d j = false) : firstTaken d = none := by
  simp [firstTaken, h]

theorem mkGroup_ptype {W : Nat} (k : Cfg) (r : Resp W) (j : Fin W) :
    (mkGroup k r).ptype j = if r.valid j then
      (if opcode (r.insts j) = 0b1101111#7 then .jal else if opcode (r.insts j) = 0b1100011#7 then .direct
        else if opcode (r.insts j) = 0b1100111#7 then .jalr else .non) else .non := by
  simp only [mkGroup, predecode_eq]
  repeat' split
  all_goals rfl

theorem groupOk {W : Nat} {M : Type} (k : Cfg) (l : Nat) (hline : k.line = BitVec.ofNat 32 (2 ^ l)) (hl : l < 32)
    (hW : W * 4 ≤ 2 ^ l) (r : Resp W) (p : Pred W M)
    (hb : ∀ j, p.base j = r.pc + BitVec.ofNat 32 (j.val * 4)) : GroupOk (2 ^ l) (mkOut (mkGroup k r) p) := by
  have hdir : ∀ j, (mkOut (mkGroup k r) p).dir j = fixDir (mkGroup k r) p.dir j := fun _ => rfl
  have hnext : (mkOut (mkGroup k r) p).next = fixNext (mkGroup k r) p.dir p.next := rfl
  have hins : (mkOut (mkGroup k r) p).insts = r.insts := rfl
  have hval : (mkOut (mkGroup k r) p).valid = r.valid := rfl
  have hpc : (mkOut (mkGroup k r) p).pc = p.base := rfl
  constructor
  · intro j h
    rw [hdir, fixDir, mkGroup_ptype] at h
    rw [hins, hval]
    cases hv : r.valid j with
    | false => simp [hv] at h
    | true =>
      refine ⟨rfl, ?_⟩
      simp only [hv, if_true, IsJal, IsJalr, IsBranch] at h ⊢
      split at h
      · rename_i h'; split at h'
        · simp at h'
        · split at h'
          · simp at h'
          · split at h'
            · simp at h'
            · simp at h
      · rename_i h'; split at h'
        · simp at h'
        · split at h'
          · rename_i h''; exact .inr (.inr h'')
          · split at h' <;> simp at h'
      · rename_i h'; split at h'
        · simp at h'
        · split at h'
          · simp at h'
          · split at h'
            · rename_i h''; exact .inr (.inl h'')
            · simp at h'
      · rename_i h'; split at h'
        · rename_i h''; exact .inl h''
        · split at h'
          · simp at h'
          · split at h' <;> simp at h'
  · intro j hv ho
    rw [hval] at hv
    rw [hins] at ho
    rw [hdir, fixDir, mkGroup_ptype]
    rcases ho with h | h <;> simp only [IsJal, IsJalr] at h <;> simp [hv, h]
  · intro j h hf ho
    rw [hins] at ho
    rw [hnext, fixNext, firstTaken_some (d := fixDir (mkGroup k r) p.dir) (j := j) h hf]
    have hv : r.valid j = true := by
      cases hv : r.valid j with
      | true => rfl
      | false => rw [hdir, fixDir, mkGroup_ptype] at h; simp [hv] at h
    have ho' : opcode (r.insts j) = 0b1101111#7 := ho
    have : (mkGroup k r).ptype j = .jal := by rw [mkGroup_ptype]; simp [hv, ho']
    simp only [this, or_true, if_true]
    rw [hpc, hins, hb]
    simp [mkGroup, hv, predecode_eq, ho']
  · intro j h hf ho
    rw [hins] at ho
    rw [hnext, fixNext, firstTaken_some (d := fixDir (mkGroup k r) p.dir) (j := j) h hf]
    have hv : r.valid j = true := by
      cases hv : r.valid j with
      | true => rfl
      | false => rw [hdir, fixDir, mkGroup_ptype] at h; simp [hv] at h
    have ho' : opcode (r.insts j) = 0b1100011#7 := ho
    have : (mkGroup k r).ptype j = .direct := by rw [mkGroup_ptype]; simp [hv, ho']
    simp only [this, true_or, if_true]
    rw [hpc, hins, hb]
    simp [mkGroup, hv, predecode_eq, ho']
  · intro j0 h0 hf
    rw [hnext, fixNext, firstTaken_none (d := fixDir (mkGroup k r) p.dir) hf, hpc, hb, h0]
    simpa using seqNext_eq k l hline hl hW r

/-! ### Against the reference executor -/

theorem trunc_add (a : W32) (b : BitVec 64) : (a.setWidth 64 + b).setWidth 32 = a + b.setWidth 32 := by
  apply BitVec.eq_of_toNat_eq
  simp only [BitVec.toNat_setWidth, BitVec.toNat_add]
  omega

end Verif.Front

import Verif.Proofs.XPrintf
/-
C135: `xprintf` of the bare-metal library prints what the C standard says for its format and arguments.
-/
namespace Verif.Props
open Verif.XPrintf Verif.XPrintfSpec Verif.XPrintfProofs

/-- C135 for all formats and arguments, but for two kinds of pieces (see `Supported`, `C135_zero_negative` and `C135_binary`). -/
theorem C135_format_partial (ps : List Piece) (h : ∀ p ∈ ps, Ok p ∧ Supported p) :
    xprintf (ps.flatMap written) (ps.flatMap argOf) = some (ps.flatMap printed) :=
  go_pieces ps _ (Nat.lt_succ_of_le (pieces_le ps)) h

/-- `"a=%-5d|%4Lx%%%s"` with -42, 255 and `"ok"`. -/
example : let ps := [.lit 'a', .lit '=', .num .left 5 .int 'd' (-42), .lit '|', .num .plain 4 .Long 'x' 255, .percent, .str .plain 0 ['o', 'k']]
    (∀ p ∈ ps, Ok p ∧ Supported p) ∧ String.ofList (ps.flatMap written) = "a=%-5d|%4Lx%%%s" ∧ String.ofList (ps.flatMap printed) = "a=-42  |  ff%ok" := by
  refine ⟨?_, by decide +kernel, by decide +kernel⟩
  simp [Ok, Supported]

/-- What is printed for all formats and arguments without exception: the pieces one by one, where a number has at most its last sixteen digits, and
zeros for filling stand before the sign. -/
theorem C135_actual (ps : List Piece) (h : ∀ p ∈ ps, Ok p) : xprintf (ps.flatMap written) (ps.flatMap argOf) = some (ps.flatMap actual) :=
  go_actual ps _ (Nat.lt_succ_of_le (pieces_le ps)) h

/-- `"%06d,%b"` with -42 and 0x12345: neither is printed right. -/
example : let ps := [.num .zero 6 .int 'd' (-42), .lit ',', .num .plain 0 .int 'b' 0x12345]
    (∀ p ∈ ps, Ok p) ∧ String.ofList (ps.flatMap actual) = "000-42,0010001101000101" ∧
      String.ofList (ps.flatMap printed) = "-00042,10010001101000101" := by
  refine ⟨by simp [Ok], by decide +kernel, by decide +kernel⟩

/-- C135 fails: a negative number filled up with zeros has the zeros before its sign, for every such number and every width wider than it. -/
theorem C135_zero_negative (w : Nat) (l : Size) (v : BitVec 32) (hw : w < 2 ^ 31) (hv : v.toInt < 0)
    (hlen : (Nat.toDigits 10 v.toInt.natAbs).length + 1 < w) :
    ∃ out, xprintf (written (.num .zero w l 'd' v)) [.num v] = some out ∧ out.head? = some '0' ∧ out ≠ printed (.num .zero w l 'd' v) := by
  have hm := (msb_toInt v).2 hv
  have hb : buffer 'd' 'D' 10 v = (Nat.toDigits 10 v.toInt.natAbs).reverse ++ ['-'] := by
    have := digits_small 'd' 10 (by decide) (by decide) (0#32 - v).toNat (by have := (0#32 - v).isLt; omega)
    rw [neg_nat v hm] at this
    rw [← this, List.reverse_reverse]
    simp only [buffer, hm, decide_true, Bool.and_self, if_true, neg_nat v hm]
  have hc := conv_step (written (.num .zero w l 'd' v)).length .zero w l 'd' [] [.num v] (by omega) (by decide) (by decide) (by decide)
    (by decide) (by decide) (by decide)
  have e : convert true false w 'd' [.num v] = some (number true false w 'd' 'D' 10 v, []) := rfl
  simp only [decide_true, reduceCtorEq, decide_false, e, List.append_nil] at hc
  have hgo : go (written (.num .zero w l 'd' v)).length [] [] = some [] := by
    obtain ⟨k, hk⟩ : ∃ k, (written (.num .zero w l 'd' v)).length = k + 1 :=
      ⟨_, (Nat.sub_add_cancel (written_pos (.num .zero w l 'd' v))).symm⟩
    rw [hk]; rfl
  rw [hgo] at hc
  have hhead : (number true false w 'd' 'D' 10 v).head? = some '0' := by
    obtain ⟨k, hk⟩ : ∃ k, w - (buffer 'd' 'D' 10 v).length = k + 1 := ⟨w - (buffer 'd' 'D' 10 v).length - 1, by
      rw [hb]; simp only [List.length_append, List.length_reverse, List.length_singleton]; omega⟩
    simp [number, before, hk, List.replicate_succ]
  refine ⟨number true false w 'd' 'D' 10 v, ?_, hhead, fun h => ?_⟩
  · have hc' := hc
    simp only [Option.map_some, List.append_nil] at hc'
    exact hc'
  · rw [h] at hhead
    simp [printed, field, signOf, hv] at hhead

/-- `"%05d"` of -42 prints `00-42`; it should be `-0042`. -/
example : (xprintf "%05d".toList [.num (-42)]).map String.ofList = some "00-42" ∧ String.ofList (printed (.num .zero 5 .int 'd' (-42))) = "-0042" := by
  decide +kernel

/-- C135 fails: of a binary number with more than sixteen digits `%b` prints sixteen. -/
theorem C135_binary (v : BitVec 32) (hv : 2 ^ 16 ≤ v.toNat) :
    ∃ out, xprintf ['%', 'b'] [.num v] = some out ∧ out.length = 16 ∧ 16 < (printed (.num .plain 0 .int 'b' v)).length := by
  refine ⟨(digits 'b' 2 16 v.toNat).reverse, ?_, ?_, ?_⟩
  · have e : xprintf ['%', 'b'] [.num v] = some (number false false 0 'b' 'B' 2 v ++ []) := rfl
    rw [e]
    simp [number, buffer, before, after]
  · rw [List.length_reverse, digits2 _ _ _ hv]
  · have h := Nat.length_toDigits_le_iff (b := 2) (n := v.toNat) (k := 16) (by decide) (by decide)
    simp only [printed, field, signOf, digitsOf]
    simp
    omega

/-- `%b` of 0x12345 prints `0010001101000101`, without the leading one. -/
example : (xprintf "%b".toList [.num 0x12345]).map String.ofList = some "0010001101000101" ∧
    String.ofList (printed (.num .plain 0 .int 'b' 0x12345)) = "10010001101000101" := by
  decide +kernel

theorem unknown_type (c : Char) (hc : c.toNat < 256) (h : c ∉ ['s', 'S', 'c', 'C', 'b', 'B', 'o', 'O', 'd', 'D', 'u', 'U', 'x', 'X']) :
    upper c ≠ 'S' ∧ upper c ≠ 'C' ∧ base (upper c) = none := by
  have key : ∀ n : Fin 256, Char.ofNat n.val ∉ ['s', 'S', 'c', 'C', 'b', 'B', 'o', 'O', 'd', 'D', 'u', 'U', 'x', 'X'] →
      upper (Char.ofNat n.val) ≠ 'S' ∧ upper (Char.ofNat n.val) ≠ 'C' ∧ base (upper (Char.ofNat n.val)) = none := by decide +kernel
  have := key ⟨c.toNat, hc⟩
  simp only [Char.ofNat_toNat] at this
  exact this h

/-- Beyond the standard: a conversion of a type that `xprintf` does not know prints its type character, takes no argument, and what follows is
formatted as usual. -/
theorem C135_passthrough (f : Flag) (w : Nat) (l : Size) (c : Char) (hw : w < 2 ^ 31) (hc : c.toNat < 256)
    (h : c ∉ ['s', 'S', 'c', 'C', 'b', 'B', 'o', 'O', 'd', 'D', 'u', 'U', 'x', 'X']) (hd : isDigit c = false)
    (hs : c ∉ ['\x00', 'l', 'L', '-']) (ps : List Piece) (hps : ∀ p ∈ ps, Ok p ∧ Supported p) :
    xprintf ('%' :: (flagText f ++ widthText w ++ sizeText l ++ [c]) ++ ps.flatMap written) (ps.flatMap argOf) = some (c :: ps.flatMap printed) := by
  simp only [List.mem_cons, List.not_mem_nil, or_false, not_or] at hs
  have hz : c ≠ '0' := by rintro rfl; exact absurd hd (by decide)
  obtain ⟨u1, u2, u3⟩ := unknown_type c hc h
  have e : convert (decide (f = .zero)) (decide (f = .left)) w c (ps.flatMap argOf) = some ([c], ps.flatMap argOf) := by
    unfold convert
    rw [if_neg u1, if_neg u2, u3]
  rw [xprintf, conv_step _ f w l c _ _ (by omega) hd hs.1 hs.2.1 hs.2.2.1 hz hs.2.2.2, e]
  have hlen := pieces_le ps
  dsimp only
  rw [go_pieces ps _ (by simp only [List.length_append, List.length_cons]; omega) hps]
  rfl

/-- `"%5f%d"` of 7 prints `f7`. -/
example : (xprintf "%5f%d".toList [.num 7]).map String.ofList = some "f7" := by decide +kernel

/-- The digits and the sign of every number, of whatever type, fit into the sixteen bytes of `s`. -/
theorem C135_buffer (c : Char) (r : Nat) (v : BitVec 32) (h : base (upper c) = some r) : (buffer c (upper c) r v).length ≤ 16 := by
  unfold buffer
  dsimp only
  split
  · rename_i hn
    simp only [Bool.and_eq_true, decide_eq_true_eq] at hn
    rw [hn.1] at h
    have hr : 10 = r := by simpa [base] using h
    subst hr
    have := digits_len10 c 9 16 (if (decide (upper c = 'D') && v.msb) = true then 0#32 - v else v).toNat
      (by have := (if (decide (upper c = 'D') && v.msb) = true then 0#32 - v else v).isLt; omega)
    simp only [List.length_append, List.length_singleton]
    simp only [hn.1, hn.2, decide_true, Bool.and_self, if_true] at this ⊢
    omega
  · exact digits_len _ _ _ _

/-- The longest: sixteen binary digits; the longest with a sign: -2147483648. -/
example : (buffer 'b' 'B' 2 0xffffffff).length = 16 ∧ (buffer 'd' 'D' 10 0x80000000).length = 11 := by decide +kernel

end Verif.Props

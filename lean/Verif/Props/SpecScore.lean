import Verif.Proofs.SpecScore
/-
C136: the CPI in the SPEC report is the weighted mean over the simpoints of the benchmark, each counted once, and missing weight is reported.
-/
namespace Verif.Props
open Verif.SpecScore Verif.SpecScoreSpec Verif.SpecScoreProofs

/-- C136 for directories in which no simpoint has two logs: the CPI is the weighted mean over the simpoints that were measured. -/
theorem C136_mean_partial (pts : List (Rat × Nat)) (logs : List Log) (hd : Distinct pts) (ho : Once logs) (hc : 0 < covered pts (measured logs)) :
    cpi pts logs = some (weighted pts (measured logs) / covered pts (measured logs)) := by
  have hs := sums_eq pts hd logs ho
  have hne : logs.filterMap (sample pts) ≠ [] := by
    intro h
    have : sums pts logs = (0, 0) := by rw [sums, h]; rfl
    rw [hs] at this
    rw [(Prod.mk.inj this).2] at hc
    exact absurd hc (by decide)
  rw [cpi, if_neg hne, hs, if_pos hc]

/-- C136, the warning, for directories in which no simpoint has two logs: it is given exactly when more than 0.01 % of the weight was not measured. -/
theorem C136_warning_partial (pts : List (Rat × Nat)) (logs : List Log) (hd : Distinct pts) (ho : Once logs) (h1 : (pts.map Prod.fst).sum = 1) :
    warns pts logs = true ↔ 1 / 10000 < missing pts (measured logs) := by
  have hs := sums_eq pts hd logs ho
  have hm := cover_missing (measured logs) pts
  rw [h1] at hm
  rw [warns, hs, decide_eq_true_eq]
  constructor <;> intro h <;> grind

/-- Whatever logs there are, the CPI lies between the least and the greatest that a log gives. -/
theorem C136_between (pts : List (Rat × Nat)) (logs : List Log) (a b x : Rat) (hw : ∀ p ∈ pts, 0 < p.1)
    (hl : ∀ l ∈ logs, ∀ i c, result l i = some c → a ≤ c ∧ c ≤ b) (hx : cpi pts logs = some x) : a ≤ x ∧ x ≤ b := by
  obtain ⟨b1, b2, _, b4⟩ := bounds a b (logs.filterMap (sample pts)) (by
    rintro ⟨w, c⟩ hm
    obtain ⟨l, hlm, hs⟩ := List.mem_filterMap.1 hm
    obtain ⟨i, hi, hr⟩ := sample_eq pts l w c hs
    exact ⟨hw _ (weightOf_mem pts i w hi), hl l hlm i c hr⟩)
  unfold cpi at hx
  split at hx
  · cases hx
  · rename_i hne
    have hpos := b4 hne
    have hsum : sums pts logs = (((logs.filterMap (sample pts)).map fun x => x.2 * x.1).sum, ((logs.filterMap (sample pts)).map Prod.fst).sum) := by
      rw [sums, foldl_add]; simp only [Rat.zero_add]
    rw [hsum, if_pos hpos] at hx
    generalize ((logs.filterMap (sample pts)).map fun x => x.2 * x.1).sum = S at *
    generalize ((logs.filterMap (sample pts)).map Prod.fst).sum = W at *
    have hx' : S / W = x := by simpa using hx
    have hxw : x * W = S := by
      rw [← hx']; exact Rat.div_mul_cancel (by grind)
    exact ⟨Rat.le_of_mul_le_mul_right (by rw [hxw]; exact b1) hpos, Rat.le_of_mul_le_mul_right (by rw [hxw]; exact b2) hpos⟩

theorem sum_share (T N : Nat) (hT : 0 < T) (hN : 0 < N) (m : Nat → Option Rat) (cl : List (Nat × Nat × Nat))
    (h : ∀ k ∈ cl, m k.2.1 = some ((k.2.2 : Rat) / (N : Rat))) :
    weighted (cl.map fun k => ((k.1 : Rat) / (T : Rat), k.2.1)) m * ((T : Rat) * (N : Rat)) = (((cl.map fun k => k.1 * k.2.2).sum : Nat) : Rat) ∧
    covered (cl.map fun k => ((k.1 : Rat) / (T : Rat), k.2.1)) m * (T : Rat) = (((cl.map fun k => k.1).sum : Nat) : Rat) := by
  have hT' : (T : Rat) ≠ 0 := by intro h0; have : T = 0 := by exact_mod_cast h0
                                 omega
  have hN' : (N : Rat) ≠ 0 := by intro h0; have : N = 0 := by exact_mod_cast h0
                                 omega
  induction cl with
  | nil => simp [weighted, covered]
  | cons k t ih =>
    obtain ⟨i1, i2⟩ := ih fun k' hk' => h k' (by simp [hk'])
    have hk := h k (by simp)
    simp only [weighted, covered, List.map_cons, List.sum_cons, hk, Option.getD_some, Option.isSome_some, if_true] at i1 i2 ⊢
    rw [Rat.natCast_add, Rat.natCast_add, Rat.natCast_mul, ← i1, ← i2]
    constructor
    · have e1 : (k.2.2 : Rat) / (N : Rat) * N = k.2.2 := Rat.div_mul_cancel hN'
      have e2 : (k.1 : Rat) / (T : Rat) * T = k.1 := Rat.div_mul_cancel hT'
      grind
    · have e2 : (k.1 : Rat) / (T : Rat) * T = k.1 := Rat.div_mul_cancel hT'
      grind

/-- C136 against a whole run: a run is cut into slices of `N` instructions; simpoint `k.2.1` stands for `k.1` slices, each of `k.2.2` cycles, and has its
share of the slices as weight.  With one good log for every simpoint the CPI is the cycles of the run over its instructions. -/
theorem C136_whole (N : Nat) (hN : 0 < N) (cl : List (Nat × Nat × Nat)) (hT : 0 < (cl.map fun k => k.1).sum) (logs : List Log)
    (hd : (cl.map fun k => k.2.1).Nodup) (ho : Once logs) (h : ∀ k ∈ cl, measured logs k.2.1 = some ((k.2.2 : Rat) / (N : Rat))) :
    cpi (cl.map fun k => ((k.1 : Rat) / (((cl.map fun k => k.1).sum : Nat) : Rat), k.2.1)) logs =
      some ((((cl.map fun k => k.1 * k.2.2).sum : Nat) : Rat) / (((cl.map fun k => k.1).sum * N : Nat) : Rat)) := by
  obtain ⟨s1, s2⟩ := sum_share _ N hT hN (measured logs) cl h
  generalize (cl.map fun k => k.1).sum = T at *
  have hT' : (T : Rat) ≠ 0 := by intro h0; have : T = 0 := by exact_mod_cast h0
                                 omega
  have hN' : (N : Rat) ≠ 0 := by intro h0; have : N = 0 := by exact_mod_cast h0
                                 omega
  have hcov : covered (cl.map fun k => ((k.1 : Rat) / (T : Rat), k.2.1)) (measured logs) = 1 := by grind
  rw [C136_mean_partial _ logs (by simpa [Distinct, Function.comp_def] using hd) ho (by rw [hcov]; decide), hcov, Rat.natCast_mul, ← s1]
  congr 1
  have : (T : Rat) * (N : Rat) ≠ 0 := by grind
  grind

/-- A log of simpoint `i`, of a thousand instructions. -/
def goodLog (i cyc : Nat) : Log := ⟨some i, true, some (1000, cyc)⟩

/-- Two simpoints with weights 3/4 and 1/4, and a log that failed. -/
example : let pts := [((3 : Rat) / 4, 0), (1 / 4, 7)]
    let logs := [goodLog 7 3000, ⟨some 0, false, some (5, 5)⟩, goodLog 0 1000]
    Distinct pts ∧ Once logs ∧ 0 < covered pts (measured logs) ∧ (pts.map Prod.fst).sum = 1 ∧ cpi pts logs = some (3 / 2) := by
  refine ⟨by simp [Distinct], ?_, by decide +kernel, by decide +kernel, by decide +kernel⟩
  simp [Once, result, goodLog]
  grind

/-- Four slices of a thousand instructions, three of 1000 cycles and one of 3000: 6000 cycles for 4000 instructions. -/
example : let cl : List (Nat × Nat × Nat) := [(3, 0, 1000), (1, 7, 3000)]
    let logs := [goodLog 7 3000, goodLog 0 1000]
    0 < (cl.map fun k => k.1).sum ∧ (cl.map fun k => k.2.1).Nodup ∧ Once logs ∧
      (∀ k ∈ cl, measured logs k.2.1 = some ((k.2.2 : Rat) / ((1000 : Nat) : Rat))) ∧ (cl.map fun k => k.1 * k.2.2).sum = 6000 := by
  refine ⟨by decide, by decide, ?_, ?_, by decide⟩
  · simp [Once, result, goodLog]
    grind
  · decide +kernel

/-- `C136_between` with logs between 1 and 3. -/
example : let pts := [((3 : Rat) / 4, 0), (1 / 4, 7)]
    (∀ p ∈ pts, 0 < p.1) ∧ cpi pts [goodLog 7 3000, goodLog 7 2000, goodLog 0 1000] = some (8 / 5) := by
  decide +kernel

/-- C136 fails when a simpoint has two logs (of a run and its repetition, say): it counts twice, and the mean is wrong for all weights and all
cycles, unless both simpoints are equally fast. -/
theorem C136_twice (u v : Rat) (hu : 0 < u) (hv : 0 < v) (a b : Nat) (hab : a ≠ b) :
    let pts := [(u, 0), (v, 1)]
    let logs := [goodLog 0 a, goodLog 0 a, goodLog 1 b]
    cpi pts logs ≠ some (weighted pts (measured logs) / covered pts (measured logs)) := by
  intro pts logs
  have hf : logs.filterMap (sample pts) = [(u, (a : Rat) / (1000 : Nat)), (u, (a : Rat) / (1000 : Nat)), (v, (b : Rat) / (1000 : Nat))] := rfl
  have hm0 : measured logs 0 = some ((a : Rat) / (1000 : Nat)) := rfl
  have hm1 : measured logs 1 = some ((b : Rat) / (1000 : Nat)) := rfl
  have hw : weighted pts (measured logs) = (a : Rat) / (1000 : Nat) * u + ((b : Rat) / (1000 : Nat) * v + 0) := by
    show ((measured logs 0).getD 0 * u + ((measured logs 1).getD 0 * v + 0)) = _
    rw [hm0, hm1]; rfl
  have hc : covered pts (measured logs) = u + (v + 0) := by
    show ((if (measured logs 0).isSome then u else 0) + ((if (measured logs 1).isSome then v else 0) + 0)) = _
    rw [hm0, hm1]; rfl
  have hne : (a : Rat) / (1000 : Nat) ≠ (b : Rat) / (1000 : Nat) := by
    intro h
    apply hab
    have h2 : (a : Rat) = (b : Rat) := by
      have e1 : (a : Rat) / (1000 : Nat) * (1000 : Nat) = a := Rat.div_mul_cancel (by decide)
      have e2 : (b : Rat) / (1000 : Nat) * (1000 : Nat) = b := Rat.div_mul_cancel (by decide)
      rw [← e1, ← e2, h]
    exact_mod_cast h2
  rw [cpi, hf, if_neg (by simp), sums, hf, foldl_add, hw, hc]
  generalize (a : Rat) / (1000 : Nat) = x at *
  generalize (b : Rat) / (1000 : Nat) = y at *
  simp only [List.map_cons, List.map_nil, List.sum_cons, List.sum_nil]
  have p1 : 0 < 0 + (u + (u + (v + 0))) := by grind
  rw [if_pos p1]
  intro h
  have h' := Option.some.inj h
  have e1 : 0 + (u + (u + (v + 0))) ≠ 0 := by grind
  have e2 : u + (v + 0) ≠ 0 := by grind
  have : u * v * (x - y) = 0 := by grind
  rcases Rat.mul_eq_zero.1 this with h | h
  · rcases Rat.mul_eq_zero.1 h with h | h <;> grind
  · grind

/-- C136, the warning, fails likewise: with two logs of one simpoint half of the weight can be missing and there is no warning. -/
theorem C136_no_warning (a b : Nat) :
    let pts := [((1 : Rat) / 2, 0), (1 / 2, 1)]
    let logs := [goodLog 0 a, goodLog 0 b]
    (pts.map Prod.fst).sum = 1 ∧ missing pts (measured logs) = 1 / 2 ∧ warns pts logs = false := by
  intro pts logs
  have hf : logs.filterMap (sample pts) = [(1 / 2, (a : Rat) / (1000 : Nat)), (1 / 2, (b : Rat) / (1000 : Nat))] := rfl
  have hm0 : measured logs 0 = some ((a : Rat) / (1000 : Nat)) := rfl
  have hm1 : measured logs 1 = none := rfl
  refine ⟨by decide +kernel, ?_, ?_⟩
  · show ((if (measured logs 0).isSome then 0 else 1 / 2) + ((if (measured logs 1).isSome then 0 else 1 / 2) + 0)) = (1 / 2 : Rat)
    rw [hm0, hm1]
    simp only [Option.isSome_some, Option.isSome_none, if_true, Bool.false_eq_true, if_false]
    decide +kernel
  · rw [warns, sums, hf, foldl_add]
    simp only [List.map_cons, List.map_nil]
    decide +kernel

/-- Equal cycles would hide it: the repetition of a simpoint of 1000 cycles beside one of 3000 gives 5/3 in place of 2. -/
example : cpi [((1 : Rat) / 2, 0), (1 / 2, 1)] [goodLog 0 1000, goodLog 0 1000, goodLog 1 3000] = some (5 / 3) ∧
    cpi [((1 : Rat) / 2, 0), (1 / 2, 1)] [goodLog 0 1000, goodLog 1 3000] = some 2 := by decide +kernel

/-- The SPEC ratio from a CPI is the reference time over the time of the whole program at that CPI and frequency. -/
theorem C136_ratio (insts : Nat) (ghz ref c : Rat) (hi : 0 < insts) (hg : 0 < ghz) (hr : 0 < ref) (hc : 0 < c) :
    ratio insts ghz ref c * ((insts : Rat) * c) = ref * (ghz * 1000000000) := by
  have hi' : 0 < (insts : Rat) := by exact_mod_cast hi
  have h1 : 0 < (insts : Rat) * c := Rat.mul_pos hi' hc
  have h2 : 0 < ghz * 1000000000 := Rat.mul_pos hg (by decide)
  have h3 : 0 < (insts : Rat) * c / (ghz * 1000000000) := by
    rw [Rat.div_def]; exact Rat.mul_pos h1 (Rat.inv_pos.2 h2)
  unfold ratio
  dsimp only
  rw [if_pos ⟨h3, hr⟩]
  generalize (insts : Rat) * c = A at *
  generalize ghz * 1000000000 = B at *
  have : A ≠ 0 := by grind
  have : B ≠ 0 := by grind
  grind

/-- Two thousand million instructions at a CPI of 3/2 and 1 GHz take three seconds. -/
example : ratio 2000000000 1 9770 (3 / 2) = 9770 / 3 := by decide +kernel

end Verif.Props

import Verif.Proofs.BranchCount
/-
C137: the branch counters count the committed branches and their mispredictions by kind and cause, and the branch accuracy in the SPEC report is the
weighted share of branches that were predicted right.
-/
namespace Verif.Props
open Verif.BranchCount Verif.BranchCountSpec Verif.BranchCountProofs

/-- C137, the counters, after every sequence of commits: each is the number of committed instructions of its kind. -/
theorem C137_counters (is : List Commit) :
    (run is).condNum = is.countP isCond ∧ (run is).jalrNum = is.countP isIndirect ∧ (run is).retNum = is.countP isReturn ∧
    (run is).condMiss = is.countP (fun i => isCond i && i.mispred) ∧ (run is).jalrMiss = is.countP (fun i => isIndirect i && i.mispred) ∧
    (run is).retMiss = is.countP (fun i => isReturn i && i.mispred) ∧
    (run is).condDir = is.countP (fun i => isCond i && i.mispred && wrongWay i) ∧
    (run is).condAddr = is.countP (fun i => isCond i && i.mispred && !wrongWay i) ∧
    (run is).jalrDir = is.countP (fun i => isIndirect i && i.mispred && wrongWay i) ∧
    (run is).jalrAddr = is.countP (fun i => isIndirect i && i.mispred && !wrongWay i) ∧
    (run is).retDir = is.countP (fun i => isReturn i && i.mispred && wrongWay i) ∧
    (run is).retAddr = is.countP (fun i => isReturn i && i.mispred && !wrongWay i) := by
  rw [run, fold_counts]
  simp

/-- C137, the causes: of a branch with the verdict of the branch unit, one counted as an address error was taken, predicted taken, and went elsewhere;
one counted as a direction error was predicted the other way.  An indirect jump is always taken. -/
theorem C137_cause (k : Kind) (r t p : Bool) (next target : BitVec 32) (hk : k = .br ∨ (k = .jalr ∧ t = true)) :
    let i : Commit := ⟨k, r, verdict t p next target, p, t⟩
    ((i.mispred && !wrongWay i) = true ↔ t = true ∧ p = true ∧ next ≠ target) ∧ ((i.mispred && wrongWay i) = true ↔ t ≠ p) := by
  rcases hk with rfl | ⟨rfl, rfl⟩
  · cases t <;> cases p <;> simp [verdict, wrongWay]
  · cases p <;> simp [verdict, wrongWay]

/-- C137, the accuracy in the report, for all logs with positive weights: the weighted share of the branches predicted right, in per cent. -/
theorem C137_accuracy (logs : List (Rat × List Commit)) (hw : ∀ l ∈ logs, 0 < l.1) :
    let acc := accuracy (logs.map fun l => (l.1, run l.2))
    acc * weighted branches logs = 100 * weighted right logs ∧ 0 ≤ acc ∧ acc ≤ 100 := by
  intro acc
  have hs : sums (logs.map fun l => (l.1, run l.2)) = (weighted right logs, weighted branches logs, weighted missed logs) := by
    rw [sums, sums_run]; simp only [Rat.zero_add]
  have h1 := weighted_nonneg right logs hw
  have h2 := weighted_nonneg missed logs hw
  have h3 := weighted_split logs
  have ha : acc = safePct (weighted right logs) (weighted branches logs) := by
    show accuracy _ = _
    rw [accuracy, hs]
  generalize weighted right logs = R at *
  generalize weighted missed logs = M at *
  generalize weighted branches logs = B at *
  by_cases hB : 0 < B
  · have hd : R / B * B = R := Rat.div_mul_cancel (by grind)
    have hacc : acc = R / B * 100 := by rw [ha, safePct, safeDiv, if_pos hB]
    have hl : 0 ≤ R / B := Rat.le_of_mul_le_mul_right (by rw [hd, Rat.zero_mul]; exact h1) hB
    have hr : R / B ≤ 1 := Rat.le_of_mul_le_mul_right (by rw [hd, Rat.one_mul]; grind) hB
    generalize R / B = q at *
    refine ⟨by grind, by grind, by grind⟩
  · have hacc : acc = 0 * 100 := by rw [ha, safePct, safeDiv, if_neg hB]
    refine ⟨by grind, by grind, by grind⟩

/-- Two logs with weights 1/4 and 3/4: one branch missed of two, and one missed of four: 1/4 and 9/4 right of 1/2 and 3. -/
example : let a : List Commit := [⟨.br, false, true, false, true⟩, ⟨.jalr, true, false, true, true⟩]
    let b : List Commit := [⟨.br, false, false, true, true⟩, ⟨.other, false, false, false, false⟩, ⟨.jalr, false, true, true, true⟩,
      ⟨.br, false, false, true, true⟩, ⟨.jalr, true, false, true, true⟩]
    (run a).condDir = 1 ∧ (run a).retNum = 1 ∧ (run b).jalrAddr = 1 ∧
      weighted branches [(1 / 4, a), (3 / 4, b)] = 7 / 2 ∧ weighted right [(1 / 4, a), (3 / 4, b)] = 5 / 2 ∧
      accuracy ([((1 : Rat) / 4, a), (3 / 4, b)].map fun l => (l.1, run l.2)) = 500 / 7 := by
  decide +kernel

/-- A conditional branch taken and predicted taken, to another address. -/
example : verdict true true 0x80000010 0x80000020 = true ∧ verdict true true 0x80000010 0x80000010 = false ∧ verdict true false 0 0 = true := by
  decide

end Verif.Props

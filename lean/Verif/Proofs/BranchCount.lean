import Verif.Spec.BranchCount
namespace Verif.BranchCountProofs
open Verif.BranchCount Verif.BranchCountSpec

theorem fold_counts (is : List Commit) : ∀ c : Counters, is.foldl commitSync c =
    { condNum := c.condNum + is.countP isCond
      jalrNum := c.jalrNum + is.countP isIndirect
      retNum := c.retNum + is.countP isReturn
      condMiss := c.condMiss + is.countP (fun i => isCond i && i.mispred)
      jalrMiss := c.jalrMiss + is.countP (fun i => isIndirect i && i.mispred)
      retMiss := c.retMiss + is.countP (fun i => isReturn i && i.mispred)
      jalrDir := c.jalrDir + is.countP (fun i => isIndirect i && i.mispred && wrongWay i)
      jalrAddr := c.jalrAddr + is.countP (fun i => isIndirect i && i.mispred && !wrongWay i)
      condDir := c.condDir + is.countP (fun i => isCond i && i.mispred && wrongWay i)
      condAddr := c.condAddr + is.countP (fun i => isCond i && i.mispred && !wrongWay i)
      retDir := c.retDir + is.countP (fun i => isReturn i && i.mispred && wrongWay i)
      retAddr := c.retAddr + is.countP (fun i => isReturn i && i.mispred && !wrongWay i) } := by
  induction is with
  | nil => intro c; rfl
  | cons i is ih =>
    intro c
    rw [List.foldl_cons, ih]
    simp only [List.countP_cons]
    rcases i with ⟨_ | _ | _, _ | _, _ | _, _ | _, _ | _⟩ <;>
      simp [commitSync, countMiss, countNum, isCond, isIndirect, isReturn, wrongWay] <;> (try constructor) <;> (try constructor) <;> omega

theorem brNum_run (is : List Commit) : brNum (run is) = branches is := by
  rw [run, fold_counts, brNum]
  simp only [branches]
  induction is with
  | nil => rfl
  | cons i is ih =>
    simp only [List.countP_cons]
    have : (if isIndirect i = true then 1 else 0) + (if isCond i = true then 1 else 0) + (if isReturn i = true then 1 else 0) =
        if isBranch i = true then 1 else 0 := by
      rcases i with ⟨_ | _ | _, _ | _, m, p, t⟩ <;> rfl
    omega

theorem brMiss_run (is : List Commit) : brMiss (run is) = missed is := by
  rw [run, fold_counts, brMiss]
  simp only [missed]
  induction is with
  | nil => rfl
  | cons i is ih =>
    simp only [List.countP_cons]
    have : (if (isIndirect i && i.mispred) = true then 1 else 0) + (if (isCond i && i.mispred) = true then 1 else 0) +
        (if (isReturn i && i.mispred) = true then 1 else 0) = if (isBranch i && i.mispred) = true then 1 else 0 := by
      rcases i with ⟨_ | _ | _, _ | _, _ | _, p, t⟩ <;> rfl
    omega

theorem right_missed (is : List Commit) : branches is = right is + missed is := by
  simp only [branches, right, missed]
  induction is with
  | nil => rfl
  | cons i is ih =>
    simp only [List.countP_cons]
    have : (if isBranch i = true then 1 else 0) = (if (isBranch i && !i.mispred) = true then 1 else 0) +
        (if (isBranch i && i.mispred) = true then 1 else 0) := by
      cases isBranch i <;> cases i.mispred <;> rfl
    omega

theorem sums_run (logs : List (Rat × List Commit)) : ∀ s, (logs.map fun l => (l.1, run l.2)).foldl addLog s =
    (s.1 + weighted right logs, s.2.1 + weighted branches logs, s.2.2 + weighted missed logs) := by
  induction logs with
  | nil => intro s; simp [weighted, Rat.add_zero]
  | cons l t ih =>
    intro s
    rw [List.map_cons, List.foldl_cons, ih]
    have h : (branches l.2 : Rat) - (missed l.2 : Rat) = (right l.2 : Rat) := by
      rw [right_missed, Rat.natCast_add]; grind
    simp only [addLog, brNum_run, brMiss_run, weighted, List.map_cons, List.sum_cons, h, Rat.add_assoc]

theorem weighted_nonneg (f : List Commit → Nat) (logs : List (Rat × List Commit)) (h : ∀ l ∈ logs, 0 < l.1) : 0 ≤ weighted f logs := by
  induction logs with
  | nil => simp [weighted]
  | cons l t ih =>
    have h1 := ih fun l' hl' => h l' (by simp [hl'])
    have h2 : (0 : Rat) ≤ (f l.2 : Rat) * l.1 := Rat.mul_nonneg (by exact_mod_cast Nat.zero_le _) (Rat.le_of_lt (h l (by simp)))
    simp only [weighted, List.map_cons, List.sum_cons] at h1 ⊢
    grind

theorem weighted_split (logs : List (Rat × List Commit)) : weighted branches logs = weighted right logs + weighted missed logs := by
  induction logs with
  | nil => simp [weighted]; grind
  | cons l t ih =>
    simp only [weighted, List.map_cons, List.sum_cons] at ih ⊢
    rw [ih, right_missed, Rat.natCast_add]
    grind

end Verif.BranchCountProofs

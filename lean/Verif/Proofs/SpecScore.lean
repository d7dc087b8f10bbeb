import Verif.Spec.SpecScore
namespace Verif.SpecScoreProofs
open Verif.SpecScore Verif.SpecScoreSpec

theorem foldl_add (xs : List (Rat × Rat)) : ∀ s, xs.foldl add s = (s.1 + (xs.map fun x => x.2 * x.1).sum, s.2 + (xs.map Prod.fst).sum) := by
  induction xs with
  | nil => intro s; simp [Rat.add_zero]
  | cons x xs ih =>
    intro s
    rw [List.foldl_cons, ih]
    simp only [add, List.map_cons, List.sum_cons, Rat.add_assoc]

theorem weightOf_cons (p : Rat × Nat) (t : List (Rat × Nat)) (i : Nat) :
    weightOf (p :: t) i = (weightOf t i).or (if p.2 = i then some p.1 else none) := by
  simp only [weightOf, List.reverse_cons, List.find?_append]
  cases h : List.find? (fun p => p.2 == i) t.reverse
  · by_cases hp : p.2 = i <;> simp [hp]
  · simp

theorem weightOf_none (t : List (Rat × Nat)) (i : Nat) (h : i ∉ t.map Prod.snd) : weightOf t i = none := by
  simp only [weightOf, Option.map_eq_none_iff, List.find?_eq_none, List.mem_reverse]
  intro p hp he
  exact h (List.mem_map.2 ⟨p, hp, by simpa using he⟩)

theorem weightOf_mem (t : List (Rat × Nat)) (i : Nat) (w : Rat) (h : weightOf t i = some w) : (w, i) ∈ t := by
  simp only [weightOf, Option.map_eq_some_iff] at h
  obtain ⟨p, hp, rfl⟩ := h
  have h1 := List.mem_of_find?_eq_some hp
  have h2 := List.find?_some hp
  have : p.2 = i := by simpa using h2
  rw [← this]
  simpa using h1

/-- A sum over the simpoints. -/
def total (g : Option Rat → Rat) (pts : List (Rat × Nat)) (m : Nat → Option Rat) : Rat := (pts.map fun p => g (m p.2) * p.1).sum

theorem total_update (g : Option Rat → Rat) (hg : g none = 0) (m : Nat → Option Rat) (i : Nat) (c : Rat) (hi : m i = none) :
    ∀ pts, Distinct pts → total g pts (fun j => if j = i then some c else m j) = g (some c) * (weightOf pts i).getD 0 + total g pts m := by
  intro pts
  induction pts with
  | nil => intro _; simp [total, weightOf]; grind
  | cons p t ih =>
    intro hd
    have hd' : p.2 ∉ t.map Prod.snd ∧ (t.map Prod.snd).Nodup := List.nodup_cons.1 hd
    have := ih hd'.2
    simp only [total, List.map_cons, List.sum_cons] at this ⊢
    rw [this, weightOf_cons]
    by_cases hp : p.2 = i
    · rw [weightOf_none t i (hp ▸ hd'.1)]
      simp [hp, hi, hg]
    · simp [hp]
      grind

theorem sample_of (lines : List (Rat × Nat)) (l : Log) :
    (∃ i c, result l i = some c ∧ (∀ j, result l j = if j = i then some c else none) ∧ sample lines l = (weightOf lines i).map (fun w => (w, c))) ∨
    ((∀ i, result l i = none) ∧ sample lines l = none) := by
  unfold sample cpiOf result
  rcases l with ⟨_ | j, _ | _, _ | ⟨_ | n, cyc⟩⟩
  case some.true.some.succ =>
    left
    refine ⟨j, (cyc : Rat) / ((n + 1 : Nat) : Rat), by simp, ?_, ?_⟩
    · intro k
      by_cases h : j = k
      · subst h; simp
      · simp [h, Ne.symm h]
    · cases h : weightOf lines j <;> simp [h]
  all_goals
    right
    refine ⟨fun i => rfl, ?_⟩
    first
      | rfl
      | (cases h : weightOf lines j <;> simp [h])

theorem sample_eq (lines : List (Rat × Nat)) (l : Log) (w c : Rat) (h : sample lines l = some (w, c)) :
    ∃ i, weightOf lines i = some w ∧ result l i = some c := by
  rcases sample_of lines l with ⟨i, d, hr, _, hs⟩ | ⟨_, hs⟩
  · rw [hs] at h
    cases hw : weightOf lines i with
    | none => rw [hw] at h; cases h
    | some v =>
      rw [hw] at h
      simp only [Option.map_some, Option.some.injEq, Prod.mk.injEq] at h
      exact ⟨i, by rw [hw, h.1], by rw [hr, h.2]⟩
  · rw [hs] at h; cases h

theorem measured_none (logs : List Log) (i : Nat) (h : ∀ l ∈ logs, result l i = none) : measured logs i = none := by
  simp only [measured, List.findSome?_eq_none_iff]
  exact h

theorem total_logs (g : Option Rat → Rat) (hg : g none = 0) (pts : List (Rat × Nat)) (hd : Distinct pts) : ∀ logs, Once logs →
    total g pts (measured logs) = ((logs.filterMap (sample pts)).map fun x => g (some x.2) * x.1).sum := by
  intro logs
  induction logs with
  | nil =>
    intro _
    have : ∀ ps : List (Rat × Nat), (ps.map fun p => g (measured [] p.2) * p.1).sum = 0 := by
      intro ps
      induction ps with
      | nil => rfl
      | cons p t ih =>
        rw [List.map_cons, List.sum_cons, ih]
        simp [measured, hg]
        grind
    exact this pts
  | cons l t ih =>
    intro ho
    obtain ⟨h1, h2⟩ := List.pairwise_cons.1 ho
    rcases sample_of pts l with ⟨i, c, hr, hall, hs⟩ | ⟨hr, hs⟩
    · have hm : measured (l :: t) = fun j => if j = i then some c else measured t j := by
        funext j
        simp only [measured, List.findSome?_cons, hall j]
        by_cases h : j = i <;> simp [h]
      have hn : measured t i = none := measured_none t i fun l' hl' => by
        rcases h1 l' hl' i with h | h
        · rw [hr] at h; cases h
        · exact h
      rw [hm, total_update g hg _ i c hn pts hd, ih h2, List.filterMap_cons, hs]
      cases hw : weightOf pts i with
      | none => simp; grind
      | some w => simp
    · have hm : measured (l :: t) = measured t := by
        funext j
        simp [measured, hr j]
      rw [hm, ih h2, List.filterMap_cons, hs]

theorem sums_eq (pts : List (Rat × Nat)) (hd : Distinct pts) (logs : List Log) (ho : Once logs) :
    sums pts logs = (weighted pts (measured logs), covered pts (measured logs)) := by
  have h1 := total_logs (fun o => o.getD 0) rfl pts hd logs ho
  have h2 := total_logs (fun o => if o.isSome then 1 else 0) rfl pts hd logs ho
  have h3 : covered pts (measured logs) = total (fun o => if o.isSome then 1 else 0) pts (measured logs) := by
    unfold covered total
    congr 1
    apply List.map_congr_left
    intro p _
    by_cases h : (measured logs p.2).isSome = true
    · simp only [h, if_true, Rat.one_mul]
    · simp only [h, if_false, Rat.zero_mul, Bool.false_eq_true]
  rw [h3, h2]
  show _ = (total (fun o => o.getD 0) pts (measured logs), _)
  rw [h1, sums, foldl_add]
  simp only [Option.getD_some, Option.isSome_some, if_true, Rat.one_mul, Rat.zero_add]

theorem cover_missing (m : Nat → Option Rat) (pts : List (Rat × Nat)) : covered pts m + missing pts m = (pts.map Prod.fst).sum := by
  induction pts with
  | nil => simp [covered, missing]; grind
  | cons p t ih =>
    simp only [covered, missing, List.map_cons, List.sum_cons] at ih ⊢
    cases (m p.2).isSome <;> simp <;> grind

theorem bounds (a b : Rat) (xs : List (Rat × Rat)) (h : ∀ x ∈ xs, 0 < x.1 ∧ a ≤ x.2 ∧ x.2 ≤ b) :
    a * (xs.map Prod.fst).sum ≤ (xs.map fun x => x.2 * x.1).sum ∧ (xs.map fun x => x.2 * x.1).sum ≤ b * (xs.map Prod.fst).sum ∧
    0 ≤ (xs.map Prod.fst).sum ∧ (xs ≠ [] → 0 < (xs.map Prod.fst).sum) := by
  induction xs with
  | nil => simp
  | cons x t ih =>
    obtain ⟨i1, i2, i3, _⟩ := ih fun y hy => h y (by simp [hy])
    obtain ⟨hw, ha, hb⟩ := h x (by simp)
    have e1 := Rat.mul_le_mul_of_nonneg_right ha (Rat.le_of_lt hw)
    have e2 := Rat.mul_le_mul_of_nonneg_right hb (Rat.le_of_lt hw)
    simp only [List.map_cons, List.sum_cons]
    refine ⟨by grind, by grind, by grind, fun _ => by grind⟩

end Verif.SpecScoreProofs

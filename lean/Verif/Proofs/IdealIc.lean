import Verif.Spec.IdealIc
namespace Verif.IdealIcProofs
open Verif.IdealIc Verif.IdealIcSpec

variable {c : Cfg}

theorem va_eq (a : Addr) (k : Nat) : va a k = addrOf a k := by
  apply BitVec.eq_of_toNat_eq
  simp [va, addrOf, Nat.mul_comm]

/-- What a slot holds if no slot before number `k0` has a fault. -/
def RightFrom (c : Cfg) (i : In) (a : Addr) (k0 k : Nat) (s : Slot) : Prop :=
  ((¬ inLine c a k ∨ ∃ j, k0 ≤ j ∧ j < k ∧ inLine c a j ∧ i.xl (addrOf a j) = .fault) → s = blank) ∧
  (inLine c a k → (¬ ∃ j, k0 ≤ j ∧ j < k ∧ inLine c a j ∧ i.xl (addrOf a j) = .fault) →
    (∀ p, i.xl (addrOf a k) = .ok p → s = ⟨i.mem p, false, true⟩) ∧ (i.xl (addrOf a k) = .fault → s = ⟨0x13#32, true, true⟩) ∧
    i.xl (addrOf a k) ≠ .retry)

theorem fill_length (i : In) (a : Addr) : ∀ n k, (fill c i a n k).1.length = n := by
  intro n
  induction n with
  | zero => intro k; rfl
  | succ n ih =>
    intro k
    unfold fill
    split
    · simp [ih]
    · split <;> simp [ih]

theorem fill_right (i : In) (a : Addr) : ∀ n k, (fill c i a n k).2 = true → ∀ j s, (fill c i a n k).1[j]? = some s → RightFrom c i a k (k + j) s := by
  intro n
  induction n with
  | zero => intro k _ j s h; simp [fill] at h
  | succ n ih =>
    intro k hc j s hs
    -- passing a slot without a fault
    have pass : ∀ j s, (¬ (inLine c a k ∧ i.xl (addrOf a k) = .fault)) → RightFrom c i a (k + 1) (k + 1 + j) s → RightFrom c i a k (k + (j + 1)) s := by
      intro j s hn h
      have e : k + 1 + j = k + (j + 1) := by omega
      rw [e] at h
      have hiff : (∃ m, k ≤ m ∧ m < k + (j + 1) ∧ inLine c a m ∧ i.xl (addrOf a m) = .fault) ↔
          (∃ m, k + 1 ≤ m ∧ m < k + (j + 1) ∧ inLine c a m ∧ i.xl (addrOf a m) = .fault) := by
        constructor
        · rintro ⟨m, h1, h2, h3, h4⟩
          by_cases hm : m = k
          · subst hm; exact absurd ⟨h3, h4⟩ hn
          · exact ⟨m, by omega, h2, h3, h4⟩
        · rintro ⟨m, h1, h2, h3, h4⟩
          exact ⟨m, by omega, h2, h3, h4⟩
      unfold RightFrom
      rw [hiff]
      exact h
    have first : ¬ ∃ m, k ≤ m ∧ m < k ∧ inLine c a m ∧ i.xl (addrOf a m) = .fault := by
      rintro ⟨m, h1, h2, _⟩; omega
    unfold fill at hc hs
    rw [va_eq] at hc hs
    by_cases hl : (addrOf a k).toNat / c.line ≠ a.toNat / c.line
    · rw [if_pos hl] at hc hs
      have hnl : ¬ inLine c a k := hl
      cases j with
      | zero =>
        simp only [List.getElem?_cons_zero, Option.some.injEq] at hs
        exact ⟨fun _ => hs.symm, fun h => absurd h hnl⟩
      | succ j =>
        simp only [List.getElem?_cons_succ] at hs
        exact pass j s (fun h => hnl h.1) (ih (k + 1) hc j s hs)
    · rw [if_neg hl] at hc hs
      have hil : inLine c a k := by unfold inLine; omega
      cases hx : i.xl (addrOf a k) with
      | retry => rw [hx] at hc; simp at hc
      | fault =>
        rw [hx] at hs
        cases j with
        | zero =>
          simp only [List.getElem?_cons_zero, Option.some.injEq] at hs
          refine ⟨fun h => ?_, fun _ _ => ⟨fun p hp => ?_, fun _ => hs.symm, ?_⟩⟩
          · rcases h with h | h
            · exact absurd hil h
            · exact absurd h first
          · rw [Nat.add_zero, hx] at hp; cases hp
          · rw [Nat.add_zero, hx]; intro h; cases h
        | succ j =>
          simp only [List.getElem?_cons_succ] at hs
          have hb : s = blank := by
            have := List.mem_of_getElem? hs
            exact List.eq_of_mem_replicate this
          have hex : ∃ m, k ≤ m ∧ m < k + (j + 1) ∧ inLine c a m ∧ i.xl (addrOf a m) = .fault := ⟨k, by omega, by omega, hil, hx⟩
          exact ⟨fun _ => hb, fun _ h => absurd hex h⟩
      | ok p =>
        rw [hx] at hc hs
        cases j with
        | zero =>
          simp only [List.getElem?_cons_zero, Option.some.injEq] at hs
          refine ⟨fun h => ?_, fun _ _ => ⟨fun q hq => ?_, fun hf => ?_, ?_⟩⟩
          · rcases h with h | h
            · exact absurd hil h
            · exact absurd h first
          · rw [Nat.add_zero, hx] at hq; cases hq; exact hs.symm
          · rw [Nat.add_zero, hx] at hf; cases hf
          · rw [Nat.add_zero, hx]; intro h; cases h
        | succ j =>
          simp only [List.getElem?_cons_succ] at hs
          exact pass j s (fun h => by rw [hx] at h; cases h.2) (ih (k + 1) hc j s hs)

theorem group_right (i : In) (a : Addr) (h : (fill c i a c.width 0).2 = true) : RightGroup c i a (fill c i a c.width 0).1 := by
  refine ⟨fill_length i a _ _, fun k s hs => ?_⟩
  have := fill_right i a _ _ h k s hs
  rw [Nat.zero_add] at this
  have hiff : (∃ j, 0 ≤ j ∧ j < k ∧ inLine c a j ∧ i.xl (addrOf a j) = .fault) ↔ afterFault c i a k := by
    simp [afterFault]
  unfold RightFrom at this
  rw [hiff] at this
  exact this

theorem answer_right (s : St) (i : In) (a : Addr) (g : List Slot) (h : answer c s i = some (a, g)) : RightGroup c i a g := by
  unfold answer at h
  split at h
  · cases h
  · split at h
    · cases h
    · split at h
      · rename_i hf
        simp only [Option.some.injEq, Prod.mk.injEq] at h
        obtain ⟨rfl, rfl⟩ := h
        exact group_right i _ hf
      · cases h

theorem fill_done (i : In) (a : Addr) (hx : ∀ v, i.xl v ≠ .retry) : ∀ n k, (fill c i a n k).2 = true := by
  intro n
  induction n with
  | zero => intro k; rfl
  | succ n ih =>
    intro k
    unfold fill
    split
    · exact ih _
    · split
      · rename_i h; exact absurd h (hx _)
      · rfl
      · exact ih _

theorem drop_none (s : St) (i : In) (h : s.pend = none) : (drop s i).pend = none := by
  unfold drop
  dsimp only
  split <;> split <;> simp_all

theorem work_none (s : St) (i : In) (h : s.pend = none) : work s i = if i.want then some i.addr else none := by
  unfold work
  rw [drop_none s i h]

/-- Without retries, each cycle answers its own request. -/
theorem answer_now (s : St) (i : In) (h : s.pend = none) (hr : i.reset = false) (hx : ∀ v, i.xl v ≠ .retry) :
    answer c s i = (if i.want then some (i.addr, (fill c i i.addr c.width 0).1) else none) ∧ (step c s i).pend = none := by
  have ha : answer c s i = (if i.want then some (i.addr, (fill c i i.addr c.width 0).1) else none) := by
    unfold answer
    rw [work_none s i h]
    cases hw : i.want <;> simp [hr, fill_done i _ hx]
  refine ⟨ha, ?_⟩
  unfold step
  rw [ha, work_none s i h]
  cases hw : i.want <;> simp [hr]

theorem taken_sent (is : List In) : ∀ s, s.pend = none → (∀ i ∈ is, i.reset = false ∧ ∀ v, i.xl v ≠ .retry) →
    (taken c s is).map Prod.fst = sent is := by
  induction is with
  | nil => intro s _ _; rfl
  | cons i is ih =>
    intro s hs h
    obtain ⟨h1, h2⟩ := answer_now (c := c) s i hs (h i (by simp)).1 (h i (by simp)).2
    have := ih (step c s i) h2 (fun j hj => h j (by simp [hj]))
    unfold taken
    rw [h1, List.map_append, this]
    cases hw : i.want <;> simp [sent, hw]

/-! ### A front end that waits -/

structure Inv (satp : Addr) (s : St) : Prop where
  unseen : s.satpSeen = false → s.pend = none
  seen : s.satpSeen = true → s.lastSatp = satp

theorem drop_calm (satp : Addr) (s : St) (i : In) (inv : Inv satp s) (h1 : i.itlbFlush = false) (h2 : i.fenceI = false) (h3 : i.satp = satp) :
    (drop s i).pend = s.pend ∧ (drop s i).satpSeen = true ∧ (drop s i).lastSatp = satp := by
  unfold drop
  cases hs : s.satpSeen
  · simp [h2, inv.unseen hs, h3]
  · simp [h1, h2, h3, inv.seen hs, hs]

theorem given_polite (satp : Addr) (is : List In) : ∀ s, Inv satp s → Calm satp is → Polite c s is →
    s.pend.toList ++ sent is = (given c s is).map Prod.fst ++ (is.foldl (step c) s).pend.toList := by
  induction is with
  | nil => intro s _ _ _; simp [sent, given]
  | cons i is ih =>
    intro s inv hc hp
    obtain ⟨c1, c2, c3, c4, c5⟩ := hc i (by simp)
    obtain ⟨d1, d2, d3⟩ := drop_calm satp s i inv c3 c4 c5
    have hst : (step c s i).satpSeen = true ∧ (step c s i).lastSatp = satp := by
      unfold step
      rw [c1, c2]
      simp only [Bool.false_eq_true, if_false]
      split <;> exact ⟨d2, d3⟩
    have := ih (step c s i) ⟨fun h => (by rw [hst.1] at h; cases h), fun _ => hst.2⟩ (fun j hj => hc j (by simp [hj])) hp.2
    have hw : s.pend.toList ++ sent [i] = (work s i).toList := by
      unfold work
      rw [d1]
      cases hq : s.pend with
      | none => cases hw : i.want <;> simp [sent, hw]
      | some a =>
        have : i.want = false := by
          cases hw : i.want with
          | false => rfl
          | true =>
            have := hp.1 hw
            simp [saysReady, c1, c2, c4, hq] at this
        simp [sent, this]
    have hs : sent (i :: is) = sent [i] ++ sent is := by
      simp only [sent, List.filterMap_cons, List.filterMap_nil]
      cases i.want <;> simp
    have hstep : (work s i).toList = (answer c s i).toList.map Prod.fst ++ (step c s i).pend.toList := by
      unfold step
      rw [c1, c2]
      unfold answer
      rw [c1]
      cases hq : work s i with
      | none => simp [hq]
      | some a =>
        by_cases hf : (fill c i a c.width 0).2 = true <;> simp [hf]
    rw [hs, ← List.append_assoc, hw, hstep, List.append_assoc, this]
    simp [given]

end Verif.IdealIcProofs

import Verif.Proofs.TageInv
/-
Lemmas about the direction predictor: the sweep over the `useful` bits.
-/
namespace Verif.Proofs.Tage
open Verif.Bpu (W32)
open Verif.Tage Verif.Spec.Tage

theorem low_eq {n : Nat} (hn : n ≤ 32) (w : W32) : low n w = w.toNat % 2 ^ n := by
  unfold low
  have h : 2 ^ n ≤ 2 ^ 32 := Nat.pow_le_pow_right (by decide) hn
  have h0 : 0 < 2 ^ n := Nat.pow_pos (by decide)
  rw [BitVec.toNat_and, BitVec.toNat_ofNat, Nat.mod_eq_of_lt (by omega), Nat.and_two_pow_sub_one_eq_mod]

theorem train_append (c : Cfg) (s : St) (as bs : List Upd) : train c s (as ++ bs) = train c (train c s as) bs :=
  List.foldl_append

theorem rst_train (c : Cfg) (us : List Upd) : ∀ s : St, (train c s us).rst.toNat = (s.rst.toNat + us.length) % 2 ^ 32 := by
  induction us with
  | nil => intro s; exact (Nat.mod_eq_of_lt s.rst.isLt).symm
  | cons u us ih =>
    intro s
    show (train c (update c s u) us).rst.toNat = _
    rw [ih]
    have : (update c s u).rst.toNat = (s.rst.toNat + 1) % 2 ^ 32 := by
      show (s.rst + 1).toNat = _
      rw [BitVec.toNat_add]; rfl
    rw [this, List.length_cons]
    omega

/-- What a training leaves of the `useful` of a row it does not address. -/
theorem age_step {c : Cfg} {s : St} {u : Upd} {i r : Nat} (hi : i < 4) (hu : u.m.idx i % 2 ^ c.idxBits ≠ r) :
    ((update c s u).tn i r).useful = match sweepRow c s with
      | none => (s.tn i r).useful
      | some (q, msb) => if r = q then (if msb then (s.tn i r).useful % 2 else (s.tn i r).useful / 2 % 2 * 2)
          else (s.tn i r).useful := by
  unfold update
  dsimp only
  rw [if_pos hi]
  have h1 : ¬ (i < 4 ∧ r = u.m.idx i % 2 ^ c.idxBits) := fun h => hu h.2.symm
  rw [if_neg h1]
  cases sweepRow c s with
  | none => rfl
  | some q =>
    obtain ⟨q, msb⟩ := q
    dsimp only
    by_cases hq : r = q
    · rw [if_pos hq, if_pos ⟨hq, fun h => hu (h.2.trans hq.symm)⟩]
    · rw [if_neg hq, if_neg (fun h => hq h.1)]

theorem ageA (v : Nat) (_ : v ≤ 3) : v % 2 ≤ 3 ∧ (v % 2 = 0 → v % 2 % 2 = 0) ∧ (v < 2 → v % 2 < 2) := by omega

theorem ageB (v : Nat) (_ : v ≤ 3) :
    v / 2 % 2 * 2 ≤ 3 ∧ (v % 2 = 0 → v / 2 % 2 * 2 % 2 = 0) ∧ (v < 2 → v / 2 % 2 * 2 < 2) := by omega

theorem age_mono {c : Cfg} {i r : Nat} (hi : i < 4) (us : List Upd) : ∀ {s : St},
    (∀ u ∈ us, u.m.idx i % 2 ^ c.idxBits ≠ r) → (s.tn i r).useful ≤ 3 →
    ((train c s us).tn i r).useful ≤ 3 ∧
    ((s.tn i r).useful % 2 = 0 → ((train c s us).tn i r).useful % 2 = 0) ∧
    ((s.tn i r).useful < 2 → ((train c s us).tn i r).useful < 2) := by
  induction us with
  | nil => intro s _ h; exact ⟨h, fun h => h, fun h => h⟩
  | cons u us ih =>
    intro s hus h3
    have hs := age_step (c := c) (s := s) hi (hus u (by simp))
    have h : ((update c s u).tn i r).useful ≤ 3 ∧ ((s.tn i r).useful % 2 = 0 → ((update c s u).tn i r).useful % 2 = 0) ∧
        ((s.tn i r).useful < 2 → ((update c s u).tn i r).useful < 2) := by
      rw [hs]
      generalize (s.tn i r).useful = v at h3 ⊢
      cases sweepRow c s with
      | none => exact ⟨h3, fun h => h, fun h => h⟩
      | some q =>
        dsimp only
        split
        · split
          · exact ageA v h3
          · exact ageB v h3
        · exact ⟨h3, fun h => h, fun h => h⟩
    have := ih (s := update c s u) (fun v hv => hus v (by simp [hv])) h.1
    exact ⟨this.1, fun x => this.2.1 (h.2.1 x), fun x => this.2.2 (h.2.2 x)⟩

/-- The sweep of row `r` in phase `b`. -/
theorem sweep_at {c : Cfg} (hc : c.idxBits ≤ 12) {s : St} {r : Nat} {b : Bool} (hr : r < 2 ^ c.idxBits)
    (h : s.rst.toNat % 2 ^ 24 = b.toNat * 2 ^ 23 + r * 2 ^ 11) : sweepRow c s = some (r, b) := by
  have hr12 : r < 4096 := by
    have : 2 ^ c.idxBits ≤ 2 ^ 12 := Nat.pow_le_pow_right (by decide) hc
    omega
  have hb : b.toNat ≤ 1 := by cases b <;> decide
  have h11 : low 11 s.rst = 0 := by rw [low_eq (by decide)]; omega
  have h12 : low 12 (s.rst >>> 11) = r := by
    rw [low_eq (by decide), BitVec.toNat_ushiftRight, Nat.shiftRight_eq_div_pow]; omega
  have h23 : s.rst.getLsbD 23 = b := by
    rw [BitVec.getLsbD, Nat.testBit_eq_decide_div_mod_eq]
    cases b <;> simp at h ⊢ <;> omega
  unfold sweepRow
  rw [if_pos h11, h12, h23, Nat.mod_eq_of_lt hr]

theorem age_phase {c : Cfg} (hc : c.idxBits ≤ 12) {i r : Nat} (hi : i < 4) (hr : r < 2 ^ c.idxBits) (b : Bool) {us : List Upd}
    {s : St} (hlen : 2 ^ 24 ≤ us.length) (hus : ∀ u ∈ us, u.m.idx i % 2 ^ c.idxBits ≠ r) (h3 : (s.tn i r).useful ≤ 3) :
    if b then ((train c s us).tn i r).useful < 2 else ((train c s us).tn i r).useful % 2 = 0 := by
  have hb : b.toNat ≤ 1 := by cases b <;> decide
  have hr12 : r < 4096 := by
    have : 2 ^ c.idxBits ≤ 2 ^ 12 := Nat.pow_le_pow_right (by decide) hc
    omega
  obtain ⟨t, ht, hmod⟩ : ∃ t, t < 2 ^ 24 ∧ (s.rst.toNat + t) % 2 ^ 32 % 2 ^ 24 = b.toNat * 2 ^ 23 + r * 2 ^ 11 := by
    refine ⟨(b.toNat * 2 ^ 23 + r * 2 ^ 11 + 2 ^ 24 - s.rst.toNat % 2 ^ 24) % 2 ^ 24, ?_, ?_⟩
    · exact Nat.mod_lt _ (by decide)
    · omega
  have hsplit : us = us.take t ++ (us.drop t) := (List.take_append_drop t us).symm
  have htl : (us.take t).length = t := by rw [List.length_take]; omega
  cases hd : us.drop t with
  | nil =>
    have := congrArg List.length hd
    rw [List.length_drop] at this
    simp at this; omega
  | cons u rest =>
    rw [hd] at hsplit
    have hmem : ∀ v, v ∈ us.take t ∨ v = u ∨ v ∈ rest → v ∈ us := by
      intro v hv
      rw [hsplit]; simp only [List.mem_append, List.mem_cons]; exact hv
    have hall : ∀ v ∈ us.take t, v.m.idx i % 2 ^ c.idxBits ≠ r := fun v hv => hus v (hmem v (.inl hv))
    have hrest : ∀ v ∈ rest, v.m.idx i % 2 ^ c.idxBits ≠ r := fun v hv => hus v (hmem v (.inr (.inr hv)))
    have hu := hus u (hmem u (.inr (.inl rfl)))
    have h3' := (age_mono hi (us.take t) hall h3).1
    have hsw : sweepRow c (train c s (us.take t)) = some (r, b) := by
      refine sweep_at hc hr ?_
      rw [rst_train, htl]; exact hmod
    have hone := age_step (c := c) (s := train c s (us.take t)) hi hu
    rw [hsw] at hone
    dsimp only at hone
    rw [if_pos rfl] at hone
    have hle : ((update c (train c s (us.take t)) u).tn i r).useful ≤ 3 := by
      rw [hone]; split <;> omega
    have hm := age_mono hi rest (s := update c (train c s (us.take t)) u) hrest hle
    have heq : train c s us = train c (update c (train c s (us.take t)) u) rest := by
      rw [hsplit, train_append]
      rw [show (us.take t ++ u :: rest).take t = us.take t from by rw [← hsplit]]
      rfl
    rw [heq]
    cases b with
    | true =>
      simp only [if_true] at hone ⊢
      exact hm.2.2 (by omega)
    | false =>
      simp only [Bool.false_eq_true, if_false] at hone ⊢
      exact hm.2.1 (by omega)

/-! ### Allocation -/

theorem tag_change {c : Cfg} {s : St} {u : Upd} {i r : Nat} (h : ((update c s u).tn i r).tag ≠ (s.tn i r).tag) :
    r = u.m.idx i % 2 ^ c.idxBits ∧ allocTab (urow c s u) u (lsfrRand (lsfrNext s.lsfr)) = some i := by
  rw [(tn_tag_cnt c s u i r).1] at h
  by_cases hc : i < 4 ∧ r = u.m.idx i % 2 ^ c.idxBits
  · refine ⟨hc.2, ?_⟩
    rw [if_pos hc] at h
    by_cases ha : allocTab (urow c s u) u (lsfrRand (lsfrNext s.lsfr)) = some i
    · exact ha
    · exfalso
      apply h
      unfold newRow
      dsimp only
      rw [if_neg ha]
      have : (urow c s u i).tag = (s.tn i r).tag := by unfold urow; rw [hc.2]
      split
      · exact this
      · split <;> exact this
  · rw [if_neg hc] at h; exact absurd rfl h

theorem alloc_row {c : Cfg} {s : St} {u : Upd} {i : Nat}
    (h : allocTab (urow c s u) u (lsfrRand (lsfrNext s.lsfr)) = some i) :
    (update c s u).tn i (u.m.idx i % 2 ^ c.idxBits) = ⟨u.m.tag i, if u.dir then 4 else 3, 0⟩ := by
  obtain ⟨_, h4, _, _⟩ := allocTab_some h
  have hw : usefulWe (urow c s u) u (lsfrRand (lsfrNext s.lsfr)) i = true := by
    unfold usefulWe; simp [h]
  have hn : newRow (urow c s u) u (lsfrRand (lsfrNext s.lsfr)) i = ⟨u.m.tag i, if u.dir then 4 else 3, 0⟩ := by
    unfold newRow; dsimp only; rw [if_pos h]
  unfold update
  dsimp only
  rw [if_pos h4, if_pos ⟨h4, rfl⟩, hn]
  cases sweepRow c s with
  | none => rfl
  | some q =>
    obtain ⟨q, msb⟩ := q
    dsimp only
    rw [if_neg]
    rintro ⟨a, b⟩
    exact b ⟨hw, a⟩

end Verif.Proofs.Tage

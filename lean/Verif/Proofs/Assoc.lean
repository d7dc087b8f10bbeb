import Verif.Model.BpuTab
/- Set-associative tables in general: one way per tag, lookups after a write, no eviction while the tags fit. -/
namespace Verif.BpuTab

variable {P : Type}

/-- What a set says about a tag. -/
def look (n : Nat) (s : Nat → Way P) (t : Nat) : Option (Way P) := (hitWay n s t).map s

/-- No two ways of a set are valid with the same tag. -/
def Unique (n : Nat) (s : Nat → Way P) : Prop :=
  ∀ v w, v < n → w < n → (s v).valid = true → (s w).valid = true → (s v).tag = (s w).tag → v = w

theorem hitWay_some {n : Nat} {s : Nat → Way P} {t w : Nat} (h : hitWay n s t = some w) :
    w < n ∧ (s w).valid = true ∧ (s w).tag = t := by
  unfold hitWay at h
  have h1 := List.find?_some h
  have h2 := List.mem_of_find?_eq_some h
  simp at h1 h2
  exact ⟨h2, h1⟩

theorem hitWay_none {n : Nat} {s : Nat → Way P} {t : Nat} (h : hitWay n s t = none) {w : Nat} (hw : w < n)
    (hv : (s w).valid = true) : (s w).tag ≠ t := by
  unfold hitWay at h
  rw [List.find?_eq_none] at h
  have := h w (List.mem_range.mpr hw)
  simpa [hv] using this

theorem hitWay_unique {n : Nat} {s : Nat → Way P} (u : Unique n s) {w : Nat} (hw : w < n) (hv : (s w).valid = true) :
    hitWay n s (s w).tag = some w := by
  rcases h : hitWay n s (s w).tag with _ | v
  · exact absurd rfl (hitWay_none h hw hv)
  · obtain ⟨h1, h2, h3⟩ := hitWay_some h
    rw [u v w h1 hw h2 hv h3]

theorem look_iff {n : Nat} {s : Nat → Way P} (u : Unique n s) {t : Nat} {e : Way P} :
    look n s t = some e ↔ ∃ w, w < n ∧ s w = e ∧ e.valid = true ∧ e.tag = t := by
  unfold look
  rw [Option.map_eq_some_iff]
  constructor
  · rintro ⟨w, h, rfl⟩
    obtain ⟨h1, h2, h3⟩ := hitWay_some h
    exact ⟨w, h1, rfl, h2, h3⟩
  · rintro ⟨w, h, rfl, hv, rfl⟩
    exact ⟨w, hitWay_unique u h hv, rfl⟩

theorem look_none_iff {n : Nat} {s : Nat → Way P} {t : Nat} :
    look n s t = none ↔ ∀ w, w < n → (s w).valid = true → (s w).tag ≠ t := by
  unfold look
  rw [Option.map_eq_none_iff]
  constructor
  · intro h w hw hv; exact hitWay_none h hw hv
  · intro h
    rcases hh : hitWay n s t with _ | w
    · rfl
    · obtain ⟨h1, h2, h3⟩ := hitWay_some hh
      exact absurd h3 (h w h1 h2)

/-! ### Victims -/

theorem freeWay_some {n : Nat} {s : Nat → Way P} {w : Nat} (h : freeWay n s = some w) : w < n ∧ (s w).valid = false := by
  unfold freeWay at h
  have h1 := List.find?_some h
  have h2 := List.mem_of_find?_eq_some h
  simp at h1 h2
  exact ⟨h2, h1⟩

theorem freeWay_none {n : Nat} {s : Nat → Way P} (h : freeWay n s = none) {w : Nat} (hw : w < n) : (s w).valid = true := by
  unfold freeWay at h
  rw [List.find?_eq_none] at h
  have := h w (List.mem_range.mpr hw)
  simpa using this

theorem scan_mem (s : Nat → Way P) (ways : List Nat) : ∀ p : Nat × Nat,
    (scanLeast s ways p).2 = p.2 ∨ (scanLeast s ways p).2 ∈ ways := by
  induction ways with
  | nil => intro p; exact Or.inl rfl
  | cons w r ih =>
    intro p
    unfold scanLeast
    rw [List.foldl_cons]
    rcases ih (if (s w).rank < p.1 then ((s w).rank, w) else p) with h | h
    · unfold scanLeast at h
      rw [h]
      split
      · exact Or.inr (by simp)
      · exact Or.inl rfl
    · exact Or.inr (List.mem_cons_of_mem _ h)

/-- The scan finds a least rank. -/
theorem scan_least (s : Nat → Way P) (ways : List Nat) : ∀ p : Nat × Nat,
    (scanLeast s ways p).1 ≤ p.1 ∧ (∀ w ∈ ways, (scanLeast s ways p).1 ≤ (s w).rank) ∧
    ((scanLeast s ways p) = p ∨ (s (scanLeast s ways p).2).rank = (scanLeast s ways p).1) := by
  induction ways with
  | nil => intro p; exact ⟨Nat.le_refl _, by simp, Or.inl rfl⟩
  | cons w r ih =>
    intro p
    have e : scanLeast s (w :: r) p = scanLeast s r (if (s w).rank < p.1 then ((s w).rank, w) else p) := rfl
    rw [e]
    obtain ⟨h1, h2, h3⟩ := ih (if (s w).rank < p.1 then ((s w).rank, w) else p)
    by_cases hlt : (s w).rank < p.1
    · rw [if_pos hlt] at h1 h2 h3 ⊢
      refine ⟨by have : ((s w).rank, w).1 = (s w).rank := rfl; omega, ?_, ?_⟩
      · intro v hv
        rcases List.mem_cons.mp hv with rfl | hv
        · exact h1
        · exact h2 v hv
      · rcases h3 with h | h
        · right; rw [h]
        · exact Or.inr h
    · rw [if_neg hlt] at h1 h2 h3 ⊢
      refine ⟨h1, ?_, h3⟩
      intro v hv
      rcases List.mem_cons.mp hv with rfl | hv
      · omega
      · exact h2 v hv

theorem typeVictim_lt {n : Nat} (hn : 0 < n) (s : Nat → Way P) : typeVictim n s < n := by
  unfold typeVictim
  rcases h : freeWay n s with _ | w
  · rcases scan_mem s ((List.range n).drop 1) ((s 0).rank, 0) with e | e
    · simp only [Option.getD_none, e]; exact hn
    · simpa using List.mem_of_mem_drop e
  · exact (freeWay_some h).1

theorem btbVictim_lt {n : Nat} (hn : 0 < n) (s : Nat → Way P) : btbVictim n s < n := by
  unfold btbVictim
  rcases h : freeWay n s with _ | w
  · rcases scan_mem s (List.range n) (255, 0) with e | e
    · simp only [Option.getD_none, e]; exact hn
    · simpa using e
  · exact (freeWay_some h).1

/-! ### Writes -/

/-- Where a tag is written: its way, or a victim. -/
def dest (n : Nat) (victim : Nat) (s : Nat → Way P) (t : Nat) : Nat := (hitWay n s t).getD victim

theorem put_unique {n v : Nat} {s : Nat → Way P} (u : Unique n s) (t : Nat) (e : Way P) (ht : e.tag = t) :
    Unique n (put s (dest n v s t) e) := by
  have key : ∀ x y, x < n → y < n → (put s (dest n v s t) e x).valid = true → (put s (dest n v s t) e y).valid = true →
      (put s (dest n v s t) e x).tag = (put s (dest n v s t) e y).tag → y = dest n v s t → x = y := by
    intro x y hx hy vx vy he hyd
    unfold put at vx vy he
    rw [if_pos hyd] at vy he
    by_cases hxd : x = dest n v s t
    · rw [hxd, hyd]
    · rw [if_neg hxd] at vx he
      have := hitWay_unique u hx vx
      rw [he, ht] at this
      unfold dest at hxd
      rw [this] at hxd
      exact absurd rfl hxd
  intro x y hx hy vx vy he
  by_cases hyd : y = dest n v s t
  · exact key x y hx hy vx vy he hyd
  · by_cases hxd : x = dest n v s t
    · exact (key y x hy hx vy vx he.symm hxd).symm
    · unfold put at vx vy he
      rw [if_neg hxd] at vx he
      rw [if_neg hyd] at vy he
      exact u x y hx hy vx vy he

theorem look_put_self {n v : Nat} {s : Nat → Way P} (u : Unique n s) (hv : v < n) (t : Nat) (e : Way P) (ht : e.tag = t)
    (he : e.valid = true) : look n (put s (dest n v s t) e) t = some e := by
  rw [look_iff (put_unique u t e ht)]
  refine ⟨dest n v s t, ?_, by simp [put], he, ht⟩
  unfold dest
  rcases h : hitWay n s t with _ | w
  · exact hv
  · exact (hitWay_some h).1

/-- Another tag's entry stays or is gone. -/
theorem look_put_other {n v : Nat} {s : Nat → Way P} (u : Unique n s) {t t' : Nat} (e : Way P) (ht : e.tag = t)
    (hne : t' ≠ t) :
    look n (put s (dest n v s t) e) t' = none ∨ look n (put s (dest n v s t) e) t' = look n s t' := by
  rcases h : look n (put s (dest n v s t) e) t' with _ | f
  · exact Or.inl rfl
  · right
    obtain ⟨w, hw, rfl, hv, hf⟩ := (look_iff (put_unique u t e ht)).mp h
    by_cases hwd : w = dest n v s t
    · unfold put at hf; rw [if_pos hwd] at hf; exact absurd (hf.symm.trans ht) hne
    · unfold put at hv hf ⊢
      rw [if_neg hwd] at hv hf ⊢
      exact ((look_iff u).mpr ⟨w, hw, rfl, hv, hf⟩).symm

/-- It stays if the way written was free or its own. -/
theorem look_put_keep {n v : Nat} {s : Nat → Way P} (u : Unique n s) {t t' : Nat} (e : Way P) (ht : e.tag = t) (hne : t' ≠ t)
    (hfree : hitWay n s t = none → (s v).valid = false) :
    look n (put s (dest n v s t) e) t' = look n s t' := by
  rcases h : look n s t' with _ | f
  · rcases look_put_other (v := v) u e ht hne with h' | h'
    · exact h'
    · rw [h', h]
  · obtain ⟨w, hw, rfl, hv, hf⟩ := (look_iff u).mp h
    have hwd : w ≠ dest n v s t := by
      intro hwd
      unfold dest at hwd
      rcases hh : hitWay n s t with _ | x
      · rw [hh, Option.getD_none] at hwd
        rw [hwd, hfree hh] at hv
        cases hv
      · rw [hh, Option.getD_some] at hwd
        obtain ⟨-, -, h3⟩ := hitWay_some hh
        rw [← hwd] at h3
        exact hne (hf.symm.trans h3)
    exact (look_iff (put_unique u t e ht)).mpr ⟨w, hw, by simp [put, hwd], hv, hf⟩

/-! ### Fitting -/

theorem nodup_length_le {l k : List Nat} (hl : l.Nodup) : (∀ x ∈ l, x ∈ k) → l.length ≤ k.length := by
  induction l generalizing k with
  | nil => intro _; exact Nat.zero_le _
  | cons a r ih =>
    intro h
    rw [List.nodup_cons] at hl
    have ha := h a (by simp)
    have := ih (k := k.erase a) hl.2 (fun x hx => by
      have hxa : x ≠ a := fun e => hl.1 (e ▸ hx)
      exact (List.mem_erase_of_ne hxa).mpr (h x (by simp [hx])))
    rw [List.length_erase_of_mem ha] at this
    have : 0 < k.length := List.length_pos_of_mem ha
    simp only [List.length_cons]
    omega

/-- If all resident tags are among `n` tags and one of these misses, a way is free. -/
theorem free_of_fit {n : Nat} {s : Nat → Way P} (u : Unique n s) {K : List Nat} (hK : K.length ≤ n)
    (hres : ∀ w, w < n → (s w).valid = true → (s w).tag ∈ K) {t : Nat} (ht : t ∈ K) (hm : hitWay n s t = none) :
    ∃ w, freeWay n s = some w := by
  rcases hf : freeWay n s with _ | w
  · exfalso
    have hnd : ((List.range n).map (fun w => (s w).tag)).Nodup := by
      unfold List.Nodup
      rw [List.pairwise_map]
      have := List.nodup_range (n := n)
      unfold List.Nodup at this
      refine List.Pairwise.imp_of_mem ?_ this
      intro x y hx hy hxy he
      rw [List.mem_range] at hx hy
      exact hxy (u x y hx hy (freeWay_none hf hx) (freeWay_none hf hy) he)
    have hle := nodup_length_le (k := K.erase t) hnd (fun x hx => by
      obtain ⟨w, hw, rfl⟩ := List.mem_map.mp hx
      rw [List.mem_range] at hw
      have hv := freeWay_none hf hw
      exact (List.mem_erase_of_ne (hitWay_none hm hw hv)).mpr (hres w hw hv))
    rw [List.length_erase_of_mem ht] at hle
    have : 0 < K.length := List.length_pos_of_mem ht
    simp at hle
    omega
  · exact ⟨w, rfl⟩

end Verif.BpuTab

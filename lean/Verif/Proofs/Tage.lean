import Verif.Spec.Tage
/-
Lemmas about the direction predictor.
-/
namespace Verif.Proofs.Tage
open Verif.Bpu (W32)
open Verif.Tage Verif.Spec.Tage

theorem low_lt (n : Nat) (w : W32) : low n w < 2 ^ n := by
  have h : (w &&& BitVec.ofNat 32 (2 ^ n - 1)).toNat ≤ (BitVec.ofNat 32 (2 ^ n - 1)).toNat := by
    rw [BitVec.toNat_and]; exact Nat.and_le_right
  have h2 : (BitVec.ofNat 32 (2 ^ n - 1)).toNat ≤ 2 ^ n - 1 := by rw [BitVec.toNat_ofNat]; exact Nat.mod_le _ _
  have h3 : 0 < 2 ^ n := Nat.pow_pos (by decide)
  unfold low; omega

theorem low_mod (n : Nat) (w : W32) : low n w % 2 ^ n = low n w := Nat.mod_eq_of_lt (low_lt n w)

theorem highest_spec (p : Nat → Bool) : ∀ n, n ≤ 4 →
    (highest p n < n ∧ p (highest p n) = true ∧ ∀ j, highest p n < j → j < n → p j = false) ∨
      (highest p n = 4 ∧ ∀ j, j < n → p j = false)
  | 0, _ => by right; exact ⟨rfl, fun j h => absurd h (Nat.not_lt_zero j)⟩
  | n + 1, hn => by
    unfold highest
    cases hp : p n with
    | true =>
      left
      simp only [if_true]
      exact ⟨Nat.lt_succ_self n, hp, fun j h1 h2 => absurd h2 (by omega)⟩
    | false =>
      simp only [Bool.false_eq_true, if_false]
      rcases highest_spec p n (by omega) with ⟨h1, h2, h3⟩ | ⟨h1, h2⟩
      · left
        refine ⟨by omega, h2, fun j a b => ?_⟩
        by_cases hj : j = n
        · subst hj; exact hp
        · exact h3 j a (by omega)
      · right
        refine ⟨h1, fun j a => ?_⟩
        by_cases hj : j = n
        · subst hj; exact hp
        · exact h2 j (by omega)

theorem highest_congr (p q : Nat → Bool) : ∀ n, (∀ j, j < n → p j = q j) → highest p n = highest q n
  | 0, _ => rfl
  | n + 1, h => by
    unfold highest
    rw [h n (Nat.lt_succ_self n), highest_congr p q n (fun j hj => h j (by omega))]

/-- The tag comparison of a prediction. -/
def hitB (c : Cfg) (s : St) (k : Key) (i : Nat) : Bool := (row c s k i).tag == tagOf c k.pc k.fh i

def prov (c : Cfg) (s : St) (k : Key) : Nat := highest (hitB c s k) 4

theorem pcpn_eq (c : Cfg) (s : St) (k : Key) : (predict c s k).pcpn = prov c s k := by
  unfold predict select prov hitB
  dsimp only
  split <;> rfl

theorem prov_le (c : Cfg) (s : St) (k : Key) : prov c s k ≤ 4 := by
  rcases highest_spec (hitB c s k) 4 (by decide) with ⟨h, _⟩ | ⟨h, _⟩
  · unfold prov; omega
  · unfold prov; omega

theorem hit_iff (c : Cfg) (s : St) (k : Key) (i : Nat) : Hit c s k i ↔ i < 4 ∧ hitB c s k i = true := by
  unfold Hit hitB; rw [beq_iff_eq]

/-! ### Strong counters decide -/

/-- A provider counter whose value is not 3 or 4 and says `d`. -/
def strong (d : Bool) (v : Nat) : Prop := if d then 5 ≤ v else v ≤ 2

theorem select_strong {c : Cfg} (hc : Cfg.Ok c) {base : Nat} {rows : Nat → Ent} {tags : Nat → Nat} {sc ua : Nat} {d : Bool}
    (hp : highest (fun i => (rows i).tag == tags i) 4 < 4)
    (hs : strong d (rows (highest (fun i => (rows i).tag == tags i) 4)).cnt) :
    (select c base rows tags sc ua).1 = d := by
  unfold select
  dsimp only
  rw [if_neg (by omega)]
  dsimp only
  generalize hcnt : (rows (highest (fun i => (rows i).tag == tags i) 4)).cnt = v at hs ⊢
  have hw1 : weak c.weakLow c.weakHigh v = false := by
    have h1 := hc.wl; have h2 := hc.wh
    unfold weak strong at *
    cases d <;> simp at hs ⊢ <;> omega
  have hw2 : weak c.scWeakLow c.scWeakHigh v = false := by
    have h1 := hc.sl; have h2 := hc.sh
    unfold weak strong at *
    cases d <;> simp at hs ⊢ <;> omega
  rw [hw1, hw2]
  simp only [Bool.false_and, Bool.and_false, Bool.false_eq_true, if_false]
  unfold strong at hs
  cases d <;> simp at hs ⊢ <;> omega

theorem predict_strong {c : Cfg} (hc : Cfg.Ok c) {s : St} {k : Key} {d : Bool} (hp : prov c s k < 4)
    (hs : strong d (row c s k (prov c s k)).cnt) : (predict c s k).pred = d := by
  have hsel := select_strong (c := c) hc (base := s.base (baseIdx c k.pc)) (rows := row c s k) (tags := tagOf c k.pc k.fh)
    (sc := s.sc (scIdx c k.pc)) (ua := s.useAlt) (d := d) hp hs
  have hpc := pcpn_eq c s k
  have hw : weak c.weakLow c.weakHigh (row c s k (prov c s k)).cnt = false := by
    have h1 := hc.wl; have h2 := hc.wh
    unfold weak strong at *
    cases d <;> simp at hs ⊢ <;> omega
  unfold predict at hpc ⊢
  dsimp only at hpc ⊢
  rw [hpc, hw]
  simp only [Bool.and_false, Bool.false_and, Bool.false_eq_true, if_false]
  exact hsel

theorem predict_unknown {c : Cfg} {s : St} {k : Key} (hp : prov c s k = 4) :
    (predict c s k).pred = decide (2 ≤ s.base (baseIdx c k.pc)) := by
  have hpc := pcpn_eq c s k
  have hsel : (select c (s.base (baseIdx c k.pc)) (row c s k) (tagOf c k.pc k.fh) (s.sc (scIdx c k.pc)) s.useAlt).1 =
      decide (2 ≤ s.base (baseIdx c k.pc)) := by
    unfold select
    dsimp only
    have h : 4 ≤ highest (fun i => (row c s k i).tag == tagOf c k.pc k.fh i) 4 := by
      unfold prov hitB at hp; omega
    rw [if_pos h]
  unfold predict at hpc ⊢
  dsimp only at hpc ⊢
  rw [hpc, hp]
  simp only [Nat.lt_irrefl, decide_false, Bool.false_and, Bool.false_eq_true, if_false]
  exact hsel

/-! ### One training -/

theorem tn_tag_cnt (c : Cfg) (s : St) (u : Upd) (i r : Nat) :
    ((update c s u).tn i r).tag =
        (if i < 4 ∧ r = u.m.idx i % 2 ^ c.idxBits then newRow (urow c s u) u (lsfrRand (lsfrNext s.lsfr)) i else s.tn i r).tag ∧
      ((update c s u).tn i r).cnt =
        (if i < 4 ∧ r = u.m.idx i % 2 ^ c.idxBits then newRow (urow c s u) u (lsfrRand (lsfrNext s.lsfr)) i
          else s.tn i r).cnt := by
  unfold update
  dsimp only
  by_cases h4 : i < 4
  · rw [if_pos h4]
    cases sweepRow c s with
    | none => exact ⟨rfl, rfl⟩
    | some q =>
      obtain ⟨q, msb⟩ := q
      dsimp only
      split <;> exact ⟨rfl, rfl⟩
  · rw [if_neg h4]; exact ⟨rfl, rfl⟩

/-- The training that follows a prediction. -/
abbrev own (c : Cfg) (s : St) (k : Key) (d : Bool) : Upd := ⟨k.pc, d, predict c s k⟩

theorem own_idx (c : Cfg) (s : St) (k : Key) (d : Bool) (i : Nat) :
    (own c s k d).m.idx i % 2 ^ c.idxBits = idxOf c k.pc k.fh i := low_mod _ _

theorem own_urow (c : Cfg) (s : St) (k : Key) (d : Bool) : urow c s (own c s k d) = row c s k := by
  funext i
  unfold urow row
  rw [own_idx]

theorem own_row (c : Cfg) (s : St) (k : Key) (d : Bool) {i : Nat} (hi : i < 4) :
    (row c (update c s (own c s k d)) k i).tag =
        (newRow (row c s k) (own c s k d) (lsfrRand (lsfrNext s.lsfr)) i).tag ∧
      (row c (update c s (own c s k d)) k i).cnt =
        (newRow (row c s k) (own c s k d) (lsfrRand (lsfrNext s.lsfr)) i).cnt := by
  have h := tn_tag_cnt c s (own c s k d) i (idxOf c k.pc k.fh i)
  rw [own_urow, own_idx, if_pos ⟨hi, rfl⟩] at h
  exact h

theorem own_base (c : Cfg) (s : St) (k : Key) (d : Bool) :
    (update c s (own c s k d)).base (baseIdx c k.pc) =
      if 4 ≤ prov c s k then bump 3 d (s.base (baseIdx c k.pc)) else s.base (baseIdx c k.pc) := by
  show (if baseIdx c k.pc = baseIdx c k.pc ∧ 4 ≤ (predict c s k).pcpn then _ else _) = _
  rw [pcpn_eq]
  by_cases h : 4 ≤ prov c s k
  · rw [if_pos ⟨rfl, h⟩, if_pos h]
  · rw [if_neg (fun x => h x.2), if_neg h]

theorem freeTabs_mem {rows : Nat → Ent} {st i : Nat} (h : i ∈ freeTabs rows st) : i < 4 ∧ st ≤ i ∧ (rows i).useful = 0 := by
  unfold freeTabs at h
  rw [List.mem_filter, List.mem_range, Bool.and_eq_true, decide_eq_true_eq, beq_iff_eq] at h
  exact ⟨h.1, h.2.1, h.2.2⟩

theorem allocTab_some {rows : Nat → Ent} {u : Upd} {rand i : Nat} (h : allocTab rows u rand = some i) :
    mayAlloc u = true ∧ i < 4 ∧ allocStart u ≤ i ∧ (rows i).useful = 0 := by
  unfold allocTab at h
  by_cases hm : mayAlloc u = true
  · rw [if_pos hm] at h
    refine ⟨hm, freeTabs_mem ?_⟩
    split at h
    · exact absurd h (by simp)
    · rename_i j hf
      rw [hf]
      have : j = i := Option.some.inj h
      simp [this]
    · rename_i j k l hf
      rw [hf]
      have := Option.some.inj h
      split at this <;> simp [this]
  · rw [if_neg hm] at h
    exact absurd h (by simp)

theorem allocTab_isSome {rows : Nat → Ent} {u : Upd} {rand i : Nat} (hm : mayAlloc u = true) (hi : i < 4)
    (hs : allocStart u ≤ i) (hu : (rows i).useful = 0) : ∃ j, allocTab rows u rand = some j := by
  have hmem : i ∈ freeTabs rows (allocStart u) := by
    unfold freeTabs
    rw [List.mem_filter, List.mem_range, Bool.and_eq_true, decide_eq_true_eq, beq_iff_eq]
    exact ⟨hi, hs, hu⟩
  unfold allocTab
  rw [if_pos hm]
  split
  · rename_i hf; rw [hf] at hmem; exact absurd hmem (by simp)
  · exact ⟨_, rfl⟩
  · exact ⟨_, rfl⟩

theorem mayAlloc_iff (u : Upd) : mayAlloc u = true ↔ u.m.pred ≠ u.dir ∧ (u.m.pcpn ≤ 2 ∨ u.m.pcpn = 4) := by
  unfold mayAlloc
  rw [Bool.and_eq_true, bne_iff_ne, Bool.or_eq_true, decide_eq_true_eq, beq_iff_eq]

/-! ### Convergence -/

/-- Steps a counter still has to go before it is strong for `d`. -/
def dist (d : Bool) (v : Nat) : Nat := if d then 5 - v else v - 2

def distB (d : Bool) (v : Nat) : Nat := if d then 2 - v else v - 1

/-- Work left: tables that may still take over, plus the distance of the provider's counter. -/
def work (c : Cfg) (s : St) (k : Key) (d : Bool) : Nat :=
  if prov c s k < 4 then 3 - prov c s k + dist d (row c s k (prov c s k)).cnt else 4 + distB d (s.base (baseIdx c k.pc))

def Settled (c : Cfg) (s : St) (k : Key) (d : Bool) : Prop :=
  if prov c s k < 4 then dist d (row c s k (prov c s k)).cnt = 0 else distB d (s.base (baseIdx c k.pc)) = 0

theorem dist_strong (d : Bool) (v : Nat) : dist d v = 0 ↔ strong d v := by
  unfold dist strong; cases d <;> simp <;> omega

theorem settled_pred {c : Cfg} (hc : Cfg.Ok c) {s : St} {k : Key} {d : Bool} (h : Settled c s k d) :
    (predict c s k).pred = d := by
  unfold Settled at h
  by_cases hp : prov c s k < 4
  · rw [if_pos hp] at h
    exact predict_strong hc hp ((dist_strong _ _).mp h)
  · rw [if_neg hp] at h
    have h4 : prov c s k = 4 := by have := prov_le c s k; omega
    rw [predict_unknown h4]
    unfold distB at h
    cases d <;> simp at h ⊢ <;> omega

theorem dist_bump (d : Bool) (v : Nat) (hv : v ≤ 7) : dist d (bump 7 d v) = dist d v - 1 := by
  unfold dist bump satInc satDec
  cases d <;> simp only [if_true, Bool.false_eq_true, if_false] <;> split <;> omega

theorem distB_bump (d : Bool) (v : Nat) (hv : v ≤ 3) : distB d (bump 3 d v) = distB d v - 1 := by
  unfold distB bump satInc satDec
  cases d <;> simp only [if_true, Bool.false_eq_true, if_false] <;> split <;> omega

/-- A training that allocates nothing keeps the provider. -/
theorem own_noalloc {c : Cfg} {s : St} {k : Key} {d : Bool}
    (ha : allocTab (row c s k) (own c s k d) (lsfrRand (lsfrNext s.lsfr)) = none) :
    prov c (update c s (own c s k d)) k = prov c s k ∧
      (prov c s k < 4 → (row c (update c s (own c s k d)) k (prov c s k)).cnt = bump 7 d (row c s k (prov c s k)).cnt) := by
  constructor
  · refine highest_congr _ _ 4 (fun j hj => ?_)
    unfold hitB
    rw [(own_row c s k d hj).1]
    unfold newRow
    dsimp only
    rw [ha, if_neg (by simp)]
    split
    · rfl
    · split <;> rfl
  · intro hp
    rw [(own_row c s k d hp).2]
    unfold newRow
    dsimp only
    rw [ha, if_neg (by simp), if_pos (pcpn_eq c s k).symm]

/-- A training that allocates makes the new entry the provider. -/
theorem own_alloc {c : Cfg} {s : St} {k : Key} {d : Bool} {q : Nat}
    (ha : allocTab (row c s k) (own c s k d) (lsfrRand (lsfrNext s.lsfr)) = some q) :
    q < 4 ∧ (prov c s k = 4 ∨ prov c s k < q) ∧ prov c (update c s (own c s k d)) k = q ∧
      (row c (update c s (own c s k d)) k q).cnt = if d then 4 else 3 := by
  obtain ⟨hm, h4, hst, hu⟩ := allocTab_some ha
  have hpc : (own c s k d).m.pcpn = prov c s k := pcpn_eq c s k
  have hgt : prov c s k = 4 ∨ prov c s k < q := by
    unfold allocStart at hst
    rw [hpc] at hst
    split at hst
    · left; assumption
    · right; omega
  have hq : (row c (update c s (own c s k d)) k q).cnt = (if d then 4 else 3) ∧
      hitB c (update c s (own c s k d)) k q = true := by
    unfold hitB
    rw [(own_row c s k d h4).1, (own_row c s k d h4).2]
    unfold newRow
    dsimp only
    rw [if_pos ha]
    exact ⟨rfl, beq_self_eq_true _⟩
  have hup : ∀ j, q < j → j < 4 → hitB c (update c s (own c s k d)) k j = false := by
    intro j hj hj4
    have hold : hitB c s k j = false := by
      rcases highest_spec (hitB c s k) 4 (by decide) with ⟨_, _, h3⟩ | ⟨_, h2⟩
      · have hne : prov c s k ≠ 4 := by unfold prov; omega
        exact h3 j (by unfold prov at hgt hne; omega) hj4
      · exact h2 j hj4
    unfold hitB at hold ⊢
    rw [(own_row c s k d hj4).1]
    unfold newRow
    dsimp only
    rw [ha, if_neg (by intro h; have := Option.some.inj h; omega)]
    split
    · exact hold
    · split <;> exact hold
  refine ⟨h4, hgt, ?_, hq.1⟩
  rcases highest_spec (hitB c (update c s (own c s k d)) k) 4 (by decide) with ⟨h1, h2, h3⟩ | ⟨_, h2⟩
  · by_cases hlt : prov c (update c s (own c s k d)) k < q
    · have := h3 q hlt h4
      rw [hq.2] at this; exact absurd this (by decide)
    · by_cases hgt' : q < prov c (update c s (own c s k d)) k
      · have := hup _ hgt' h1
        unfold prov at this
        rw [h2] at this; exact absurd this (by decide)
      · omega
  · have := h2 q h4
    rw [hq.2] at this; exact absurd this (by decide)

theorem own_settled {c : Cfg} (hc : Cfg.Ok c) {s : St} (hr : InRange c s) {k : Key} {d : Bool} (h : Settled c s k d) :
    Settled c (update c s (own c s k d)) k d := by
  have ha : allocTab (row c s k) (own c s k d) (lsfrRand (lsfrNext s.lsfr)) = none := by
    unfold allocTab
    rw [if_neg]
    rw [mayAlloc_iff]
    intro hx
    exact hx.1 (settled_pred hc h)
  obtain ⟨h1, h2⟩ := own_noalloc ha
  unfold Settled at h ⊢
  rw [h1]
  by_cases hp : prov c s k < 4
  · rw [if_pos hp] at h ⊢
    rw [h2 hp, dist_bump d (row c s k (prov c s k)).cnt (hr.cnt _ _), h]
  · rw [if_neg hp] at h ⊢
    rw [own_base, if_pos (by omega), distB_bump _ _ (hr.base _), h]

theorem own_work {c : Cfg} {s : St} (hr : InRange c s) {k : Key} {d : Bool} (h : ¬ Settled c s k d) :
    work c (update c s (own c s k d)) k d < work c s k d := by
  unfold Settled at h
  cases ha : allocTab (row c s k) (own c s k d) (lsfrRand (lsfrNext s.lsfr)) with
  | none =>
    obtain ⟨h1, h2⟩ := own_noalloc ha
    unfold work
    rw [h1]
    by_cases hp : prov c s k < 4
    · rw [if_pos hp] at h ⊢
      rw [if_pos hp, h2 hp, dist_bump d (row c s k (prov c s k)).cnt (hr.cnt _ _)]
      omega
    · rw [if_neg hp] at h ⊢
      rw [if_neg hp, own_base, if_pos (by omega), distB_bump _ _ (hr.base _)]
      omega
  | some q =>
    obtain ⟨h4, hgt, h1, h2⟩ := own_alloc ha
    have hd : dist d (if d then 4 else 3) = 1 := by cases d <;> rfl
    unfold work
    rw [h1, if_pos h4, h2, hd]
    by_cases hp : prov c s k < 4
    · rw [if_pos hp] at h ⊢; omega
    · rw [if_neg hp] at h ⊢; omega

theorem work_le {c : Cfg} {s : St} (hr : InRange c s) (k : Key) (d : Bool) : work c s k d ≤ 8 := by
  unfold work dist distB
  have h1 := hr.cnt (prov c s k) (idxOf c k.pc k.fh (prov c s k))
  have h2 := hr.base (baseIdx c k.pc)
  unfold row
  split <;> cases d <;> simp <;> omega

/-- Rows a training does not use keep what matters. -/
theorem apart_same {c : Cfg} {s : St} {k : Key} {u : Upd} (h : Apart c k u) :
    (∀ i, i < 4 → (row c (update c s u) k i).tag = (row c s k i).tag ∧ (row c (update c s u) k i).cnt = (row c s k i).cnt) ∧
      (update c s u).base (baseIdx c k.pc) = s.base (baseIdx c k.pc) := by
  constructor
  · intro i hi
    have h1 := tn_tag_cnt c s u i (idxOf c k.pc k.fh i)
    rw [if_neg (fun x => h.1 i hi x.2.symm)] at h1
    exact h1
  · show (if baseIdx c k.pc = baseIdx c u.pc ∧ 4 ≤ u.m.pcpn then _ else _) = _
    rw [if_neg]
    rintro ⟨a, b⟩
    rcases h.2 with h | h
    · omega
    · exact h a.symm

theorem apart_prov {c : Cfg} {s : St} {k : Key} {u : Upd} (h : Apart c k u) : prov c (update c s u) k = prov c s k := by
  refine highest_congr _ _ 4 (fun j hj => ?_)
  unfold hitB
  rw [((apart_same h).1 j hj).1]

theorem apart_settled {c : Cfg} {s : St} {k : Key} {u : Upd} {d : Bool} (h : Apart c k u) :
    (Settled c (update c s u) k d ↔ Settled c s k d) ∧ work c (update c s u) k d = work c s k d := by
  unfold Settled work
  rw [apart_prov h]
  by_cases hp : prov c s k < 4
  · rw [if_pos hp, if_pos hp, if_pos hp, if_pos hp, ((apart_same h).1 _ hp).2]
    exact ⟨Iff.rfl, rfl⟩
  · rw [if_neg hp, if_neg hp, if_neg hp, if_neg hp, (apart_same h).2]
    exact ⟨Iff.rfl, rfl⟩

end Verif.Proofs.Tage

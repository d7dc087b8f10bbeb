import Verif.Spec.TageSys
import Verif.Proofs.TageInv
/- Learning when predictions are trained late: the providing table only gets longer; while it stays, first the records made for an
older provider run out, then its counter becomes strong, then the wrong predictions in flight run out. -/
namespace Verif.Proofs.TageLate
open Verif.Tage Verif.Spec.Tage Verif.Spec.TageSys Verif.Proofs.Tage

/-! ### Questions that read the same rows -/

theorem same_idx {c : Cfg} {k k' : Key} (h : SameRows k k') {i : Nat} (hi : i < 4) :
    idxOf c k'.pc k'.fh i = idxOf c k.pc k.fh i := by unfold idxOf; rw [h.1, h.2 0 (by decide) i hi]

theorem same_tag {c : Cfg} {k k' : Key} (h : SameRows k k') {i : Nat} (hi : i < 4) :
    tagOf c k'.pc k'.fh i = tagOf c k.pc k.fh i := by
  unfold tagOf; rw [h.1, h.2 1 (by decide) i hi, h.2 2 (by decide) i hi]

theorem same_row {c : Cfg} {s : St} {k k' : Key} (h : SameRows k k') {i : Nat} (hi : i < 4) : row c s k' i = row c s k i := by
  unfold row; rw [same_idx h hi]

theorem same_prov {c : Cfg} {s : St} {k k' : Key} (h : SameRows k k') : prov c s k' = prov c s k := by
  refine highest_congr _ _ 4 (fun j hj => ?_)
  unfold hitB
  rw [same_row h hj, same_tag h hj]

theorem same_settled {c : Cfg} {s : St} {k k' : Key} {d : Bool} (h : SameRows k k') (hs : Settled c s k d) : Settled c s k' d := by
  unfold Settled at hs ⊢
  rw [same_prov h]
  by_cases hp : prov c s k < 4
  · rw [if_pos hp] at hs ⊢; rw [same_row h hp]; exact hs
  · rw [if_neg hp] at hs ⊢; rw [h.1]; exact hs

/-- A record of the watched branch. -/
structure Rec (c : Cfg) (k : Key) (m : Meta) : Prop where
  idx : ∀ i, i < 4 → m.idx i = idxOf c k.pc k.fh i
  tag : ∀ i, i < 4 → m.tag i = tagOf c k.pc k.fh i

theorem rec_predict {c : Cfg} {s : St} {k k' : Key} (h : SameRows k k') : Rec c k (predict c s k') :=
  ⟨fun _ hi => same_idx h hi, fun _ hi => same_tag h hi⟩

theorem rec_agrees {c : Cfg} {k : Key} {m r : Meta} (h : Rec c k m) (a : Agrees m r) : Rec c k r :=
  ⟨fun i hi => by rw [a.idx i hi, h.idx i hi], fun i hi => by rw [a.tag i hi, h.tag i hi]⟩

/-! ### One late training -/

theorem late_urow {c : Cfg} {s : St} {k : Key} {d : Bool} {r : Meta} (h : Rec c k r) {i : Nat} (hi : i < 4) :
    urow c s ⟨k.pc, d, r⟩ i = row c s k i := by
  unfold urow row
  show s.tn i (r.idx i % 2 ^ c.idxBits) = _
  rw [h.idx i hi]
  unfold idxOf
  rw [low_mod]

theorem late_row {c : Cfg} {s : St} {k : Key} {d : Bool} {r : Meta} (h : Rec c k r) {i : Nat} (hi : i < 4) :
    (row c (update c s ⟨k.pc, d, r⟩) k i).tag =
        (newRow (urow c s ⟨k.pc, d, r⟩) ⟨k.pc, d, r⟩ (lsfrRand (lsfrNext s.lsfr)) i).tag ∧
      (row c (update c s ⟨k.pc, d, r⟩) k i).cnt =
        (newRow (urow c s ⟨k.pc, d, r⟩) ⟨k.pc, d, r⟩ (lsfrRand (lsfrNext s.lsfr)) i).cnt := by
  have hx := tn_tag_cnt c s ⟨k.pc, d, r⟩ i (idxOf c k.pc k.fh i)
  have he : idxOf c k.pc k.fh i = r.idx i % 2 ^ c.idxBits := by rw [h.idx i hi]; exact (low_mod _ _).symm
  rw [if_pos ⟨hi, he⟩] at hx
  exact hx

/-- The rank of a provider: the base table, then the tagged tables. -/
def rank (p : Nat) : Nat := if p < 4 then p + 1 else 0

theorem rank_le (p : Nat) : rank p ≤ 4 := by unfold rank; split <;> omega

theorem rank_inj {p q : Nat} (hp : p ≤ 4) (hq : q ≤ 4) (h : rank p = rank q) : p = q := by
  unfold rank at h; split at h <;> split at h <;> omega

theorem rank_hit {c : Cfg} {s : St} {k : Key} {q : Nat} (h4 : q < 4) (h : hitB c s k q = true) : q + 1 ≤ rank (prov c s k) := by
  rcases highest_spec (hitB c s k) 4 (by decide) with ⟨h1, -, h3⟩ | ⟨-, h2⟩
  · unfold rank prov
    rw [if_pos h1]
    by_cases hlt : highest (hitB c s k) 4 < q
    · have := h3 q hlt h4; rw [h] at this; cases this
    · omega
  · have := h2 q h4; rw [h] at this; cases this

theorem rank_mono {c : Cfg} {s s' : St} {k : Key} (h : ∀ i, i < 4 → hitB c s k i = true → hitB c s' k i = true) :
    rank (prov c s k) ≤ rank (prov c s' k) := by
  rcases highest_spec (hitB c s k) 4 (by decide) with ⟨h1, h2, -⟩ | ⟨h1, -⟩
  · have := rank_hit h1 (h _ h1 h2)
    have e : rank (prov c s k) = highest (hitB c s k) 4 + 1 := by unfold rank prov; rw [if_pos h1]
    omega
  · have e : rank (prov c s k) = 0 := by unfold rank prov; rw [h1]; rfl
    omega

theorem late_hit {c : Cfg} {s : St} {k : Key} {d : Bool} {r : Meta} (h : Rec c k r) {i : Nat} (hi : i < 4)
    (hh : hitB c s k i = true) : hitB c (update c s ⟨k.pc, d, r⟩) k i = true := by
  unfold hitB at hh ⊢
  rw [(late_row h hi).1]
  unfold newRow
  dsimp only
  split
  · dsimp only; rw [h.tag i hi]; exact beq_self_eq_true _
  · split
    · dsimp only; rw [late_urow h hi]; exact hh
    · split <;> (rw [late_urow h hi]; exact hh)

theorem late_rank {c : Cfg} {s : St} {k : Key} {d : Bool} {r : Meta} (h : Rec c k r) :
    rank (prov c s k) ≤ rank (prov c (update c s ⟨k.pc, d, r⟩) k) := rank_mono (fun _ hi hh => late_hit h hi hh)

/-- Steps the provider's counter still has to go. -/
def todo (c : Cfg) (s : St) (k : Key) (d : Bool) : Nat :=
  if prov c s k < 4 then dist d (row c s k (prov c s k)).cnt else distB d (s.base (baseIdx c k.pc))

theorem todo_le {c : Cfg} {s : St} (hr : InRange c s) (k : Key) (d : Bool) : todo c s k d ≤ 5 := by
  unfold todo dist distB
  have h1 := hr.cnt (prov c s k) (idxOf c k.pc k.fh (prov c s k))
  have h2 := hr.base (baseIdx c k.pc)
  unfold row
  split <;> cases d <;> simp <;> omega

theorem todo_settled {c : Cfg} {s : St} {k : Key} {d : Bool} (h : todo c s k d = 0) : Settled c s k d := by
  unfold todo at h
  unfold Settled
  by_cases hp : prov c s k < 4
  · rw [if_pos hp] at h ⊢; exact h
  · rw [if_neg hp] at h ⊢; exact h

/-- A training that allocates nothing, with the record of the present provider. -/
theorem late_noalloc {c : Cfg} {s : St} (hr : InRange c s) {k : Key} {d : Bool} {r : Meta} (h : Rec c k r) (hp : r.pcpn = prov c s k)
    (ha : allocTab (urow c s ⟨k.pc, d, r⟩) ⟨k.pc, d, r⟩ (lsfrRand (lsfrNext s.lsfr)) = none) :
    prov c (update c s ⟨k.pc, d, r⟩) k = prov c s k ∧ todo c (update c s ⟨k.pc, d, r⟩) k d = todo c s k d - 1 := by
  have h1 : prov c (update c s ⟨k.pc, d, r⟩) k = prov c s k := by
    refine highest_congr _ _ 4 (fun j hj => ?_)
    unfold hitB
    rw [(late_row h hj).1, ← late_urow (d := d) h hj]
    unfold newRow
    dsimp only
    rw [ha, if_neg (by simp)]
    split
    · rfl
    · split <;> rfl
  refine ⟨h1, ?_⟩
  unfold todo
  rw [h1]
  by_cases hlt : prov c s k < 4
  · rw [if_pos hlt, if_pos hlt, (late_row h hlt).2]
    unfold newRow
    dsimp only
    rw [ha, if_neg (by simp), if_pos hp.symm]
    dsimp only
    rw [late_urow h hlt]
    exact dist_bump d _ (hr.cnt _ _)
  · rw [if_neg hlt, if_neg hlt]
    have : (update c s ⟨k.pc, d, r⟩).base (baseIdx c k.pc) = bump 3 d (s.base (baseIdx c k.pc)) := by
      show (if baseIdx c k.pc = baseIdx c k.pc ∧ 4 ≤ r.pcpn then _ else _) = _
      rw [if_pos ⟨rfl, by rw [hp]; omega⟩]
    rw [this]
    exact distB_bump d _ (hr.base _)

/-- A training that allocates, with the record of the present provider. -/
theorem late_alloc {c : Cfg} {s : St} {k : Key} {d : Bool} {r : Meta} (h : Rec c k r) (hp : r.pcpn = prov c s k) {q : Nat}
    (ha : allocTab (urow c s ⟨k.pc, d, r⟩) ⟨k.pc, d, r⟩ (lsfrRand (lsfrNext s.lsfr)) = some q) :
    rank (prov c s k) < rank (prov c (update c s ⟨k.pc, d, r⟩) k) := by
  obtain ⟨-, h4, hst, -⟩ := allocTab_some ha
  have hhit : hitB c (update c s ⟨k.pc, d, r⟩) k q = true := by
    unfold hitB
    rw [(late_row h h4).1]
    unfold newRow
    dsimp only
    rw [if_pos ha]
    dsimp only
    rw [h.tag q h4]
    exact beq_self_eq_true _
  have h1 := rank_hit h4 hhit
  have h2 : rank (prov c s k) ≤ q := by
    unfold allocStart at hst
    have hst' : (if r.pcpn = 4 then 0 else r.pcpn + 1) ≤ q := hst
    rw [hp] at hst'
    unfold rank
    split
    · rw [if_neg (by omega)] at hst'; exact hst'
    · omega
  omega

/-! ### The last of a kind in a list -/

def last {α : Type} (p : α → Bool) : List α → Nat
  | [] => 0
  | a :: l => if last p l = 0 then (if p a then 1 else 0) else last p l + 1

theorem last_le {α : Type} (p : α → Bool) (l : List α) : last p l ≤ l.length := by
  induction l with
  | nil => exact Nat.le_refl _
  | cons a l ih => unfold last; rw [List.length_cons]; split <;> (try split) <;> omega

theorem last_append {α : Type} {p : α → Bool} {a : α} (h : p a = false) (l : List α) : last p (l ++ [a]) = last p l := by
  induction l with
  | nil => simp [last, h]
  | cons b l ih => rw [List.cons_append]; unfold last; rw [ih]

theorem last_take {α : Type} (p : α → Bool) (l : List α) : ∀ n, last p (l.take n) ≤ last p l := by
  induction l with
  | nil => intro n; rw [List.take_nil]; exact Nat.le_refl _
  | cons a l ih =>
    intro n
    cases n with
    | zero => exact Nat.zero_le _
    | succ n =>
      rw [List.take_succ_cons]
      have := ih n
      unfold last
      by_cases h1 : last p (l.take n) = 0
      · rw [if_pos h1]
        by_cases h2 : last p l = 0
        · rw [if_pos h2]; exact Nat.le_refl _
        · rw [if_neg h2]; split <;> omega
      · rw [if_neg h1, if_neg (by omega)]; omega

theorem last_tail {α : Type} (p : α → Bool) (a : α) (l : List α) : last p l ≤ last p (a :: l) - 1 := by
  show _ ≤ (if last p l = 0 then (if p a then 1 else 0) else last p l + 1) - 1
  split <;> omega

theorem last_zero {α : Type} {p : α → Bool} {a : α} {l : List α} (h : last p (a :: l) = 0) : p a = false ∧ last p l = 0 := by
  have h : (if last p l = 0 then (if p a then 1 else 0) else last p l + 1) = 0 := h
  split at h
  · rename_i h0
    refine ⟨?_, h0⟩
    cases hp : p a
    · rfl
    · rw [hp] at h; cases h
  · omega

theorem last_none {α : Type} {p : α → Bool} {l : List α} (h : last p l = 0) : ∀ a ∈ l, p a = false := by
  induction l with
  | nil => intro a ha; cases ha
  | cons b l ih =>
    obtain ⟨h1, h2⟩ := last_zero h
    intro a ha
    rcases List.mem_cons.mp ha with rfl | ha
    · exact h1
    · exact ih h2 a ha

/-! ### The measure -/

def stale (p : Nat) (m : Meta) : Bool := m.pcpn != p
def wrong (d : Bool) (m : Meta) : Bool := m.pred != d

/-- Provider `p`, its counter `t` steps from strong, predictions `fl` in flight: `n` trainings suffice at this provider. -/
def Good (W : Nat) (d : Bool) (p t : Nat) (fl : List Meta) (n : Nat) : Prop :=
  last (stale p) fl + 5 + W ≤ n ∨ (last (stale p) fl = 0 ∧ t + W ≤ n) ∨
    (last (stale p) fl = 0 ∧ t = 0 ∧ last (wrong d) fl ≤ n)

/-- `N` trainings suffice altogether; none at all when `n = 0`: then nothing changes any more. -/
def J (W : Nat) (d : Bool) (p t : Nat) (fl : List Meta) (N : Nat) : Prop :=
  ∃ n, Good W d p t fl n ∧ (n = 0 ∨ (4 - rank p) * (2 * W + 5) + n ≤ N)

theorem good_full {W : Nat} {d : Bool} {p t : Nat} {fl : List Meta} (hl : fl.length ≤ W) : Good W d p t fl (2 * W + 5) := by
  left
  have := last_le (stale p) fl
  omega

theorem j_full {W : Nat} {d : Bool} {p t : Nat} {fl : List Meta} (hl : fl.length ≤ W) : J W d p t fl (enough W) := by
  refine ⟨_, good_full hl, .inr ?_⟩
  unfold enough
  have : (4 - rank p) * (2 * W + 5) ≤ 4 * (2 * W + 5) := Nat.mul_le_mul_right _ (by omega)
  omega

theorem j_own {W : Nat} {d : Bool} {p t p' t' : Nat} {m : Meta} {fl : List Meta} {N : Nat} (hp : p ≤ 4) (hp' : p' ≤ 4)
    (hl : (m :: fl).length ≤ W) (ht : t ≤ 5) (ht' : t' ≤ 5) (hrank : rank p ≤ rank p')
    (hf : m.pcpn = p → (p' = p ∧ t' = t - 1) ∨ rank p < rank p')
    (hg : m.pcpn = p → m.pred = d → p' = p ∧ t' = t - 1) (h : J W d p t (m :: fl) N) : J W d p' t' fl (N - 1) := by
  obtain ⟨n, hn, hN⟩ := h
  rw [List.length_cons] at hl
  have hfresh : last (stale p) (m :: fl) = 0 → m.pcpn = p := by
    intro h0
    have := (last_zero h0).1
    unfold stale at this
    simpa using this
  have hright : last (wrong d) (m :: fl) = 0 → m.pred = d := by
    intro h0
    have := (last_zero h0).1
    unfold wrong at this
    simpa using this
  by_cases hlt : rank p < rank p'
  · have hn1 : 1 ≤ n := by
      rcases hn with h | ⟨h1, h⟩ | ⟨h1, h2, h3⟩
      · omega
      · omega
      · rcases Nat.eq_zero_or_pos n with h0 | h0
        · obtain ⟨e, -⟩ := hg (hfresh h1) (hright (by omega))
          rw [e] at hlt; omega
        · exact h0
    refine ⟨_, good_full (by omega), .inr ?_⟩
    have hr4 := rank_le p'
    have : (4 - rank p' + 1) * (2 * W + 5) ≤ (4 - rank p) * (2 * W + 5) := Nat.mul_le_mul_right _ (by omega)
    rw [Nat.add_mul, Nat.one_mul] at this
    omega
  · have he : p' = p := (rank_inj hp hp' (by omega)).symm
    subst he
    have hts := last_tail (stale p') m fl
    have htw := last_tail (wrong d) m fl
    have hll := last_le (wrong d) fl
    have hfr : last (stale p') (m :: fl) = 0 → t' = t - 1 := by
      intro h0
      rcases hf (hfresh h0) with h | h
      · exact h.2
      · exact absurd h hlt
    have hkeep : Good W d p' t' fl (n - 1) ∧ 1 ≤ n ∨ Good W d p' t' fl 0 ∧ n = 0 := by
      rcases hn with h | ⟨h1, h⟩ | ⟨h1, h2, h3⟩
      · left
        refine ⟨?_, by omega⟩
        by_cases h0 : last (stale p') (m :: fl) = 0
        · right; left
          have := hfr h0
          exact ⟨(last_zero h0).2, by omega⟩
        · left; omega
      · left
        refine ⟨?_, by omega⟩
        have ht1 := hfr h1
        by_cases ht0 : t = 0
        · right; right
          exact ⟨(last_zero h1).2, by omega, by omega⟩
        · right; left
          exact ⟨(last_zero h1).2, by omega⟩
      · have ht1 := hfr h1
        have h0 := (last_zero h1).2
        by_cases hn0 : n = 0
        · right
          exact ⟨.inr (.inr ⟨h0, by omega, by omega⟩), hn0⟩
        · left
          exact ⟨.inr (.inr ⟨h0, by omega, by omega⟩), by omega⟩
    rcases hkeep with ⟨hk, h1⟩ | ⟨hk, h1⟩
    · exact ⟨_, hk, by omega⟩
    · exact ⟨_, hk, .inl rfl⟩

theorem j_zero {W : Nat} {d : Bool} {p t : Nat} {fl : List Meta} (hl : fl.length ≤ W) (h : J W d p t fl 0) :
    t = 0 ∧ ∀ m ∈ fl, m.pred = d := by
  obtain ⟨n, hn, hN⟩ := h
  have h0 : n = 0 := by omega
  subst h0
  have hll := last_le (wrong d) fl
  have hw : t = 0 ∧ last (wrong d) fl = 0 := by
    rcases hn with h | ⟨_, h⟩ | ⟨_, h2, h3⟩ <;> omega
  refine ⟨hw.1, fun m hm => ?_⟩
  have := last_none hw.2 m hm
  unfold wrong at this
  simpa using this

/-! ### Over a run -/

/-- How many of the newest outcomes were `d`, one after the other. -/
def lead (d : Bool) (os : List Bool) : Nat := (os.takeWhile (fun x => x == d)).length

theorem lead_cons (d : Bool) (os : List Bool) : lead d (d :: os) = lead d os + 1 := by
  unfold lead; rw [List.takeWhile_cons_of_pos (p := fun x => x == d) (beq_self_eq_true d)]; rfl

theorem lead_other {d x : Bool} (h : x ≠ d) (os : List Bool) : lead d (x :: os) = 0 := by
  unfold lead; rw [List.takeWhile_cons_of_neg (by simpa using h)]; rfl

theorem lead_take {d : Bool} : ∀ {n : Nat} {os : List Bool}, n ≤ os.length → (∀ x ∈ os.take n, x = d) → n ≤ lead d os := by
  intro n
  induction n with
  | zero => intro os _ _; exact Nat.zero_le _
  | succ n ih =>
    intro os hl h
    cases os with
    | nil => simp at hl
    | cons x os =>
      rw [List.take_succ_cons] at h
      have hx : x = d := h x (List.mem_cons_self ..)
      subst hx
      rw [lead_cons]
      have := ih (by simpa using hl) (fun y hy => h y (List.mem_cons_of_mem _ hy))
      omega

theorem watch {c : Cfg} (hc : Cfg.Ok c) (hs : Cfg.Sized c) {k : Key} {W : Nat} {s : St} {fl : List Meta} {os : List Bool}
    (h : Watch c k W s fl os) :
    InRange c s ∧ (∀ m ∈ fl, Rec c k m) ∧ fl.length ≤ W ∧
      ∀ d, J W d (prov c s k) (todo c s k d) fl (enough W - lead d os) := by
  induction h with
  | start before =>
    exact ⟨range_train before (range_init hs), by simp, Nat.zero_le _, fun d => j_full (Nat.zero_le _)⟩
  | @ask s fl os k' _ hk hlt ih =>
    obtain ⟨h1, h2, -, h4⟩ := ih
    have hlen : (fl ++ [predict c s k']).length ≤ W := by rw [List.length_append]; simp; omega
    refine ⟨h1, ?_, hlen, fun d => ?_⟩
    · intro m hm
      rcases List.mem_append.mp hm with hm | hm
      · exact h2 m hm
      · rw [List.mem_singleton] at hm; subst hm; exact rec_predict hk
    · obtain ⟨n, hn, hN⟩ := h4 d
      refine ⟨n, ?_, hN⟩
      have hst : stale (prov c s k) (predict c s k') = false := by
        unfold stale; rw [pcpn_eq, same_prov hk]; simp
      unfold Good
      rw [last_append hst]
      rcases hn with h | h | ⟨a1, a2, a3⟩
      · exact .inl h
      · exact .inr (.inl h)
      · refine .inr (.inr ⟨a1, a2, ?_⟩)
        have hw : wrong d (predict c s k') = false := by
          unfold wrong; rw [settled_pred hc (same_settled hk (todo_settled a2))]; simp
        rw [last_append hw]
        exact a3
  | @squash s fl os n _ ih =>
    obtain ⟨h1, h2, h3, h4⟩ := ih
    refine ⟨h1, fun m hm => h2 m (List.mem_of_mem_take hm), by rw [List.length_take]; omega, fun d => ?_⟩
    obtain ⟨j, hn, hN⟩ := h4 d
    refine ⟨j, ?_, hN⟩
    have t1 := last_take (stale (prov c s k)) fl n
    have t2 := last_take (wrong d) fl n
    rcases hn with h | h | ⟨a1, a2, a3⟩
    · left; omega
    · right; left; omega
    · right; right; omega
  | @own s m fl os r x _ ha ih =>
    obtain ⟨h1, h2, h3, h4⟩ := ih
    have hrec := rec_agrees (h2 m (List.mem_cons_self ..)) ha
    have hr' := range_update h1 ⟨k.pc, x, r⟩
    have hlen : fl.length ≤ W := by rw [List.length_cons] at h3; omega
    refine ⟨hr', fun y hy => h2 y (List.mem_cons_of_mem _ hy), hlen, fun d => ?_⟩
    by_cases hx : x = d
    · subst hx
      rw [lead_cons, ← Nat.sub_sub]
      have key : m.pcpn = prov c s k → (prov c (update c s ⟨k.pc, x, r⟩) k = prov c s k ∧
          todo c (update c s ⟨k.pc, x, r⟩) k x = todo c s k x - 1) ∨
          (rank (prov c s k) < rank (prov c (update c s ⟨k.pc, x, r⟩) k) ∧ m.pred ≠ x) := by
        intro hm
        have hp : r.pcpn = prov c s k := by rw [ha.pcpn, hm]
        cases hal : allocTab (urow c s ⟨k.pc, x, r⟩) ⟨k.pc, x, r⟩ (lsfrRand (lsfrNext s.lsfr)) with
        | none => exact .inl (late_noalloc h1 hrec hp hal)
        | some q =>
          refine .inr ⟨late_alloc hrec hp hal, ?_⟩
          have := ((mayAlloc_iff _).mp (allocTab_some hal).1).1
          rw [← ha.pred]
          exact this
      refine j_own (prov_le c s k) (prov_le _ _ k) h3 (todo_le h1 k x) (todo_le hr' k x) (late_rank hrec) ?_ ?_ (h4 x)
      · intro hm
        rcases key hm with h | h
        · exact .inl h
        · exact .inr h.1
      · intro hm hpred
        rcases key hm with h | h
        · exact h
        · exact absurd hpred h.2
    · rw [lead_other hx, Nat.sub_zero]
      exact j_full hlen
  | @other s fl os u _ hap ih =>
    obtain ⟨h1, h2, h3, h4⟩ := ih
    refine ⟨range_update h1 u, h2, h3, fun d => ?_⟩
    have ht : todo c (update c s u) k d = todo c s k d := by
      unfold todo
      rw [apart_prov hap]
      by_cases hp : prov c s k < 4
      · rw [if_pos hp, if_pos hp, ((apart_same hap).1 _ hp).2]
      · rw [if_neg hp, if_neg hp, (apart_same hap).2]
    rw [apart_prov hap, ht]
    exact h4 d

end Verif.Proofs.TageLate

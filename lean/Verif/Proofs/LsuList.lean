import Verif.Model.LsuList
import Verif.Proofs.Ring

/-
Waiting lists of the load/store unit: geometry of a list, and the invariant that ties the state of a load to
the list it is in.
-/
namespace Verif.LsuList

open Verif.Ring

/-! ## One list -/

structure Q.WF (n : Nat) (q : Q) : Prop where
  head : q.head < n
  count : q.count ≤ n
  inR : ∀ p l, q.slot p = some l → ∃ d, d < q.count ∧ p = (q.head + d) % n
  uniq : ∀ p p' l, q.slot p = some l → q.slot p' = some l → p = p'

def Q.Mem (q : Q) (l : Nat) : Prop := ∃ p, q.slot p = some l

theorem Q.init_wf {n : Nat} (hn : 0 < n) : Q.init.WF n :=
  { head := hn, count := Nat.zero_le _, inR := fun _ _ h => by simp [Q.init] at h, uniq := fun _ _ _ h => by simp [Q.init] at h }

theorem Q.init_mem (l : Nat) : ¬ Q.init.Mem l := by rintro ⟨p, h⟩; simp [Q.init] at h

theorem Q.clear_wf {n : Nat} {q : Q} (h : q.WF n) : q.clear.WF n :=
  { head := h.head, count := Nat.zero_le _, inR := fun _ _ h => by simp [Q.clear] at h, uniq := fun _ _ _ h => by simp [Q.clear] at h }

theorem Q.clear_mem (q : Q) (l : Nat) : ¬ q.clear.Mem l := by rintro ⟨p, h⟩; simp [Q.clear] at h

theorem Q.tail_free {n : Nat} {q : Q} (h : q.WF n) (hc : q.count < n) : q.slot ((q.head + q.count) % n) = none := by
  cases e : q.slot ((q.head + q.count) % n) with
  | none => rfl
  | some l =>
    obtain ⟨d, hd, he⟩ := h.inR _ _ e
    have := mod_inj h.head hc (show d < n by omega) he
    omega

theorem Q.enq_mem {n : Nat} {q : Q} (h : q.WF n) (hc : q.count < n) (l j : Nat) :
    (q.enq n l).Mem j ↔ q.Mem j ∨ j = l := by
  constructor
  · rintro ⟨p, hp⟩
    simp only [Q.enq, upd] at hp
    split at hp
    · right; exact (Option.some.inj hp).symm
    · exact .inl ⟨p, hp⟩
  · rintro (⟨p, hp⟩ | rfl)
    · refine ⟨p, ?_⟩
      simp only [Q.enq, upd]
      split
      · next e => rw [e, Q.tail_free h hc] at hp; exact absurd hp (by simp)
      · exact hp
    · exact ⟨(q.head + q.count) % n, by simp [Q.enq, upd]⟩

theorem Q.enq_wf {n : Nat} {q : Q} (h : q.WF n) (hc : q.count < n) {l : Nat} (hl : ¬ q.Mem l) : (q.enq n l).WF n where
  head := h.head
  count := by simp only [Q.enq]; omega
  inR := by
    intro p j hp
    simp only [Q.enq, upd] at hp ⊢
    split at hp
    · next e => exact ⟨q.count, by omega, e⟩
    · obtain ⟨d, hd, e⟩ := h.inR _ _ hp; exact ⟨d, by omega, e⟩
  uniq := by
    intro p p' j hp hp'
    simp only [Q.enq, upd] at hp hp'
    split at hp <;> split at hp'
    · next e e' => rw [e, e']
    · have := Option.some.inj hp; subst this; exact absurd ⟨p', hp'⟩ hl
    · have := Option.some.inj hp'; subst this; exact absurd ⟨p, hp⟩ hl
    · exact h.uniq _ _ _ hp hp'

theorem Q.kill_mem {n : Nat} {q : Q} (h : q.WF n) {p l : Nat} (hp : q.slot p = some l) (j : Nat) :
    (q.kill p).Mem j ↔ q.Mem j ∧ j ≠ l := by
  constructor
  · rintro ⟨p', hp'⟩
    simp only [Q.kill, upd] at hp'
    split at hp'
    · exact absurd hp' (by simp)
    · next ne => exact ⟨⟨p', hp'⟩, fun e => ne (h.uniq _ _ _ hp' (e ▸ hp))⟩
  · rintro ⟨⟨p', hp'⟩, ne⟩
    refine ⟨p', ?_⟩
    simp only [Q.kill, upd]
    split
    · next e => rw [e, hp] at hp'; exact absurd (Option.some.inj hp').symm ne
    · exact hp'

theorem Q.kill_sub {q : Q} {p p' l : Nat} (h : (q.kill p).slot p' = some l) : q.slot p' = some l := by
  simp only [Q.kill, upd] at h
  split at h
  · exact absurd h (by simp)
  · exact h

/-- A list with some entries invalidated. -/
theorem Q.sub_wf {n : Nat} {q q' : Q} (h : q.WF n) (hh : q'.head = q.head) (hc : q'.count = q.count)
    (hs : ∀ p l, q'.slot p = some l → q.slot p = some l) : q'.WF n where
  head := hh ▸ h.head
  count := hc ▸ h.count
  inR p l hp := by rw [hh, hc]; exact h.inR _ _ (hs _ _ hp)
  uniq p p' l hp hp' := h.uniq _ _ _ (hs _ _ hp) (hs _ _ hp')

theorem Q.kill_wf {n : Nat} {q : Q} (h : q.WF n) (p : Nat) : (q.kill p).WF n :=
  Q.sub_wf h rfl rfl fun _ _ => Q.kill_sub

theorem Q.deq_slot {n : Nat} {q : Q} (h : q.slot q.head = none) : (q.deq n).slot = q.slot := by
  funext p
  simp only [Q.deq, upd]
  split
  · next e => rw [e, h]
  · rfl

theorem Q.deq_wf {n : Nat} {q : Q} (h : q.WF n) (he : q.slot q.head = none) : (q.deq n).WF n where
  head := by have := h.head; exact Nat.mod_lt _ (by omega)
  count := by have := h.count; simp only [Q.deq]; omega
  inR := by
    intro p l hp
    rw [Q.deq_slot he] at hp
    obtain ⟨d, hd, e⟩ := h.inR _ _ hp
    have hd0 : d ≠ 0 := by
      rintro rfl
      rw [Nat.add_zero, Nat.mod_eq_of_lt h.head] at e
      rw [e, he] at hp; exact absurd hp (by simp)
    refine ⟨d - 1, by simp only [Q.deq]; omega, ?_⟩
    simp only [Q.deq]
    rw [Nat.mod_add_mod, e]
    congr 1; omega
  uniq := by rw [Q.deq_slot he]; exact h.uniq

theorem Q.pop_slot {n : Nat} : ∀ (k : Nat) (q : Q), (q.pop n k).slot = q.slot
  | 0, _ => rfl
  | k + 1, q => by
    rw [Q.pop]
    split
    · next h => rw [Q.pop_slot k, Q.deq_slot h]
    · rfl

theorem Q.pop_wf {n : Nat} : ∀ (k : Nat) {q : Q}, q.WF n → (q.pop n k).WF n
  | 0, _, h => h
  | k + 1, q, h => by
    rw [Q.pop]
    split
    · next he => exact Q.pop_wf k (Q.deq_wf h he)
    · exact h

theorem Q.pop_count {n : Nat} : ∀ (k : Nat) (q : Q), (q.pop n k).count ≤ q.count
  | 0, _ => Nat.le_refl _
  | k + 1, q => by
    rw [Q.pop]
    split
    · exact Nat.le_trans (Q.pop_count k _) (by simp only [Q.deq]; omega)
    · exact Nat.le_refl _

theorem Q.pop_mem {n k : Nat} {q : Q} (l : Nat) : (q.pop n k).Mem l ↔ q.Mem l := by
  simp only [Q.Mem, Q.pop_slot]

/-- Dropping `k` invalid entries from the front. -/
theorem deqN_ok {n : Nat} : ∀ (k : Nat) {q : Q}, q.WF n → k ≤ q.count → (∀ d, d < k → q.slot ((q.head + d) % n) = none) →
    (deqN n k q).WF n ∧ (deqN n k q).slot = q.slot ∧ (deqN n k q).count = q.count - k
  | 0, q, h, _, _ => ⟨h, rfl, rfl⟩
  | k + 1, q, h, hk, hn => by
    have h0 : q.slot q.head = none := by
      have := hn 0 (by omega)
      rwa [Nat.add_zero, Nat.mod_eq_of_lt h.head] at this
    have := deqN_ok k (Q.deq_wf h h0) (by simp only [Q.deq]; omega) (by
      intro d hd
      rw [Q.deq_slot h0]
      simp only [Q.deq]
      rw [Nat.mod_add_mod, Nat.add_assoc, Nat.add_comm 1 d]
      exact hn (d + 1) (by omega))
    rw [deqN]
    refine ⟨this.1, this.2.1.trans (Q.deq_slot h0), ?_⟩
    rw [this.2.2]; simp only [Q.deq]; omega

theorem prune_fold {n : Nat} (st : Nat → LSt) (h : Nat) : ∀ (is : List Nat) (f : Nat → Option Nat) (p l : Nat),
    (is.foldl (fun f i => match f ((h + i) % n) with
      | some l => if st l = .empty then upd f ((h + i) % n) none else f
      | none => f) f) p = some l ↔
    f p = some l ∧ ¬ (st l = .empty ∧ ∃ i ∈ is, p = (h + i) % n)
  | [], f, p, l => by simp
  | i :: is, f, p, l => by
    rw [List.foldl_cons, prune_fold st h is]
    cases e : f ((h + i) % n) with
    | none =>
      simp only [List.mem_cons]
      constructor
      · rintro ⟨a, b⟩
        refine ⟨a, ?_⟩
        rintro ⟨c, j, rfl | hj, d⟩
        · rw [d, e] at a; exact absurd a (by simp)
        · exact b ⟨c, j, hj, d⟩
      · rintro ⟨a, b⟩; exact ⟨a, fun ⟨c, j, hj, d⟩ => b ⟨c, j, .inr hj, d⟩⟩
    | some m =>
      simp only [List.mem_cons]
      by_cases hm : st m = .empty
      · rw [if_pos hm]
        simp only [upd]
        constructor
        · rintro ⟨a, b⟩
          split at a
          · exact absurd a (by simp)
          · next ne =>
            refine ⟨a, ?_⟩
            rintro ⟨c, j, rfl | hj, d⟩
            · exact ne d
            · exact b ⟨c, j, hj, d⟩
        · rintro ⟨a, b⟩
          refine ⟨?_, fun ⟨c, j, hj, d⟩ => b ⟨c, j, .inr hj, d⟩⟩
          split
          · next hp =>
            rw [hp, e] at a
            have := Option.some.inj a; subst this
            exact absurd ⟨hm, i, .inl rfl, hp⟩ b
          · exact a
      · rw [if_neg hm]
        constructor
        · rintro ⟨a, b⟩
          refine ⟨a, ?_⟩
          rintro ⟨c, j, rfl | hj, d⟩
          · rw [d, e] at a
            have := Option.some.inj a; subst this; exact hm c
          · exact b ⟨c, j, hj, d⟩
        · rintro ⟨a, b⟩; exact ⟨a, fun ⟨c, j, hj, d⟩ => b ⟨c, j, .inr hj, d⟩⟩

theorem Q.prune_slot {n : Nat} {q : Q} (h : q.WF n) (st : Nat → LSt) (p l : Nat) :
    (q.prune n st).slot p = some l ↔ q.slot p = some l ∧ st l ≠ .empty := by
  refine (prune_fold (n := n) st q.head (List.range q.count) q.slot p l).trans ?_
  constructor
  · rintro ⟨a, b⟩
    obtain ⟨d, hd, e⟩ := h.inR _ _ a
    exact ⟨a, fun c => b ⟨c, d, List.mem_range.mpr hd, e⟩⟩
  · rintro ⟨a, b⟩; exact ⟨a, fun c => b c.1⟩

theorem Q.prune_wf {n : Nat} {q : Q} (h : q.WF n) (st : Nat → LSt) : (q.prune n st).WF n :=
  Q.sub_wf h rfl rfl fun _ _ hp => ((Q.prune_slot h st _ _).mp hp).1

theorem Q.prune_mem {n : Nat} {q : Q} (h : q.WF n) (st : Nat → LSt) (l : Nat) :
    (q.prune n st).Mem l ↔ q.Mem l ∧ st l ≠ .empty := by
  constructor
  · rintro ⟨p, hp⟩; have := (Q.prune_slot h st p l).mp hp; exact ⟨⟨p, this.1⟩, this.2⟩
  · rintro ⟨⟨p, hp⟩, hl⟩; exact ⟨p, (Q.prune_slot h st p l).mpr ⟨hp, hl⟩⟩

/-! ## The invariant -/

def okWm : LSt → Bool
  | .waitTlb | .waitTlbRetry | .waitStlf | .waitFinish => true
  | _ => false
def okSq : LSt → Bool
  | .checkStlf | .waitDcache | .waitFinish => true
  | _ => false
def okWd : LSt → Bool
  | .readyToIssue | .waitDcacheResp | .readyToWb => true
  | _ => false
def okFin : LSt → Bool
  | .readyToWb | .pageFault => true
  | _ => false
def flying : LSt → Bool
  | .empty | .allocated => false
  | _ => true

/-- `ex`: loads `comb_stlf` holds in its local array. -/
structure Inv (c : Cfg) (s : LS) (ex : List Nat) : Prop where
  wm : s.wm.WF c.n
  sq : s.sq.WF c.n
  wd : s.wd.WF c.n
  fin : s.fin.WF c.n
  mwm : ∀ l, s.wm.Mem l → okWm (s.st l) = true
  msq : ∀ l, s.sq.Mem l → okSq (s.st l) = true
  mwd : ∀ l, s.wd.Mem l → okWd (s.st l) = true
  mfin : ∀ l, s.fin.Mem l → okFin (s.st l) = true
  mex : ∀ l ∈ ex, s.st l = .checkStlf ∧ ¬ s.sq.Mem l
  nex : ex.Nodup
  munc : ∀ l, s.unc = .load l → s.st l = .waitMmioResp
  cover : ∀ l, flying (s.st l) = true → s.wm.Mem l ∨ s.sq.Mem l ∨ s.wd.Mem l ∨ s.fin.Mem l ∨ l ∈ ex ∨ s.unc = .load l
  d1 : ∀ l, s.wm.Mem l → ¬ s.sq.Mem l
  d2 : ∀ l, s.wd.Mem l → ¬ s.fin.Mem l
  dom : ∀ l, s.st l ≠ .empty → l < c.n

/-- What the steps before the recovery, other than the hand-over of loads, leave alone. -/
structure Le (c : Cfg) (s s' : LS) : Prop where
  e : ∀ l, s'.st l = .empty ↔ s.st l = .empty
  al : ∀ l, s'.st l = .allocated ↔ s.st l = .allocated
  cnt : s'.wm.count ≤ s.wm.count
  nr : ∀ l, s'.st l = .waitDcacheResp → s.st l = .waitDcacheResp

theorem Le.refl {c : Cfg} (s : LS) : Le c s s := ⟨fun _ => Iff.rfl, fun _ => Iff.rfl, Nat.le_refl _, fun _ h => h⟩
theorem Le.trans {c : Cfg} {a b d : LS} (h : Le c a b) (h' : Le c b d) : Le c a d :=
  ⟨fun l => (h'.e l).trans (h.e l), fun l => (h'.al l).trans (h.al l), Nat.le_trans h'.cnt h.cnt, fun l hl => h.nr l (h'.nr l hl)⟩

theorem foldl_inv {α β : Type} {P : β → Prop} {f : β → α → β} (hs : ∀ b a, P b → P (f b a)) :
    ∀ (as : List α) (b : β), P b → P (as.foldl f b)
  | [], _, h => h
  | a :: as, b, h => foldl_inv hs as (f b a) (hs b a h)

@[grind =] theorem upd_apply {α : Type} (f : Nat → α) (i j : Nat) (v : α) : upd f i v j = if j = i then v else f j := rfl

attribute [local grind] okWm okSq okWd okFin flying

end Verif.LsuList

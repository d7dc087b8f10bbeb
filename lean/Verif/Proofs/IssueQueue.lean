import Verif.Spec.IssueWindow
namespace Verif.Proofs.IssueQueue
open Verif.IssueQueue Verif.IssueWindow

variable {n P size : Nat} {policy : Bool} {ports : List Port}

/-! ### Slots as a bag -/

theorem perm_clear {α : Type} : ∀ {l : List (Option α)} {i : Nat} {u : α}, l[i]? = some (some u) →
    (l.filterMap id).Perm (u :: (l.set i none).filterMap id)
  | [], _, _, h => by simp at h
  | o :: l, 0, u, h => by
    simp only [List.getElem?_cons_zero, Option.some.injEq] at h
    subst h
    exact List.Perm.refl _
  | o :: l, i + 1, u, h => by
    simp only [List.getElem?_cons_succ] at h
    have ih := perm_clear h
    cases o with
    | none => simpa using ih
    | some v =>
      simp only [List.filterMap_cons, id_eq, List.set_cons_succ]
      exact (ih.cons v).trans (List.Perm.swap u v _)

theorem perm_fill {α : Type} : ∀ {l : List (Option α)} {i : Nat} {u : α}, l[i]? = some none →
    ((l.set i (some u)).filterMap id).Perm (u :: l.filterMap id)
  | [], _, _, h => by simp at h
  | o :: l, 0, u, h => by
    simp only [List.getElem?_cons_zero, Option.some.injEq] at h
    subst h
    exact List.Perm.refl _
  | o :: l, i + 1, u, h => by
    simp only [List.getElem?_cons_succ] at h
    have ih := perm_fill (u := u) h
    cases o with
    | none => simpa using ih
    | some v =>
      simp only [List.filterMap_cons, id_eq, List.set_cons_succ]
      exact (ih.cons v).trans (List.Perm.swap u v _)

theorem join_some {α : Type} {l : List (Option α)} {i : Nat} {u : α} :
    l[i]?.join = some u ↔ l[i]? = some (some u) := by
  cases h : l[i]? with
  | none => simp
  | some o => simp

theorem mem_queued {s : State n} {u : Uop n} : u ∈ queued s ↔ ∃ j : Nat, s.ent[j]? = some (some u) := by
  simp only [queued, List.mem_filterMap, id_eq]
  constructor
  · rintro ⟨o, ho, rfl⟩
    exact List.mem_iff_getElem?.1 ho
  · rintro ⟨j, hj⟩
    exact ⟨some u, List.mem_iff_getElem?.2 ⟨j, hj⟩, rfl⟩

/-! ### The invariant -/

structure Inv (P size : Nat) (s : State n) : Prop where
  len : s.ent.length = size
  count : s.count = (queued s).length
  preg : ∀ (j : Nat) (u : Uop n), s.ent[j]? = some (some u) → ∀ k, (u.src k).preg < P
  mat : ∀ (k : Bool) (p j : Nat), s.mat k p j = true ↔ ∃ u : Uop n, s.ent[j]? = some (some u) ∧ waits u k p

theorem inv_init : Inv P size (IssueQueue.init n size) where
  len := by simp [IssueQueue.init]
  count := by simp [IssueQueue.init, queued]
  preg := fun j u h => by simp [IssueQueue.init, List.getElem?_replicate] at h
  mat := fun k p j => by simp [IssueQueue.init, List.getElem?_replicate]

/-- Removing the occupant of slot `i`. -/
theorem remove_eq {s : State n} {i : Nat} {u : Uop n} (h : s.ent[i]? = some (some u)) :
    remove P s i = { ent := s.ent.set i none, count := s.count - 1, mat := clearDep P u i s.mat } := by
  unfold remove
  rw [join_some.2 h]

theorem remove_none {s : State n} {i : Nat} (h : s.ent[i]?.join = none) : remove P s i = s := by
  unfold remove
  rw [h]

theorem queued_remove {s : State n} {i : Nat} {u : Uop n} (h : s.ent[i]? = some (some u)) :
    (queued s).Perm (u :: queued (remove P s i)) := by
  rw [remove_eq h]
  exact perm_clear h

theorem inv_remove {s : State n} {i : Nat} (hi : Inv P size s) : Inv P size (remove P s i) := by
  cases hj : s.ent[i]?.join with
  | none => rw [remove_none hj]; exact hi
  | some u =>
    have h := join_some.1 hj
    have hlt : i < s.ent.length := (List.getElem?_eq_some_iff.1 h).1
    have hq := (queued_remove (P := P) h).length_eq
    rw [remove_eq h] at hq ⊢
    refine ⟨by simpa using hi.len, ?_, ?_, ?_⟩
    · show s.count - 1 = _
      rw [hi.count, hq]
      rfl
    · intro j v hv k
      change (s.ent.set i none)[j]? = _ at hv
      rw [List.getElem?_set] at hv
      by_cases hij : i = j
      · subst hij; simp [hlt] at hv
      · rw [if_neg hij] at hv; exact hi.preg j v hv k
    · intro k p j
      show clearDep P u i s.mat k p j = true ↔ ∃ v, (s.ent.set i none)[j]? = _ ∧ _
      unfold clearDep
      rw [List.getElem?_set]
      by_cases hij : i = j
      · subst hij
        simp only [hlt, if_true, Option.some.injEq, reduceCtorEq, false_and, exists_false, iff_false]
        split
        · simp
        · rename_i hn
          intro hm
          obtain ⟨v, hv, hw⟩ := (hi.mat k p i).1 hm
          rw [h] at hv
          cases hv
          exact hn ⟨hw.1, hi.preg i _ h k, hw.2.2.symm, trivial⟩
      · rw [if_neg hij, if_neg (fun hc => hij hc.2.2.2.symm)]
        exact hi.mat k p j

/-! ### Folding removals -/

theorem remove_ent_ne {s : State n} {i j : Nat} (h : i ≠ j) : (remove P s i).ent[j]? = s.ent[j]? := by
  cases hj : s.ent[i]?.join with
  | none => rw [remove_none hj]
  | some u =>
    rw [remove_eq (join_some.1 hj)]
    show (s.ent.set i none)[j]? = _
    rw [List.getElem?_set, if_neg h]

theorem fold_remove : ∀ (is : List Nat) (s : State n), Inv P size s → is.Nodup →
    (∀ i ∈ is, ∃ u : Uop n, s.ent[i]? = some (some u)) →
    Inv P size (is.foldl (remove P) s) ∧
    (queued s).Perm (is.filterMap (fun i => s.ent[i]?.join) ++ queued (is.foldl (remove P) s))
  | [], s, hi, _, _ => ⟨hi, List.Perm.refl _⟩
  | i :: is, s, hi, hnd, hocc => by
    obtain ⟨u, hu⟩ := hocc i (List.mem_cons_self)
    have hni := (List.nodup_cons.1 hnd)
    have hocc' : ∀ j ∈ is, (remove P s i).ent[j]? = s.ent[j]? := fun j hj =>
      remove_ent_ne (fun he => hni.1 (he ▸ hj))
    obtain ⟨h1, h2⟩ := fold_remove is (remove P s i) (inv_remove hi) hni.2
      (fun j hj => by rw [hocc' j hj]; exact hocc j (List.mem_cons_of_mem _ hj))
    refine ⟨h1, ?_⟩
    have he : is.filterMap (fun j => (remove P s i).ent[j]?.join) = is.filterMap (fun j => s.ent[j]?.join) := by
      clear h1 h2 hnd hni hocc
      induction is with
      | nil => rfl
      | cons a is ih =>
        simp only [List.filterMap_cons, hocc' a List.mem_cons_self]
        rw [ih (fun j hj => hocc' j (List.mem_cons_of_mem _ hj))]
    rw [he] at h2
    simp only [List.filterMap_cons, join_some.2 hu, List.foldl_cons]
    exact (queued_remove hu).trans (h2.cons u)

/-! ### Wake-up -/

theorem hear_nil (u : Uop n) : hear [] u = u := by
  cases u
  simp [hear, hearSrc]

theorem hearSrc_append (a b : List Nat) (x : Src) : hearSrc (a ++ b) x = hearSrc b (hearSrc a x) := by
  rcases x with ⟨en, busy, preg⟩
  by_cases ha : preg ∈ a <;> by_cases hb : preg ∈ b <;> cases en <;> cases busy <;>
    simp [hearSrc, ha, hb]

theorem hear_append (a b : List Nat) (u : Uop n) : hear (a ++ b) u = hear b (hear a u) := by
  simp [hear, hearSrc_append]

theorem queued_map {s t : State n} (f : Uop n → Uop n) (h : t.ent = s.ent.map (Option.map f)) :
    queued t = (queued s).map f := by
  unfold queued
  rw [h]
  generalize s.ent = l
  induction l with
  | nil => rfl
  | cons o l ih => cases o <;> simp [ih]

theorem wakeOne_spec {s : State n} (p : Nat) (hi : Inv P size s) :
    (wakeOne P s p).ent = s.ent.map (Option.map (hear [p])) ∧ Inv P size (wakeOne P s p) := by
  by_cases hp : P ≤ p
  · have he : wakeOne P s p = s := by unfold wakeOne; rw [if_pos hp]
    rw [he]
    refine ⟨?_, hi⟩
    apply List.ext_getElem?
    intro j
    rw [List.getElem?_map]
    cases hj : s.ent[j]? with
    | none => rfl
    | some o =>
      cases o with
      | none => rfl
      | some u =>
        simp only [Option.map_some, Option.some.injEq]
        have : ∀ k, hearSrc [p] (u.src k) = u.src k := fun k => by
          have hlt := hi.preg j u hj k
          have : (u.src k).preg ≠ p := by omega
          simp [hearSrc, this]
        cases u
        simp only [hear, Uop.mk.injEq, true_and, and_true]
        funext k
        exact (this k).symm
  · have he : (wakeOne P s p).ent = s.ent.map (Option.map (hear [p])) := by
      unfold wakeOne
      rw [if_neg hp]
      apply List.ext_getElem?
      intro j
      simp only [List.getElem?_mapIdx, List.getElem?_map]
      cases hj : s.ent[j]? with
      | none => rfl
      | some o =>
        cases o with
        | none => rfl
        | some u =>
          simp only [Option.map_some, Option.some.injEq, hear, Uop.mk.injEq, true_and, and_true]
          funext k
          have hm := hi.mat k p j
          by_cases hw : waits u k p
          · have h1 : s.mat k p j = true := hm.2 ⟨u, hj, hw⟩
            obtain ⟨a, b, c⟩ := hw
            simp [hearSrc, h1, a, b, c]
          · have h1 : s.mat k p j = false := by
              cases hx : s.mat k p j with
              | false => rfl
              | true =>
                obtain ⟨v, hv, hw'⟩ := hm.1 hx
                rw [hj] at hv
                cases hv
                exact absurd hw' hw
            simp only [h1, Bool.false_and, Bool.false_eq_true, if_false, hearSrc]
            rcases hsrc : u.src k with ⟨en, busy, preg⟩
            simp only [Src.mk.injEq, true_and, and_true]
            simp only [waits, hsrc] at hw
            cases en <;> cases busy <;> simp_all
    refine ⟨he, ?_⟩
    have hq := queued_map _ he
    have hj' : ∀ (j : Nat) (v : Uop n), (wakeOne P s p).ent[j]? = some (some v) →
        ∃ u, s.ent[j]? = some (some u) ∧ v = hear [p] u := by
      intro j v hv
      rw [he, List.getElem?_map] at hv
      cases hj : s.ent[j]? with
      | none => rw [hj] at hv; simp at hv
      | some o =>
        rw [hj] at hv
        cases o with
        | none => simp at hv
        | some u => exact ⟨u, rfl, by simpa using hv.symm⟩
    refine ⟨by rw [he]; simpa using hi.len, ?_, ?_, ?_⟩
    · rw [hq, List.length_map, ← hi.count]
      unfold wakeOne
      rw [if_neg hp]
    · intro j v hv k
      obtain ⟨u, hu, rfl⟩ := hj' j v hv
      exact hi.preg j u hu k
    · intro k q j
      have hmat : (wakeOne P s p).mat k q j = if q = p then false else s.mat k q j := by
        unfold wakeOne
        rw [if_neg hp]
      rw [hmat]
      constructor
      · intro h
        by_cases hqp : q = p
        · rw [if_pos hqp] at h; cases h
        · rw [if_neg hqp] at h
          obtain ⟨u, hu, hw⟩ := (hi.mat k q j).1 h
          refine ⟨hear [p] u, by rw [he, List.getElem?_map, hu]; rfl, hw.1, ?_, hw.2.2⟩
          have hne : (u.src k).preg ≠ p := fun h => hqp (hw.2.2.symm.trans h)
          simp [hear, hearSrc, hw.2.1, hne]
      · rintro ⟨v, hv, hw⟩
        obtain ⟨u, hu, rfl⟩ := hj' j v hv
        have hen : (u.src k).en = true := hw.1
        have hpr : (u.src k).preg = q := hw.2.2
        have hb : ((u.src k).busy && !((u.src k).en && [p].contains (u.src k).preg)) = true := hw.2.1
        simp only [hen, hpr, Bool.and_eq_true, Bool.true_and, Bool.not_eq_true',
          List.contains_eq_mem, List.mem_singleton, decide_eq_false_iff_not] at hb
        rw [if_neg hb.2]
        exact (hi.mat k q j).2 ⟨u, hu, hen, hb.1, hpr⟩

theorem combWakeup_spec : ∀ (ws : List Nat) (s : State n), Inv P size s →
    (combWakeup P s ws).ent = s.ent.map (Option.map (hear ws)) ∧ Inv P size (combWakeup P s ws)
  | [], s, hi => by
    refine ⟨?_, hi⟩
    have : (hear [] : Uop n → Uop n) = id := funext hear_nil
    rw [this]
    simp [combWakeup]
  | w :: ws, s, hi => by
    obtain ⟨h1, h2⟩ := wakeOne_spec w hi
    obtain ⟨h3, h4⟩ := combWakeup_spec ws _ h2
    refine ⟨?_, h4⟩
    change (combWakeup P (wakeOne P s w) ws).ent = _
    rw [h3, h1, List.map_map]
    congr 1
    funext o
    cases o with
    | none => rfl
    | some u =>
      show some (hear ws (hear [w] u)) = some (hear (w :: ws) u)
      rw [← hear_append]
      rfl

theorem applyWake_eq (ws : List Nat) (u : Uop n) : applyWake ws u = hear ws u := by
  cases u
  simp only [applyWake, hear, Uop.mk.injEq, true_and, and_true]
  funext k
  rename_i src _ _ _ _
  rcases hs : src k with ⟨en, busy, preg⟩
  by_cases hw : preg ∈ ws <;> cases en <;> simp [hearSrc, hw]

/-! ### Enqueue -/

theorem filterMap_len_eq {α : Type} : ∀ (l : List (Option α)),
    (∀ o ∈ l, o ≠ none) → (l.filterMap id).length = l.length
  | [], _ => rfl
  | none :: l, h => absurd rfl (h none List.mem_cons_self)
  | some a :: l, h => by
    simp [filterMap_len_eq l (fun o ho => h o (List.mem_cons_of_mem _ ho))]

theorem enqueue_spec {s : State n} {u : Uop n} (hi : Inv P size s) (hc : s.count < size)
    (hp : ∀ k, (u.src k).preg < P) :
    ∃ s', enqueue P size s u = some s' ∧ Inv P size s' ∧ (queued s').Perm (u :: queued s) ∧
      s'.count = s.count + 1 := by
  unfold enqueue
  rw [if_neg (by omega)]
  cases hf : s.ent.findIdx? (·.isNone) with
  | none =>
    exfalso
    have hall := List.findIdx?_eq_none_iff.1 hf
    have := filterMap_len_eq s.ent (fun o ho he => by
      have := hall o ho
      rw [he] at this
      cases this)
    have h1 := hi.count
    have h2 := hi.len
    unfold queued at h1
    omega
  | some i =>
    obtain ⟨hlt, hnone, _⟩ := List.findIdx?_eq_some_iff_getElem.1 hf
    have hi0 : s.ent[i]? = some none := by
      rw [List.getElem?_eq_getElem hlt]
      simpa using hnone
    have hq : ((s.ent.set i (some u)).filterMap id).Perm (u :: queued s) := perm_fill hi0
    refine ⟨_, rfl, ?_, hq, rfl⟩
    refine ⟨by simpa using hi.len, ?_, ?_, ?_⟩
    · show s.count + 1 = ((s.ent.set i (some u)).filterMap id).length
      rw [hq.length_eq, hi.count]
      rfl
    · intro j v hv k
      change (s.ent.set i (some u))[j]? = _ at hv
      rw [List.getElem?_set] at hv
      by_cases hij : i = j
      · subst hij
        rw [if_pos rfl, if_pos hlt] at hv
        cases hv
        exact hp k
      · rw [if_neg hij] at hv; exact hi.preg j v hv k
    · intro k p j
      show setDep P u i s.mat k p j = true ↔ ∃ v, (s.ent.set i (some u))[j]? = _ ∧ _
      unfold setDep
      rw [List.getElem?_set]
      by_cases hij : i = j
      · subst hij
        simp only [hlt, if_true]
        have hm : s.mat k p i = false := by
          cases hx : s.mat k p i with
          | false => rfl
          | true =>
            obtain ⟨v, hv, _⟩ := (hi.mat k p i).1 hx
            rw [hi0] at hv
            cases hv
        constructor
        · intro h
          refine ⟨u, rfl, ?_⟩
          split at h
          · rename_i hc
            exact ⟨hc.1, hc.2.1, hc.2.2.2.1.symm⟩
          · rw [hm] at h; cases h
        · rintro ⟨v, hv, hw⟩
          cases hv
          rw [if_pos ⟨hw.1, hw.2.1, hp k, hw.2.2.symm, trivial⟩]
      · rw [if_neg hij, if_neg (fun hc => hij hc.2.2.2.2.symm)]
        exact hi.mat k p j

theorem combEnq_spec : ∀ (us : List (Uop n)) (s : State n), Inv P size s →
    s.count + us.length ≤ size → (∀ u ∈ us, ∀ k, (u.src k).preg < P) →
    ∃ s', combEnq P size s us = some s' ∧ Inv P size s' ∧ (queued s').Perm (queued s ++ us)
  | [], s, hi, _, _ => ⟨s, rfl, hi, by simp⟩
  | u :: us, s, hi, hc, hp => by
    simp only [List.length_cons] at hc
    obtain ⟨s1, h1, h2, h3, h4⟩ := enqueue_spec hi (by omega) (hp u List.mem_cons_self)
    obtain ⟨s2, h5, h6, h7⟩ := combEnq_spec us s1 h2 (by omega)
      (fun v hv => hp v (List.mem_cons_of_mem _ hv))
    refine ⟨s2, ?_, h6, ?_⟩
    · unfold combEnq
      rw [h1]
      exact h5
    · refine h7.trans ((h3.append_right us).trans ?_)
      rw [List.cons_append]
      exact List.perm_middle.symm

/-! ### Flush -/

def flushStep (P : Nat) (mask : BitVec n) (s : State n) (i : Nat) : State n :=
  match s.ent[i]?.join with
  | none => s
  | some u => if u.brMask &&& mask ≠ 0#n then remove P s i else s

theorem flushBr_eq (s : State n) (mask : BitVec n) :
    flushBr P s mask = (List.range s.ent.length).foldl (flushStep P mask) s := rfl

theorem inv_flushStep {s : State n} {mask : BitVec n} {i : Nat} (hi : Inv P size s) :
    Inv P size (flushStep P mask s i) := by
  unfold flushStep
  cases s.ent[i]?.join with
  | none => exact hi
  | some u =>
    show Inv P size (if _ then _ else _)
    split
    · exact inv_remove hi
    · exact hi

/-- What `flush_br` leaves in a slot. -/
def keep (mask : BitVec n) (o : Option (Uop n)) : Option (Uop n) :=
  o.filter (fun u => !decide (u.brMask &&& mask ≠ 0#n))

theorem flushStep_ent {s : State n} {mask : BitVec n} {i j : Nat} :
    (flushStep P mask s i).ent[j]? = if i = j then s.ent[j]?.map (keep mask) else s.ent[j]? := by
  unfold flushStep
  cases hj : s.ent[i]?.join with
  | none =>
    by_cases hij : i = j
    · subst hij
      rw [if_pos rfl]
      cases h : s.ent[i]? with
      | none => rfl
      | some o =>
        rw [h] at hj
        have : o = none := hj
        subst this
        rfl
    · rw [if_neg hij]
  | some u =>
    have h := join_some.1 hj
    have hlt : i < s.ent.length := (List.getElem?_eq_some_iff.1 h).1
    show (if _ then remove P s i else s).ent[j]? = _
    by_cases hm : u.brMask &&& mask ≠ 0#n
    · rw [if_pos hm]
      by_cases hij : i = j
      · subst hij
        rw [if_pos rfl, remove_eq h, h]
        show (s.ent.set i none)[i]? = _
        rw [List.getElem?_set, if_pos rfl, if_pos hlt]
        simp [keep, Option.filter, hm]
      · rw [if_neg hij, remove_ent_ne hij]
    · rw [if_neg hm]
      by_cases hij : i = j
      · subst hij
        rw [if_pos rfl, h]
        simp only [ne_eq, Decidable.not_not] at hm
        simp [keep, Option.filter, hm]
      · rw [if_neg hij]

theorem keep_keep (mask : BitVec n) (o : Option (Uop n)) : keep mask (keep mask o) = keep mask o := by
  cases o with
  | none => rfl
  | some u =>
    unfold keep
    by_cases hm : u.brMask &&& mask = 0#n <;> simp [Option.filter, hm]

theorem flushFold : ∀ (is : List Nat) (s : State n) (mask : BitVec n), Inv P size s →
    Inv P size (is.foldl (flushStep P mask) s) ∧
    ∀ j : Nat, (is.foldl (flushStep P mask) s).ent[j]? =
      if j ∈ is then s.ent[j]?.map (keep mask) else s.ent[j]?
  | [], s, mask, hi => ⟨hi, fun j => by simp⟩
  | i :: is, s, mask, hi => by
    obtain ⟨h1, h2⟩ := flushFold is (flushStep P mask s i) mask (inv_flushStep hi)
    refine ⟨h1, fun j => ?_⟩
    rw [List.foldl_cons, h2 j, flushStep_ent]
    by_cases hij : i = j
    · subst hij
      by_cases hm : i ∈ is
      · simp only [hm, if_true, List.mem_cons, or_true]
        cases s.ent[i]? with
        | none => rfl
        | some o => simp [keep_keep]
      · simp [hm]
    · have : (j ∈ i :: is) ↔ j ∈ is := by
        simp only [List.mem_cons]
        exact ⟨fun h => h.resolve_left (fun e => hij e.symm), Or.inr⟩
      simp [this, hij]

theorem filterMap_keep (mask : BitVec n) (l : List (Option (Uop n))) :
    (l.map (keep mask)).filterMap id = (l.filterMap id).filter (fun u => !decide (u.brMask &&& mask ≠ 0#n)) := by
  induction l with
  | nil => rfl
  | cons o l ih =>
    cases o with
    | none => exact ih
    | some u =>
      by_cases hm : u.brMask &&& mask = 0#n
      · have hk : keep mask (some u) = some u := by simp [keep, Option.filter, hm]
        simp only [List.map_cons, hk, List.filterMap_cons, id_eq]
        rw [ih, List.filter_cons_of_pos (by simp [hm])]
      · have hk : keep mask (some u) = none := by simp [keep, Option.filter, hm]
        simp only [List.map_cons, hk, List.filterMap_cons, id_eq]
        rw [ih, List.filter_cons_of_neg (by simp [hm])]

theorem flushBr_spec {s : State n} (mask : BitVec n) (hi : Inv P size s) :
    Inv P size (flushBr P s mask) ∧
    queued (flushBr P s mask) = (queued s).filter (fun u => !decide (u.brMask &&& mask ≠ 0#n)) := by
  rw [flushBr_eq]
  obtain ⟨h1, h2⟩ := flushFold (List.range s.ent.length) s mask hi
  refine ⟨h1, ?_⟩
  unfold queued
  rw [← filterMap_keep]
  congr 1
  apply List.ext_getElem?
  intro j
  rw [h2 j, List.getElem?_map]
  by_cases hj : j < s.ent.length
  · rw [if_pos (List.mem_range.2 hj)]
  · rw [if_neg (fun h => hj (List.mem_range.1 h)), List.getElem?_eq_none (by omega)]
    rfl

theorem flushAll_spec {s : State n} (hi : Inv P size s) :
    Inv P size (flushAll s) ∧ queued (flushAll s) = [] := by
  have hq : queued (flushAll s) = [] := by
    simp [queued, flushAll, List.filterMap_map, List.filterMap_eq_nil_iff]
  have hn : ∀ (j : Nat) (u : Uop n), (flushAll s).ent[j]? ≠ some (some u) := by
    intro j u h
    have : u ∈ queued (flushAll s) := mem_queued.2 ⟨j, h⟩
    rw [hq] at this
    cases this
  refine ⟨⟨by simpa [flushAll] using hi.len, by rw [hq]; rfl, fun j u h => absurd h (hn j u), ?_⟩, hq⟩
  intro k p j
  constructor
  · intro h; cases h
  · rintro ⟨u, hu, _⟩
    exact absurd hu (hn j u)

theorem clearBr_spec {s : State n} (m : BitVec n) (hi : Inv P size s) :
    Inv P size (clearBr s m) ∧
    queued (clearBr s m) = (queued s).map (fun u => { u with brMask := u.brMask &&& ~~~m }) := by
  have hq := queued_map (s := s) (t := clearBr s m) (fun u => { u with brMask := u.brMask &&& ~~~m }) rfl
  have hget : ∀ j : Nat, (clearBr s m).ent[j]? =
      s.ent[j]?.map (Option.map (fun u => { u with brMask := u.brMask &&& ~~~m })) := fun j => by
    show (s.ent.map _)[j]? = _
    rw [List.getElem?_map]
  have hj' : ∀ (j : Nat) (v : Uop n), (clearBr s m).ent[j]? = some (some v) →
      ∃ u : Uop n, s.ent[j]? = some (some u) ∧ v = { u with brMask := u.brMask &&& ~~~m } := by
    intro j v hv
    rw [hget] at hv
    cases hj : s.ent[j]? with
    | none => rw [hj] at hv; simp at hv
    | some o =>
      rw [hj] at hv
      cases o with
      | none => simp at hv
      | some u => exact ⟨u, rfl, by simpa using hv.symm⟩
  refine ⟨⟨by simpa [clearBr] using hi.len, ?_, ?_, ?_⟩, hq⟩
  · rw [hq, List.length_map]; exact hi.count
  · intro j v hv k
    obtain ⟨u, hu, rfl⟩ := hj' j v hv
    exact hi.preg j u hu k
  · intro k p j
    show s.mat k p j = true ↔ _
    rw [hi.mat]
    constructor
    · rintro ⟨u, hu, hw⟩
      exact ⟨{ u with brMask := u.brMask &&& ~~~m }, by rw [hget, hu]; rfl, hw⟩
    · rintro ⟨v, hv, hw⟩
      obtain ⟨u, hu, rfl⟩ := hj' j v hv
      exact ⟨u, hu, hw⟩

theorem combFlush_spec {s : State n} (i : Input n) (hi : Inv P size s) :
    Inv P size (combFlush P s i.all i.br i.brMask i.clear) ∧
    queued (combFlush P s i.all i.br i.brMask i.clear) =
      ((queued s).filter (fun u => !killed i u)).map (scrub i) := by
  have h1 : Inv P size (if i.all then flushAll s else if i.br then flushBr P s i.brMask else s) ∧
      queued (if i.all then flushAll s else if i.br then flushBr P s i.brMask else s) =
        (queued s).filter (fun u => !killed i u) := by
    cases ha : i.all with
    | true =>
      obtain ⟨a, b⟩ := flushAll_spec hi
      refine ⟨a, ?_⟩
      rw [if_pos rfl, b]
      simp [killed, ha]
    | false =>
      cases hb : i.br with
      | true =>
        obtain ⟨a, b⟩ := flushBr_spec i.brMask hi
        refine ⟨a, ?_⟩
        simp only [Bool.false_eq_true, if_false, if_true]
        rw [b]
        apply List.filter_congr
        intro u _
        simp [killed, ha, hb]
      | false =>
        refine ⟨hi, ?_⟩
        have : (fun u => !killed i u) = fun _ => true := by
          funext u
          simp [killed, ha, hb]
        rw [this]
        exact (List.filter_eq_self.2 (fun _ _ => rfl)).symm
  unfold combFlush
  by_cases hc : i.clear = 0#n
  · simp only [hc, ne_eq, not_true, if_false]
    refine ⟨h1.1, h1.2.trans ?_⟩
    have : (scrub i : Uop n → Uop n) = id := by
      funext u
      cases u
      simp [scrub, hc]
    rw [this, List.map_id]
  · simp only [ne_eq, hc, not_false_iff, if_true]
    obtain ⟨a, b⟩ := clearBr_spec i.clear h1.1
    exact ⟨a, by rw [b, h1.2]; rfl⟩

/-! ### Scheduling -/

theorem insertBy_perm (lt : Nat → Nat → Bool) (x : Nat) : ∀ l : List Nat, (insertBy lt x l).Perm (x :: l)
  | [] => List.Perm.refl _
  | y :: ys => by
    unfold insertBy
    split
    · exact ((insertBy_perm lt x ys).cons y).trans (List.Perm.swap x y ys)
    · exact List.Perm.refl _

theorem sortBy_perm (lt : Nat → Nat → Bool) : ∀ l : List Nat, (sortBy lt l).Perm l
  | [] => List.Perm.refl _
  | x :: xs => (insertBy_perm lt x _).trans ((sortBy_perm lt xs).cons x)

theorem gather_spec (count : Nat) : ∀ (es : List (Option (Uop n))) (i seen : Nat),
    seen + (es.filterMap id).length = count →
    (∀ x, x ∈ gather count es i seen ↔ ∃ (j : Nat) (u : Uop n), es[j]? = some (some u) ∧ isReady u = true ∧ x = i + j) ∧
    (gather count es i seen).Pairwise (· < ·)
  | [], i, seen, _ => by simp [gather]
  | none :: es, i, seen, h => by
    obtain ⟨h1, h2⟩ := gather_spec count es (i + 1) seen (by simpa using h)
    refine ⟨fun x => ?_, h2⟩
    show x ∈ gather count es (i + 1) seen ↔ _
    rw [h1]
    constructor
    · rintro ⟨j, u, a, b, c⟩
      exact ⟨j + 1, u, by simpa using a, b, by omega⟩
    · rintro ⟨j, u, a, b, c⟩
      cases j with
      | zero => simp at a
      | succ j => exact ⟨j, u, by simpa using a, b, by omega⟩
  | some u :: es, i, seen, h => by
    simp only [List.filterMap_cons, id_eq, List.length_cons] at h
    obtain ⟨h1, h2⟩ := gather_spec count es (i + 1) (seen + 1) (by omega)
    have hlast : count ≤ seen + 1 → gather count es (i + 1) (seen + 1) = [] := by
      intro hc
      cases hg : gather count es (i + 1) (seen + 1) with
      | nil => rfl
      | cons x xs =>
        obtain ⟨j, v, a, _, _⟩ := (h1 x).1 (by rw [hg]; exact List.mem_cons_self)
        have : v ∈ es.filterMap id := by
          simp only [List.mem_filterMap, id_eq]
          exact ⟨some v, List.mem_iff_getElem?.2 ⟨j, a⟩, rfl⟩
        have := List.length_pos_of_mem this
        omega
    have he : gather count (some u :: es) i seen =
        (if isReady u then [i] else []) ++ gather count es (i + 1) (seen + 1) := by
      show (if count ≤ seen + 1 then _ else _) = _
      by_cases hc : count ≤ seen + 1
      · rw [if_pos hc, hlast hc, List.append_nil]
      · rw [if_neg hc]
    rw [he]
    constructor
    · intro x
      rw [List.mem_append, h1]
      constructor
      · rintro (hx | ⟨j, v, a, b, c⟩)
        · split at hx
          · rename_i hr
            exact ⟨0, u, by simp, hr, by simpa using hx⟩
          · cases hx
        · exact ⟨j + 1, v, by simpa using a, b, by omega⟩
      · rintro ⟨j, v, a, b, c⟩
        cases j with
        | zero =>
          simp only [List.getElem?_cons_zero, Option.some.injEq] at a
          subst a
          left
          rw [if_pos b]
          simp [c]
        | succ j => exact Or.inr ⟨j, v, by simpa using a, b, by omega⟩
    · rw [List.pairwise_append]
      refine ⟨by split <;> simp, h2, ?_⟩
      intro a ha b hb
      obtain ⟨j, v, _, _, hc⟩ := (h1 b).1 hb
      have : a = i := by
        split at ha
        · simpa using ha
        · cases ha
      omega

/-- The ready slots in scheduling order. -/
def readyList (policy : Bool) (s : State n) : List Nat := sorted policy s.ent (gather s.count s.ent 0 0)

theorem readyList_spec {s : State n} (hi : Inv P size s) :
    (∀ x : Nat, x ∈ readyList policy s ↔ ∃ u : Uop n, s.ent[x]? = some (some u) ∧ isReady u = true) ∧
    (readyList policy s).Nodup := by
  obtain ⟨h1, h2⟩ := gather_spec s.count s.ent 0 0 (by rw [hi.count, Nat.zero_add]; rfl)
  have hp : (readyList policy s).Perm (gather s.count s.ent 0 0) := by
    unfold readyList sorted
    split
    · exact sortBy_perm _ _
    · exact List.Perm.refl _
  constructor
  · intro x
    rw [hp.mem_iff, h1]
    constructor
    · rintro ⟨j, u, a, b, c⟩
      rw [Nat.zero_add] at c
      exact ⟨u, c ▸ a, b⟩
    · rintro ⟨u, a, b⟩
      exact ⟨x, u, a, b, by omega⟩
  · exact hp.nodup_iff.2 (h2.imp (fun h => by omega))

theorem assign_spec (ent : List (Option (Uop n))) (ready : List Nat) :
    ∀ (ps : List Port) (issued : List Nat),
    (∀ g ∈ assign ent ready ps issued, g.1 ∈ ready ∧ g.1 ∉ issued ∧ g.2 ∈ ps ∧ g.2.cap (opAt ent g.1) = true) ∧
    ((assign ent ready ps issued).map (·.1)).Nodup ∧
    ((assign ent ready ps issued).map (·.2)).Sublist ps
  | [], issued => by simp [assign]
  | p :: ps, issued => by
    unfold assign
    cases hf : ready.find? (fun i => !issued.contains i && p.cap (opAt ent i)) with
    | none =>
      obtain ⟨h1, h2, h3⟩ := assign_spec ent ready ps issued
      exact ⟨fun g hg => ⟨(h1 g hg).1, (h1 g hg).2.1, List.mem_cons_of_mem _ (h1 g hg).2.2.1, (h1 g hg).2.2.2⟩,
        h2, h3.cons p⟩
    | some i =>
      obtain ⟨h1, h2, h3⟩ := assign_spec ent ready ps (i :: issued)
      have hi := List.find?_some hf
      have hm := List.mem_of_find?_eq_some hf
      simp only [Bool.and_eq_true, Bool.not_eq_true', List.contains_eq_mem, decide_eq_false_iff_not] at hi
      refine ⟨?_, ?_, ?_⟩
      · intro g hg
        rcases List.mem_cons.1 hg with rfl | hg
        · exact ⟨hm, hi.1, List.mem_cons_self, hi.2⟩
        · obtain ⟨a, b, c, d⟩ := h1 g hg
          exact ⟨a, fun h => b (List.mem_cons_of_mem _ h), List.mem_cons_of_mem _ c, d⟩
      · simp only [List.map_cons, List.nodup_cons]
        refine ⟨?_, h2⟩
        intro hmem
        obtain ⟨g, hg, he⟩ := List.mem_map.1 hmem
        exact (h1 g hg).2.1 (he ▸ List.mem_cons_self)
      · exact h3.cons_cons p

/-- What was assigned before the pair `(i, p)` includes everything that precedes `i` in the ready
list and fits `p`. -/
theorem assign_first (ent : List (Option (Uop n))) (ready : List Nat) :
    ∀ (ps : List Port) (issued : List Nat) (pre post : List (Nat × Port)) (i : Nat) (p : Port),
    assign ent ready ps issued = pre ++ (i, p) :: post →
    ∀ (A B : List Nat), ready = A ++ i :: B → i ∉ A → ∀ j ∈ A, p.cap (opAt ent j) = true →
      j ∈ issued ∨ j ∈ pre.map (·.1)
  | [], issued, pre, post, i, p, h => by simp [assign] at h
  | q :: ps, issued, pre, post, i, p, h => by
    intro A B hAB hiA j hj hcap
    unfold assign at h
    cases hf : ready.find? (fun i => !issued.contains i && q.cap (opAt ent i)) with
    | none =>
      rw [hf] at h
      exact assign_first ent ready ps issued pre post i p h A B hAB hiA j hj hcap
    | some x =>
      rw [hf] at h
      change (x, q) :: assign ent ready ps (x :: issued) = _ at h
      cases pre with
      | nil =>
        simp only [List.nil_append, List.cons.injEq, Prod.mk.injEq] at h
        obtain ⟨⟨rfl, rfl⟩, _⟩ := h
        left
        obtain ⟨_, as, bs, he, hall⟩ := List.find?_eq_some_iff_append.1 hf
        have hA : as = A := by
          have h1 : x ∉ as := fun hx => by
            have h2 := hall x hx
            have h3 := (List.find?_eq_some_iff_append.1 hf).1
            rw [h3] at h2
            cases h2
          have := hAB.symm.trans he
          rcases List.append_eq_append_iff.1 this with ⟨c, e1, e2⟩ | ⟨c, e1, e2⟩
          · cases c with
            | nil => simpa using e1
            | cons y ys =>
              simp only [List.cons_append, List.cons.injEq] at e2
              exact absurd (e1 ▸ List.mem_append_right A (e2.1 ▸ List.mem_cons_self)) h1
          · cases c with
            | nil => simpa using e1.symm
            | cons y ys =>
              simp only [List.cons_append, List.cons.injEq] at e2
              exact absurd (e1 ▸ List.mem_append_right as (e2.1 ▸ List.mem_cons_self)) hiA
        have := hall j (hA ▸ hj)
        simp only [hcap, Bool.and_true, Bool.not_not, List.contains_eq_mem, decide_eq_true_eq] at this
        exact this
      | cons y pre =>
        simp only [List.cons_append, List.cons.injEq] at h
        obtain ⟨rfl, h⟩ := h
        rcases assign_first ent ready ps (x :: issued) pre post i p h A B hAB hiA j hj hcap with h1 | h1
        · rcases List.mem_cons.1 h1 with rfl | h1
          · right; exact List.mem_cons_self
          · left; exact h1
        · right; exact List.mem_cons_of_mem _ h1

/-- A ready slot that was not assigned: every port that could take it was assigned to one that
precedes it. -/
theorem assign_total (ent : List (Option (Uop n))) (ready : List Nat) :
    ∀ (ps : List Port) (issued : List Nat) (j : Nat) (p : Port), p ∈ ps → j ∈ ready → j ∉ issued →
    j ∉ (assign ent ready ps issued).map (·.1) → p.cap (opAt ent j) = true →
    ∃ i A B, (i, p) ∈ assign ent ready ps issued ∧ ready = A ++ i :: B ∧ j ∈ B
  | [], _, _, _, h, _, _, _, _ => by cases h
  | q :: ps, issued, j, p, hp, hj, hni, hna, hcap => by
    unfold assign at hna ⊢
    cases hf : ready.find? (fun i => !issued.contains i && q.cap (opAt ent i)) with
    | none =>
      rw [hf] at hna
      rcases List.mem_cons.1 hp with rfl | hp
      · have := List.find?_eq_none.1 hf j hj
        simp [hni, hcap] at this
      · exact assign_total ent ready ps issued j p hp hj hni hna hcap
    | some x =>
      rw [hf] at hna
      change j ∉ ((x, q) :: assign ent ready ps (x :: issued)).map (·.1) at hna
      simp only [List.map_cons, List.mem_cons, not_or] at hna
      rcases List.mem_cons.1 hp with rfl | hp
      · obtain ⟨_, as, bs, he, hall⟩ := List.find?_eq_some_iff_append.1 hf
        refine ⟨x, as, bs, List.mem_cons_self, he, ?_⟩
        rw [he] at hj
        rcases List.mem_append.1 hj with h | h
        · have := hall j h
          simp [hni, hcap] at this
        · exact (List.mem_cons.1 h).resolve_left hna.1
      · obtain ⟨i, A, B, h1, h2, h3⟩ := assign_total ent ready ps (x :: issued) j p hp hj
          (by simp [hna.1, hni]) hna.2 hcap
        exact ⟨i, A, B, List.mem_cons_of_mem _ h1, h2, h3⟩

/-! ### Steps -/

theorem granted_spec {s : State n} (hi : Inv P size s) (fuReady : Nat → Nat → Bool) (block : Bool) :
    (∀ g ∈ granted policy ports s fuReady block, ∃ u : Uop n, s.ent[g.1]? = some (some u) ∧
      isReady u = true ∧ g.2 ∈ ports ∧ g.2.cap u.op = true ∧ fuReady g.2.idx u.op = true ∧ block = false) ∧
    ((granted policy ports s fuReady block).map (·.1)).Nodup ∧
    ((granted policy ports s fuReady block).map (·.2)).Sublist ports := by
  obtain ⟨h1, h2, h3⟩ := assign_spec s.ent (readyList policy s) ports []
  obtain ⟨r1, _⟩ := readyList_spec (policy := policy) hi
  refine ⟨?_, ?_, ?_⟩
  · intro g hg
    obtain ⟨hg1, hg2⟩ := List.mem_filter.1 hg
    obtain ⟨a, _, c, d⟩ := h1 g hg1
    obtain ⟨u, hu, hr⟩ := (r1 g.1).1 a
    have hop : opAt s.ent g.1 = u.op := by simp [opAt, hu]
    rw [hop] at d hg2
    simp only [Bool.and_eq_true, Bool.not_eq_true'] at hg2
    exact ⟨u, hu, hr, c, d, hg2.1, hg2.2⟩
  · exact h2.sublist (List.filter_sublist.map _)
  · exact (List.filter_sublist.map _).trans h3

theorem combIssue_spec {s : State n} (hi : Inv P size s) (i : Input n) :
    Inv P size (combIssue P policy ports s i.fuReady i.block) ∧
    (queued s).Perm (grants policy ports s i ++ queued (combIssue P policy ports s i.fuReady i.block)) := by
  obtain ⟨h1, h2, _⟩ := granted_spec (policy := policy) (ports := ports) hi i.fuReady i.block
  obtain ⟨h3, h4⟩ := fold_remove _ s hi h2 (fun x hx => by
    obtain ⟨g, hg, rfl⟩ := List.mem_map.1 hx
    obtain ⟨u, hu, _⟩ := h1 g hg
    exact ⟨u, hu⟩)
  refine ⟨h3, ?_⟩
  rw [List.filterMap_map] at h4
  exact h4

/-- The effect of one cycle. -/
theorem step_spec {s : State n} (hi : Inv P size s) (i : Input n) (hv : Valid P size s i) :
    ∃ s' rest, step P size policy ports s i = some s' ∧ Inv P size s' ∧
      (queued s).Perm (grants policy ports s i ++ rest) ∧
      (queued s').Perm ((((rest ++ i.enq).map (hear i.wakes)).filter (fun u => !killed i u)).map (scrub i)) := by
  obtain ⟨h1, h2⟩ := combIssue_spec (policy := policy) (ports := ports) hi i
  obtain ⟨h3, h4⟩ := combWakeup_spec i.wakes _ h1
  have hq := queued_map _ h3
  have hcount : (combWakeup P (combIssue P policy ports s i.fuReady i.block) i.wakes).count +
      (i.enq.map (applyWake i.wakes)).length ≤ size := by
    have a := h2.length_eq
    have b := hv.room
    have c := hi.count
    have d := h4.count
    have e : (queued s).length ≤ size := by
      rw [← hi.len]
      exact List.length_filterMap_le _ _
    rw [hq, List.length_map] at d
    simp only [List.length_append] at a
    simp only [List.length_map, freeSlots] at b ⊢
    omega
  have hmap : i.enq.map (applyWake i.wakes) = i.enq.map (hear i.wakes) :=
    List.map_congr_left (fun u _ => applyWake_eq _ _)
  obtain ⟨s1, h5, h6, h7⟩ := combEnq_spec (i.enq.map (applyWake i.wakes)) _ h4 hcount (by
    intro u hu k
    rw [hmap] at hu
    obtain ⟨v, hv', rfl⟩ := List.mem_map.1 hu
    exact hv.preg v hv' k)
  obtain ⟨h8, h9⟩ := combFlush_spec i h6
  refine ⟨_, queued (combIssue P policy ports s i.fuReady i.block), ?_, h8, h2, ?_⟩
  · unfold step
    rw [h5]
    rfl
  · rw [h9]
    refine List.Perm.map _ (List.Perm.filter _ ?_)
    rw [hq, hmap, ← List.map_append] at h7
    exact h7

theorem inv_reach {s : State n} (h : Reach P size policy ports s) : Inv P size s := by
  induction h with
  | init => exact inv_init
  | step i _ hv hs ih =>
    obtain ⟨s', _, h1, h2, _⟩ := step_spec (policy := policy) (ports := ports) ih i hv
    rw [hs] at h1
    cases h1
    exact h2

theorem hist_reach {s : State n} {w : List (Mem n)} (h : Hist P size policy ports s w) :
    Reach P size policy ports s := by
  induction h with
  | init => exact .init
  | step i _ hv hs _ _ ih => exact .step i ih hv hs

theorem now_advance (rest : List (Mem n)) (i : Input n) :
    (advance rest i).map now =
      (((rest.map now ++ i.enq).map (hear i.wakes)).filter (fun u => !killed i u)).map (scrub i) := by
  unfold advance
  have he : rest.map now ++ i.enq = (rest ++ i.enq.map (fun u => ((u, []) : Mem n))).map now := by
    rw [List.map_append, List.map_map]
    congr 1
    have : ((now : Mem n → Uop n) ∘ fun u => ((u, []) : Mem n)) = id := by
      funext u
      exact hear_nil u
    rw [this, List.map_id]
  rw [he]
  generalize rest ++ i.enq.map (fun u => ((u, []) : Mem n)) = l
  induction l with
  | nil => rfl
  | cons m l ih =>
    have hk : killed i (hear i.wakes (now m)) = killed i m.1 := rfl
    cases hkm : killed i m.1 with
    | true =>
      rw [hkm] at hk
      simp only [List.map_cons, List.filter_cons, hkm, hk, Bool.not_true, Bool.false_eq_true, if_false]
      exact ih
    | false =>
      rw [hkm] at hk
      simp only [List.map_cons, List.filter_cons, hkm, hk, Bool.not_false, if_true, List.map_cons]
      rw [ih]
      congr 1
      show scrub i (hear (m.2 ++ i.wakes) m.1) = scrub i (hear i.wakes (hear m.2 m.1))
      rw [hear_append]

theorem hist_perm {s : State n} {w : List (Mem n)} (h : Hist P size policy ports s w) :
    (queued s).Perm (w.map now) := by
  induction h with
  | init => simp [queued, IssueQueue.init]
  | @step s s' w g rest i h hv hs hp hg ih =>
    obtain ⟨s1, r, h1, _, h3, h4⟩ := step_spec (policy := policy) (ports := ports) (inv_reach (hist_reach h)) i hv
    rw [hs] at h1
    cases h1
    have hr : r.Perm (rest.map now) := by
      have h5 : (grants policy ports s i ++ r).Perm (grants policy ports s i ++ rest.map now) := by
        refine h3.symm.trans (ih.trans ?_)
        have := hp.map now
        rw [List.map_append, hg] at this
        exact this
      exact (List.perm_append_left_iff _).1 h5
    rw [now_advance]
    refine h4.trans (List.Perm.map _ (List.Perm.filter _ (List.Perm.map _ (hr.append_right _))))

/-- Splitting a list along a permutation of its image. -/
theorem perm_split {α β : Type} (f : α → β) : ∀ (a b : List β) (w : List α), (w.map f).Perm (a ++ b) →
    ∃ g rest, w.Perm (g ++ rest) ∧ g.map f = a
  | [], b, w, _ => ⟨[], w, List.Perm.refl _, rfl⟩
  | x :: a, b, w, h => by
    have hx : x ∈ w.map f := h.mem_iff.2 (by simp)
    obtain ⟨y, hy, rfl⟩ := List.mem_map.1 hx
    obtain ⟨w1, w2, rfl⟩ := List.append_of_mem hy
    have h' : ((w1 ++ w2).map f).Perm (a ++ b) := by
      rw [List.map_append, List.map_cons] at h
      have := (List.perm_middle.symm.trans h : (f y :: (w1.map f ++ w2.map f)).Perm _)
      rw [List.cons_append] at this
      rw [List.map_append]
      exact this.cons_inv
    obtain ⟨g, rest, h1, h2⟩ := perm_split f a b (w1 ++ w2) h'
    exact ⟨y :: g, rest, List.perm_middle.trans (h1.cons y), by simp [h2]⟩

/-! ### Age -/

theorem sortBy_before (lt : Nat → Nat → Bool) (age : Nat → Nat) : ∀ (l : List Nat),
    (∀ a ∈ l, ∀ b ∈ l, lt a b = decide (age a < age b)) →
    (sortBy lt l).Pairwise (fun a b => age a ≤ age b)
  | [], _ => List.Pairwise.nil
  | x :: xs, h => by
    have ih := sortBy_before lt age xs (fun a ha b hb =>
      h a (List.mem_cons_of_mem _ ha) b (List.mem_cons_of_mem _ hb))
    have hx : ∀ y ∈ sortBy lt xs, lt y x = decide (age y < age x) := fun y hy =>
      h y (List.mem_cons_of_mem _ ((sortBy_perm lt xs).mem_iff.1 hy)) x List.mem_cons_self
    show (insertBy lt x (sortBy lt xs)).Pairwise _
    generalize sortBy lt xs = l at ih hx
    induction l with
    | nil => exact List.pairwise_singleton _ _
    | cons y ys ih2 =>
      unfold insertBy
      obtain ⟨h1, h2⟩ := List.pairwise_cons.1 ih
      have hy := hx y List.mem_cons_self
      by_cases hlt : age y < age x
      · rw [hy, if_pos (by simpa using hlt)]
        refine List.pairwise_cons.2 ⟨?_, ih2 h2 (fun z hz => hx z (List.mem_cons_of_mem _ hz))⟩
        intro z hz
        rcases List.mem_cons.1 ((insertBy_perm lt x ys).mem_iff.1 hz) with rfl | hz
        · omega
        · exact h1 z hz
      · rw [hy, if_neg (by simpa using hlt)]
        refine List.pairwise_cons.2 ⟨?_, ih⟩
        intro z hz
        rcases List.mem_cons.1 hz with rfl | hz
        · omega
        · have := h1 z hz
          omega

end Verif.Proofs.IssueQueue

import Verif.Spec.ExuQueue
namespace Verif.Exu.Proofs
open Verif.Exu Verif.Exu.Spec
variable {n : Nat}

/-! ### Cancellation as the code computes it -/

theorem one_shift_ne_allOnes (h : 16 < n) (k : Nat) : (1#n <<< k) ≠ BitVec.allOnes n := by
  intro e
  have h0 := congrArg (fun b : BitVec n => b.getLsbD 0) e
  have h1 := congrArg (fun b : BitVec n => b.getLsbD 1) e
  have hn0 : 0 < n := by omega
  have hn1 : 1 < n := by omega
  simp only [BitVec.getLsbD_shiftLeft, BitVec.getLsbD_one, BitVec.getLsbD_allOnes] at h0 h1
  rcases Nat.lt_or_ge 0 k with hk | hk
  · simp [hn0, hk] at h0
  · have : k = 0 := by omega
    subst this
    simp [hn1] at h1

theorem brKilled_eq (c : Ctl n) (o : Op n) :
    (c.flush || brKilled c o) = decide (cancelled c o) := by
  rw [Bool.eq_iff_iff, decide_eq_true_eq]
  unfold brKilled cancelled Ctl.mask
  cases c.flush <;> cases hm : c.mispred <;> simp [bne]

theorem fuKills_eq (c : Ctl n) (o : Op n) (hw : c.flush = true → 16 < n ∨ o.brMask ≠ 0#n) :
    fuKills c o = decide (cancelled c o) := by
  rw [Bool.eq_iff_iff, decide_eq_true_eq]
  unfold fuKills cancelled Ctl.fuFlush Ctl.fuMask isFullMask Ctl.mask
  cases hf : c.flush with
  | true =>
    rcases hw hf with h | h
    · simp [h]
    · simp [h]
  | false =>
    cases hm : c.mispred with
    | false => simp
    | true =>
      by_cases hn : 16 < n
      · simp [hn, one_shift_ne_allOnes hn, bne]
      · simp [hn, bne]

theorem scrub_eq (c : Ctl n) : scrub c = resolve c := rfl

theorem cancelled_resolve {c : Ctl n} {o : Op n} (h : ¬ cancelled c o) :
    ¬ cancelled c (resolve c o) := by
  unfold cancelled resolve at *
  simp only [not_or, not_and, Classical.not_not] at *
  refine ⟨h.1, fun hm => ?_⟩
  have := h.2 hm
  rw [BitVec.and_assoc, BitVec.and_comm (~~~c.clear), ← BitVec.and_assoc, this]
  simp

/-- What an operation slot is after the broadcasts. -/
def keep (c : Ctl n) (s : Option (Op n)) : Option (Op n) :=
  (s.filter (fun o => ¬ cancelled c o)).map (resolve c)

theorem enOf_eq (c : Ctl n) (x : Cell n) : enOf c x = keep c x.slot := by
  unfold enOf keep liveSlot
  rw [scrub_eq]
  congr 1
  cases x.slot with
  | none => rfl
  | some o => simp [Option.filter, brKilled_eq]

theorem pipeSlot_eq (c : Ctl n) (t : Nat) (won : Bool) (x : Cell n) :
    pipeSlot c t won x = if rdyOf c t won x then none else enOf c x := by
  unfold pipeSlot postSlot enOf liveSlot
  cases hr : rdyOf c t won x with
  | true => simp
  | false =>
    cases hs : x.slot with
    | none => simp
    | some o =>
      cases hf : c.flush <;> cases hk : brKilled c o <;> simp [Option.filter, hk]

theorem takes_free {c : Ctl n} {t : Nat} {won : Bool} {x : Cell n} {o : Op n}
    (h : takes c t won x o = true) : rdyOf c t won x = true ∨ enOf c x = none := by
  unfold takes at h
  rw [pipeSlot_eq] at h
  cases hr : rdyOf c t won x with
  | true => exact Or.inl rfl
  | false => simp [hr] at h; exact Or.inr h.2

/-! ### The link between a unit's registers and its account -/

/-- Registers and account agree at the start of cycle `t`. -/
def Rel (t : Nat) (x : Cell n) (q : Owed n) : Prop :=
  match x.fu with
  | .single => q.map Prod.fst = x.slot.toList ∧ ∀ e ∈ q, e.2 < t
  | .fixed l pipe =>
    ∃ ps ss : Owed n, q = ps ++ ss ∧ pipe = ps.map (fun e => (e.1, e.2 + l)) ∧
      ss.map Prod.fst = x.slot.toList ∧ (∀ e ∈ ss, e.2 + 1 = t) ∧
      (ps.map Prod.snd).Pairwise (· < ·) ∧ (∀ e ∈ ps, t ≤ e.2 + l ∧ e.2 + 2 ≤ t) ∧ 1 ≤ l
  | .iter none => q.map Prod.fst = x.slot.toList ∧ ∀ e ∈ q, e.2 + 1 = t
  | .iter (some (o, d)) =>
    ∃ tin, q = [(o, tin)] ∧ x.slot = some o ∧ d = tin + 1 + o.lat ∧ tin + 2 ≤ t

theorem rel_idle (t : Nat) (x : Cell n) (h : Idle x) : Rel t x [] := by
  obtain ⟨hs, h | ⟨l, hl, h⟩ | h⟩ := h
  · simp [Rel, h, hs]
  · rw [Rel, h]
    exact ⟨[], [], rfl, rfl, by simp [hs], by simp, by simp, by simp, hl⟩
  · simp [Rel, h, hs]

theorem survivors_append (c : Ctl n) (a b : Owed n) :
    survivors c (a ++ b) = survivors c a ++ survivors c b := by
  simp [survivors]

theorem mem_survivors {c : Ctl n} {q : Owed n} {e : Op n × Nat} (h : e ∈ survivors c q) :
    ∃ e' ∈ q, ¬ cancelled c e'.1 ∧ e = (resolve c e'.1, e'.2) := by
  simp only [survivors, List.mem_map, List.mem_filter, decide_eq_true_eq] at h
  obtain ⟨e', ⟨hm, hc⟩, rfl⟩ := h
  exact ⟨e', hm, hc, rfl⟩

theorem survivors_slot {c : Ctl n} {q : Owed n} {s : Option (Op n)}
    (h : q.map Prod.fst = s.toList) : (survivors c q).map Prod.fst = (keep c s).toList := by
  cases s with
  | none =>
    have : q = [] := by simpa using h
    subst this; rfl
  | some o =>
    simp only [Option.toList] at h
    match q, h with
    | [e], h =>
      have he : e.1 = o := by simpa using h
      by_cases hc : cancelled c o <;> simp [survivors, keep, Option.filter, he, hc]

/-- A strictly increasing list of numbers in `[a, a+m)` has at most `m` elements. -/
theorem length_le_of_sorted : ∀ (l : List Nat) (a m : Nat), l.Pairwise (· < ·) →
    (∀ x ∈ l, a ≤ x ∧ x < a + m) → l.length ≤ m
  | [], _, _, _, _ => Nat.zero_le _
  | x :: xs, a, m, hp, hb => by
    have hx := hb x (by simp)
    have hp' := List.pairwise_cons.1 hp
    have := length_le_of_sorted xs (x + 1) (a + m - (x + 1)) hp'.2 (fun y hy => by
      have h1 := hp'.1 y hy
      have h2 := hb y (by simp [hy])
      omega)
    simp only [List.length_cons]
    omega

theorem settle_acc (c : Ctl n) (t : Nat) (won : Bool) (inc : Option (Op n)) (x : Cell n) :
    (cellStep c t won inc x).acc = none ∨
      ((cellStep c t won inc x).acc.isSome ∧ (rdyOf c t won x = true ∨ enOf c x = none)) := by
  unfold cellStep
  cases inc with
  | none => left; rfl
  | some o =>
    cases ht : takes c t won x o with
    | false => left; simp [Option.filter, ht]
    | true => right; exact ⟨by simp [Option.filter, ht], takes_free ht⟩

theorem slot_next (c : Ctl n) (t : Nat) (won : Bool) (inc : Option (Op n)) (x : Cell n) :
    (cellStep c t won inc x).cell.slot =
      (cellStep c t won inc x).acc.or (if rdyOf c t won x then none else enOf c x) := by
  rw [← pipeSlot_eq]; rfl

/-- Side conditions of a unit's cycle. -/
structure CellOk (c : Ctl n) (t : Nat) (won : Bool) (x : Cell n) (q : Owed n) : Prop where
  rel : Rel t x q
  wide : c.flush = true → 16 < n ∨ ∀ e ∈ q, e.1.brMask ≠ 0#n
  hwon : won = true → (offerOf c t x).isSome = true
  hfirst : IsFixed x → won = (offerOf c t x).isSome

theorem wide_one {c : Ctl n} {q : Owed n} (h : c.flush = true → 16 < n ∨ ∀ e ∈ q, e.1.brMask ≠ 0#n)
    {e : Op n × Nat} (he : e ∈ q) : c.flush = true → 16 < n ∨ e.1.brMask ≠ 0#n :=
  fun hf => (h hf).imp id (fun hh => hh e he)

/-- The registers of a unit inside the cycle, once the slot has been offered to it. -/
theorem mid_single {c : Ctl n} {t : Nat} {x : Cell n} (hx : x.fu = .single) :
    midFu c t x = .single := by simp [midFu, hx, Fu.ctrl, Fu.accept]

theorem ctrl_pipe {c : Ctl n} {ps : Owed n} {l : Nat}
    (hw : c.flush = true → 16 < n ∨ ∀ e ∈ ps, e.1.brMask ≠ 0#n) :
    ((ps.map (fun e => (e.1, e.2 + l))).filter (fun e => !fuKills c e.1)).map
      (fun e => (scrub c e.1, e.2)) = (survivors c ps).map (fun e => (e.1, e.2 + l)) := by
  induction ps with
  | nil => rfl
  | cons e ps ih =>
    have hk := fuKills_eq c e.1 (wide_one hw (by simp))
    have ih := ih (fun hf => (hw hf).imp id (fun hh e' he' => hh e' (by simp [he'])))
    by_cases hc : cancelled c e.1 <;>
      simp_all [survivors, scrub_eq]

theorem survivors_sorted {c : Ctl n} {ps : Owed n} (h : (ps.map Prod.snd).Pairwise (· < ·)) :
    ((survivors c ps).map Prod.snd).Pairwise (· < ·) := by
  have : (survivors c ps).map Prod.snd = (ps.filter (fun e => ¬ cancelled c e.1)).map Prod.snd := by
    simp [survivors, List.map_map, Function.comp_def]
  rw [this]
  exact h.sublist (List.filter_sublist.map _)

theorem mid_fixed {c : Ctl n} {t : Nat} {x : Cell n} {q ps ss : Owed n} {l : Nat}
    {pipe : List (Op n × Nat)} (hx : x.fu = .fixed l pipe)
    (hw : c.flush = true → 16 < n ∨ ∀ e ∈ q, e.1.brMask ≠ 0#n)
    (hq : q = ps ++ ss) (hp : pipe = ps.map (fun e => (e.1, e.2 + l)))
    (hss : ss.map Prod.fst = x.slot.toList) (hst : ∀ e ∈ ss, e.2 + 1 = t)
    (hsort : (ps.map Prod.snd).Pairwise (· < ·)) (hb : ∀ e ∈ ps, t ≤ e.2 + l ∧ e.2 + 2 ≤ t)
    (hl : 1 ≤ l) :
    midFu c t x = .fixed l ((survivors c q).map (fun e => (e.1, e.2 + l))) ∧
      ((survivors c q).map Prod.snd).Pairwise (· < ·) ∧
      (∀ e ∈ survivors c q, t ≤ e.2 + l ∧ e.2 + 1 ≤ t) := by
  have hsort' := survivors_sorted (c := c) hsort
  have hb' : ∀ e ∈ survivors c ps, t ≤ e.2 + l ∧ e.2 + 2 ≤ t := by
    intro e he
    obtain ⟨e', he', _, rfl⟩ := mem_survivors he
    exact hb e' he'
  have hlen : (survivors c ps).length ≤ l - 1 := by
    have := length_le_of_sorted ((survivors c ps).map Prod.snd) (t - l) (l - 1) hsort' (by
      intro y hy
      obtain ⟨e, he, rfl⟩ := List.mem_map.1 hy
      have := hb' e he
      omega)
    simpa using this
  have hslot := survivors_slot (c := c) hss
  have hst' : ∀ e ∈ survivors c ss, e.2 + 1 = t := by
    intro e he
    obtain ⟨e', he', _, rfl⟩ := mem_survivors he
    exact hst e' he'
  have hctrl := ctrl_pipe (c := c) (ps := ps) (l := l)
    (fun hf => (hw hf).imp id (fun hh e he => hh e (by simp [hq, he])))
  refine ⟨?_, ?_, ?_⟩
  · unfold midFu
    rw [hx, hp, enOf_eq]
    simp only [Fu.ctrl, hctrl, hq, survivors_append, List.map_append]
    cases hk : keep c x.slot with
    | none =>
      rw [hk] at hslot
      have : survivors c ss = [] := by simpa using hslot
      simp [Fu.accept, this]
    | some o =>
      rw [hk] at hslot
      simp only [Option.toList] at hslot
      have hlim : limit l = l := by unfold limit; split <;> omega
      match hs : survivors c ss, hslot with
      | [e], hslot =>
        have he : e.1 = o := by simpa using hslot
        have het := hst' e (by simp [hs])
        have hlt : (survivors c ps).length < limit l := by omega
        simp only [Fu.accept, List.length_map, hlt, if_true, List.map_cons, List.map_nil, he]
        have : t + l - 1 = e.2 + l := by omega
        rw [this]
  · rw [hq, survivors_append, List.map_append, List.pairwise_append]
    refine ⟨hsort', ?_, ?_⟩
    · have : (survivors c ss).length ≤ 1 := by
        have := congrArg List.length hslot
        rw [List.length_map] at this
        rw [this]; cases keep c x.slot <;> simp
      match survivors c ss, this with
      | [], _ => simp
      | [_], _ => simp
    · intro a ha b hb2
      obtain ⟨e, he, rfl⟩ := List.mem_map.1 ha
      obtain ⟨f, hf, rfl⟩ := List.mem_map.1 hb2
      have h1 := hb' e he
      have h2 := hst' f hf
      show e.2 < f.2
      omega
  · intro e he
    rw [hq, survivors_append, List.mem_append] at he
    rcases he with he | he
    · have := hb' e he; omega
    · have := hst' e he; omega

/-- The offer of a unit whose registers are those of its account. -/
theorem offer_pipe (t l : Nat) (en : Option (Op n)) (s : Owed n) (o : Op n) :
    Fu.offer t en (.fixed l (s.map (fun e => (e.1, e.2 + l)))) = some o ↔
      ∃ tin rest, s = (o, tin) :: rest ∧ tin + l ≤ t := by
  match s with
  | [] => simp [Fu.offer]
  | (o', tin) :: rest =>
    simp only [List.map_cons, Fu.offer]
    split
    · rename_i h
      simp only [Option.some.injEq, List.cons.injEq, Prod.mk.injEq]
      constructor
      · rintro rfl; exact ⟨tin, rest, ⟨⟨rfl, rfl⟩, rfl⟩, h⟩
      · rintro ⟨_, _, ⟨⟨rfl, _⟩, _⟩, _⟩; rfl
    · rename_i h
      simp only [List.cons.injEq, Prod.mk.injEq, reduceCtorEq, false_iff]
      rintro ⟨_, _, ⟨⟨_, rfl⟩, _⟩, h'⟩
      exact h h'

theorem survivors_iter_some {c : Ctl n} {o : Op n} {tin : Nat} :
    survivors c [(o, tin)] = if cancelled c o then [] else [(resolve c o, tin)] := by
  by_cases h : cancelled c o <;> simp [survivors, h]

/-- Availability: a unit announces a completion exactly when the oldest operation it owes has
been with it for its latency. -/
theorem offer_iff {c : Ctl n} {t : Nat} {x : Cell n} {q : Owed n} (hr : Rel t x q)
    (hw : c.flush = true → 16 < n ∨ ∀ e ∈ q, e.1.brMask ≠ 0#n) (o : Op n) :
    offerOf c t x = some o ↔
      ∃ tin rest, survivors c q = (o, tin) :: rest ∧ tin + delay x o ≤ t := by
  unfold offerOf
  match hx : x.fu with
  | .single =>
    simp only [Rel, hx] at hr
    have hs := survivors_slot (c := c) hr.1
    simp only [mid_single hx, Fu.offer, enOf_eq, delay, hx]
    cases hk : keep c x.slot with
    | none =>
      rw [hk] at hs
      have : survivors c q = [] := by simpa using hs
      simp [this]
    | some o' =>
      rw [hk] at hs
      simp only [Option.toList] at hs
      match he : survivors c q, hs with
      | [e], hs =>
        have h1 : e.1 = o' := by simpa using hs
        obtain ⟨e', hm, _, h2⟩ := mem_survivors (c := c) (q := q) (e := e) (by simp [he])
        have h3 := hr.2 e' hm
        have h4 : e.2 = e'.2 := by rw [h2]
        constructor
        · intro h
          refine ⟨e.2, [], ?_, by omega⟩
          have : o' = o := by simpa using h
          rw [← this, ← h1]
        · rintro ⟨tin, rest, h, _⟩
          have : e = (o, tin) := by simpa using (List.cons.inj h).1
          rw [this] at h1
          exact congrArg some h1.symm
  | .fixed l pipe =>
    simp only [Rel, hx] at hr
    obtain ⟨ps, ss, hq, hp, hss, hst, hsort, hb, hl⟩ := hr
    have hm := (mid_fixed hx hw hq hp hss hst hsort hb hl).1
    rw [hm, offer_pipe]
    simp only [delay, hx]
  | .iter none =>
    simp only [Rel, hx] at hr
    have hs := survivors_slot (c := c) hr.1
    have hmid : midFu c t x = .iter ((keep c x.slot).map (fun o => (o, t + o.lat))) := by
      simp [midFu, hx, Fu.ctrl, Fu.accept, enOf_eq]
    rw [hmid]
    simp only [delay, hx]
    cases hk : keep c x.slot with
    | none =>
      rw [hk] at hs
      have : survivors c q = [] := by simpa using hs
      simp [this, Fu.offer]
    | some o' =>
      rw [hk] at hs
      simp only [Option.toList] at hs
      match he : survivors c q, hs with
      | [e], hs =>
        have h1 : e.1 = o' := by simpa using hs
        obtain ⟨e', hm, _, h2⟩ := mem_survivors (c := c) (q := q) (e := e) (by simp [he])
        have h3 := hr.2 e' hm
        have h4 : e.2 = e'.2 := by rw [h2]
        simp only [Option.map_some, Fu.offer]
        constructor
        · intro h
          split at h
          · rename_i hle
            have h5 : o' = o := by simpa using h
            refine ⟨e.2, [], ?_, ?_⟩
            · rw [← h5, ← h1]
            · rw [← h5]; omega
          · simp at h
        · rintro ⟨tin, rest, h, hle⟩
          have h5 : e = (o, tin) := by simpa using (List.cons.inj h).1
          have h6 : o = o' := by rw [← h1, h5]
          have h7 : e.2 = tin := by rw [h5]
          subst h6
          rw [if_pos (by omega)]
  | .iter (some (o', d)) =>
    simp only [Rel, hx] at hr
    obtain ⟨tin, hq, hslot, hd, ht⟩ := hr
    have hk := fuKills_eq c o' (wide_one (e := (o', tin)) hw (by simp [hq]))
    subst hq
    rw [survivors_iter_some]
    simp only [delay, hx]
    by_cases hc : cancelled c o'
    · simp [midFu, hx, Fu.ctrl, Fu.accept, enOf_eq, keep, hslot, hk, hc, Option.filter, Fu.offer]
    · have hlat : (resolve c o').lat = o'.lat := rfl
      simp only [midFu, hx, Fu.ctrl, hk, hc, Option.filter, decide_false, Bool.not_false, if_true,
        Option.map_some, Fu.accept, Fu.offer, scrub_eq, if_false]
      constructor
      · intro h
        split at h
        · have h5 : resolve c o' = o := by simpa using h
          refine ⟨tin, [], by rw [h5], ?_⟩
          rw [← h5, hlat]; omega
        · simp at h
      · rintro ⟨tin', rest, h, hle⟩
        simp only [List.cons.injEq, Prod.mk.injEq] at h
        rw [← h.1.1, hlat] at hle
        rw [if_pos (by omega), h.1.1]

/-- The account and the registers still agree after the cycle. -/
theorem cell_step {c : Ctl n} {t : Nat} {won : Bool} {x : Cell n} {q : Owed n}
    (h : CellOk c t won x q) (inc : Option (Op n)) :
    Rel (t + 1) (cellStep c t won inc x).cell
      (settle c t (cellStep c t won inc x).del (cellStep c t won inc x).acc q) := by
  have hoff := offer_iff h.rel h.wide
  have hdel : (cellStep c t won inc x).del.isSome = won := by
    show (if won then offerOf c t x else none).isSome = won
    cases hw : won with
    | false => rfl
    | true => exact h.hwon hw
  have hslot := slot_next c t won inc x
  have hacc := settle_acc c t won inc x
  have hfu : (cellStep c t won inc x).cell.fu = postFu c t won x := rfl
  unfold settle
  rw [hdel]
  generalize cellStep c t won inc x = r at *
  obtain ⟨⟨rsup, rfu, rslot⟩, roff, rdel, racc⟩ := r
  simp only at hslot hacc hfu hdel ⊢
  clear hdel
  have hsame : ∀ (a : Option (Op n)), (a.toList.map (fun o => (o, t))).map Prod.fst = a.toList := by
    intro a; cases a <;> rfl
  have hwon := h.hwon
  match hx : x.fu with
  | .single =>
    have hr := h.rel
    simp only [Rel, hx] at hr
    have hs := survivors_slot (c := c) hr.1
    have hpost : postFu c t won x = .single := by simp [postFu, mid_single hx, Fu.consume]
    have hrdy : rdyOf c t won x = ((keep c x.slot).isNone || won) := by
      simp [rdyOf, hpost, Fu.ready, enOf_eq]
    rw [hrdy, enOf_eq] at hslot hacc
    rw [hpost] at hfu
    have htm : ∀ e ∈ survivors c q, e.2 < t + 1 := by
      intro e he
      obtain ⟨e', hm, _, rfl⟩ := mem_survivors he
      have := hr.2 e' hm
      show e'.2 < t + 1
      omega
    subst hfu
    simp only [Rel]
    have hacct : ∀ e ∈ racc.toList.map (fun o => (o, t)), e.2 < t + 1 := by
      cases racc <;> simp
    cases hk : keep c x.slot with
    | none =>
      have h0 : survivors c q = [] := by rw [hk] at hs; simpa using hs
      rw [hk] at hslot
      have hsl : rslot = racc := by rw [hslot]; simp
      subst hsl
      rw [h0]
      refine ⟨?_, ?_⟩
      · cases won <;> simp [hsame]
      · cases won <;> simpa using hacct
    | some o =>
      rw [hk] at hs hslot hacc
      cases won with
      | true =>
        have h1 : (survivors c q).tail = [] := by
          have := congrArg List.length hs
          simp only [List.length_map, Option.toList, List.length_cons, List.length_nil] at this
          match hq : survivors c q, this with
          | [e], _ => rfl
        have hsl : rslot = racc := by rw [hslot]; simp
        subst hsl
        simp only [if_true, h1, List.nil_append]
        exact ⟨hsame _, hacct⟩
      | false =>
        have hn : racc = none := by
          rcases hacc with h1 | ⟨h1, h2 | h2⟩
          · exact h1
          · simp at h2
          · simp at h2
        subst hn
        have hsl : rslot = some o := by rw [hslot]; simp
        subst hsl
        simp only [Bool.false_eq_true, if_false, Option.toList, List.map_nil, List.append_nil]
        exact ⟨hs, htm⟩
  | .fixed l pipe =>
    have hr := h.rel
    simp only [Rel, hx] at hr
    obtain ⟨ps, ss, hq, hp, hss, hst, hsort, hb, hl⟩ := hr
    obtain ⟨hm, hsort', hb'⟩ := mid_fixed hx h.wide hq hp hss hst hsort hb hl
    have hf := h.hfirst ⟨l, pipe, hx⟩
    have hlim : limit l = l := by unfold limit; split <;> omega
    -- the survivors that stay in the pipeline
    have key : ∃ ps' : Owed n, (if won then (survivors c q).tail else survivors c q) = ps' ∧
        postFu c t won x = .fixed l (ps'.map (fun e => (e.1, e.2 + l))) ∧
        (ps'.map Prod.snd).Pairwise (· < ·) ∧ (∀ e ∈ ps', t + 1 ≤ e.2 + l ∧ e.2 + 2 ≤ t + 1) := by
      unfold postFu
      rw [hm]
      match hsv : survivors c q with
      | [] =>
        refine ⟨[], ?_, ?_, by simp, by simp⟩
        · cases won <;> rfl
        · rfl
      | (o, tin) :: rest =>
        have hb0 := hb' (o, tin) (by simp [hsv])
        rw [hsv] at hsort' hb' hoff
        rw [List.map_cons] at hsort'
        have hlt := (List.pairwise_cons.1 hsort')
        by_cases hd : tin + l ≤ t
        · have hw1 : won = true := by
            rw [hf, (hoff o).2 ⟨tin, rest, rfl, by simpa [delay, hx] using hd⟩]; rfl
          subst hw1
          refine ⟨rest, rfl, by simp [Fu.consume, hd], hlt.2, ?_⟩
          intro e he
          have h1 := hlt.1 e.2 (List.mem_map_of_mem he)
          have h2 := hb' e (by simp [he])
          have h1' : tin < e.2 := h1
          have h3 : t ≤ tin + l := hb0.1
          omega
        · have hw1 : won = false := by
            rw [hf]
            cases ho : offerOf c t x with
            | none => rfl
            | some o2 =>
              obtain ⟨tin', rest', he, hle⟩ := (hoff o2).1 ho
              simp only [List.cons.injEq, Prod.mk.injEq] at he
              simp only [delay, hx] at hle
              omega
          subst hw1
          refine ⟨(o, tin) :: rest, rfl, by simp [Fu.consume], hsort', ?_⟩
          intro e he
          have h2 := hb' e he
          rcases List.mem_cons.1 he with rfl | he'
          · have h2' : t ≤ tin + l ∧ tin + 1 ≤ t := h2
            show t + 1 ≤ tin + l ∧ tin + 2 ≤ t + 1
            omega
          · have h1 : tin < e.2 := hlt.1 e.2 (List.mem_map_of_mem he')
            omega
    obtain ⟨ps', hps', hpost, hsort2, hb2⟩ := key
    rw [hps']
    have hlen : ps'.length ≤ l - 1 := by
      have := length_le_of_sorted (ps'.map Prod.snd) (t + 1 - l) (l - 1) hsort2 (by
        intro y hy
        obtain ⟨e, he, rfl⟩ := List.mem_map.1 hy
        have := hb2 e he
        omega)
      simpa using this
    have hrdy : rdyOf c t won x = true := by
      unfold rdyOf
      rw [hpost]
      simp only [Fu.ready, List.length_map, hlim, decide_eq_true_eq]
      omega
    rw [hrdy] at hslot
    have hsl : rslot = racc := by rw [hslot]; simp
    subst hsl
    rw [hpost] at hfu
    subst hfu
    simp only [Rel]
    refine ⟨ps', _, rfl, rfl, hsame _, ?_, hsort2, hb2, hl⟩
    cases rslot <;> simp
  | .iter none =>
    have hr := h.rel
    simp only [Rel, hx] at hr
    have hs := survivors_slot (c := c) hr.1
    have hmid : midFu c t x = .iter ((keep c x.slot).map (fun o => (o, t + o.lat))) := by
      simp [midFu, hx, Fu.ctrl, Fu.accept, enOf_eq]
    have hacct : ∀ e ∈ racc.toList.map (fun o => (o, t)), e.2 + 1 = t + 1 := by
      cases racc <;> simp
    have hidle : postFu c t won x = .iter none →
        (if won then (survivors c q).tail else survivors c q) = [] →
        Rel (t + 1) ⟨rsup, rfu, rslot⟩
          ((if won then (survivors c q).tail else survivors c q) ++
            racc.toList.map (fun o => (o, t))) := by
      intro hpost h0
      have hrdy : rdyOf c t won x = true := by simp [rdyOf, hpost, Fu.ready]
      rw [hrdy] at hslot
      have hsl : rslot = racc := by rw [hslot]; simp
      subst hsl
      rw [hpost] at hfu
      subst hfu
      rw [h0]
      exact ⟨by simpa using hsame _, by simpa using hacct⟩
    cases hk : keep c x.slot with
    | none =>
      have h0 : survivors c q = [] := by rw [hk] at hs; simpa using hs
      rw [hk] at hmid
      exact hidle (by simp [postFu, hmid, Fu.consume]) (by simp [h0])
    | some o =>
      rw [hk] at hs hmid
      simp only [Option.toList] at hs
      match he : survivors c q, hs with
      | [e], hs =>
        have h1 : e.1 = o := by simpa using hs
        obtain ⟨e', hm, _, h2⟩ := mem_survivors (c := c) (q := q) (e := e) (by simp [he])
        have h3 := hr.2 e' hm
        have h4 : e.2 = e'.2 := by rw [h2]
        rw [← he]
        cases hw : won with
        | true =>
          subst hw
          have hle : o.lat + t ≤ t := by
            have h5 := hwon rfl
            rw [Option.isSome_iff_exists] at h5
            obtain ⟨o2, ho2⟩ := h5
            obtain ⟨tin, rest, h6, h7⟩ := (hoff o2).1 ho2
            rw [he] at h6
            have h8 : e = (o2, tin) := by simpa using (List.cons.inj h6).1
            simp only [delay, hx] at h7
            have h9 : o2 = o := by rw [← h1, h8]
            have h10 : e.2 = tin := by rw [h8]
            subst h9
            omega
          refine hidle ?_ (by simp [he])
          have : t + o.lat ≤ t := by omega
          simp [postFu, hmid, Fu.consume, this]
        | false =>
          subst hw
          have hpost : postFu c t false x = .iter (some (o, t + o.lat)) := by
            simp [postFu, hmid, Fu.consume]
          have hrdy : rdyOf c t false x = false := by simp [rdyOf, hpost, Fu.ready]
          rw [hrdy, enOf_eq, hk] at hslot hacc
          have hn : racc = none := by
            rcases hacc with h5 | ⟨h5, h6 | h6⟩
            · exact h5
            · simp at h6
            · simp at h6
          subst hn
          have hsl : rslot = some o := by rw [hslot]; simp
          subst hsl
          rw [hpost] at hfu
          subst hfu
          simp only [Rel]
          refine ⟨e.2, ?_, trivial, by omega, by omega⟩
          simp [he, ← h1]
  | .iter (some (o, d)) =>
    have hr := h.rel
    simp only [Rel, hx] at hr
    obtain ⟨tin, hq, hsl0, hd, ht⟩ := hr
    have hk := fuKills_eq c o (wide_one (e := (o, tin)) h.wide (by simp [hq]))
    subst hq
    have hacct : ∀ e ∈ racc.toList.map (fun o => (o, t)), e.2 + 1 = t + 1 := by
      cases racc <;> simp
    have hidle : postFu c t won x = .iter none →
        (if won then (survivors c [(o, tin)]).tail else survivors c [(o, tin)]) = [] →
        Rel (t + 1) ⟨rsup, rfu, rslot⟩
          ((if won then (survivors c [(o, tin)]).tail else survivors c [(o, tin)]) ++
            racc.toList.map (fun o => (o, t))) := by
      intro hpost h0
      have hrdy : rdyOf c t won x = true := by simp [rdyOf, hpost, Fu.ready]
      rw [hrdy] at hslot
      have hsl : rslot = racc := by rw [hslot]; simp
      subst hsl
      rw [hpost] at hfu
      subst hfu
      rw [h0]
      exact ⟨by simpa using hsame _, by simpa using hacct⟩
    by_cases hc : cancelled c o
    · refine hidle ?_ (by simp [survivors_iter_some, hc])
      simp [postFu, midFu, hx, Fu.ctrl, Fu.accept, enOf_eq, keep, hsl0, hk, hc, Option.filter,
        Fu.consume]
    · have hlat : (resolve c o).lat = o.lat := rfl
      have hmid : midFu c t x = .iter (some (resolve c o, d)) := by
        simp [midFu, hx, Fu.ctrl, Fu.accept, hk, hc, Option.filter, scrub_eq]
      have hsv : survivors c [(o, tin)] = [(resolve c o, tin)] := by simp [survivors_iter_some, hc]
      cases hw : won with
      | true =>
        subst hw
        have hle : d ≤ t := by
          have h5 := hwon rfl
          rw [Option.isSome_iff_exists] at h5
          obtain ⟨o2, ho2⟩ := h5
          obtain ⟨tin', rest, h6, h7⟩ := (hoff o2).1 ho2
          rw [hsv] at h6
          simp only [List.cons.injEq, Prod.mk.injEq] at h6
          simp only [delay, hx] at h7
          rw [← h6.1.1, hlat] at h7
          omega
        refine hidle ?_ (by simp [hsv])
        simp [postFu, hmid, Fu.consume, hle]
      | false =>
        subst hw
        have hpost : postFu c t false x = .iter (some (resolve c o, d)) := by
          simp [postFu, hmid, Fu.consume]
        have hrdy : rdyOf c t false x = false := by simp [rdyOf, hpost, Fu.ready]
        have hen : keep c x.slot = some (resolve c o) := by
          simp [keep, hsl0, hc, Option.filter]
        rw [hrdy, enOf_eq, hen] at hslot hacc
        have hn : racc = none := by
          rcases hacc with h5 | ⟨h5, h6 | h6⟩
          · exact h5
          · simp at h6
          · simp at h6
        subst hn
        have hsl : rslot = some (resolve c o) := by rw [hslot]; simp
        subst hsl
        rw [hpost] at hfu
        subst hfu
        simp only [Rel]
        refine ⟨tin, ?_, trivial, by rw [hlat]; omega, by omega⟩
        simp [hsv]

/-! ### Logs -/

/-- Everything handed over is delivered, cancelled or still owed, exactly once, in order. -/
def LogOk (u : Spec.Unit n) : Prop :=
  (u.log.delivered ++ u.log.cancelled ++ u.q.map (·.1.id)).Perm u.log.accepted ∧
    (u.log.delivered ++ u.q.map (·.1.id)).Sublist u.log.accepted

theorem survivors_ids (c : Ctl n) (q : Owed n) :
    (survivors c q).map (·.1.id) = (q.filter (fun e => ¬ cancelled c e.1)).map (·.1.id) := by
  simp [survivors, List.map_map, Function.comp_def, resolve]

theorem logOk_step {c : Ctl n} {t : Nat} {u : Spec.Unit n} {del acc : Option (Op n)} {x' : Cell n}
    (h : LogOk u) (hd : ∀ o, del = some o → ∃ tin rest, survivors c u.q = (o, tin) :: rest) :
    LogOk ⟨x', settle c t del acc u.q, u.log.extend c del acc u.q⟩ := by
  obtain ⟨hp, hs⟩ := h
  have hsplit : del.toList.map (·.id) ++ (settle c t del acc u.q).map (·.1.id) =
      (survivors c u.q).map (·.1.id) ++ acc.toList.map (·.id) := by
    have hacc : (acc.toList.map (fun o => (o, t))).map (·.1.id) = acc.toList.map (·.id) := by
      cases acc <;> rfl
    unfold settle
    rw [List.map_append, hacc]
    cases del with
    | none => simp
    | some o =>
      obtain ⟨tin, rest, he⟩ := hd o rfl
      simp [he]
  have hperm : ((u.q.filter (fun e => cancelled c e.1)).map (·.1.id) ++
      (survivors c u.q).map (·.1.id)).Perm (u.q.map (·.1.id)) := by
    rw [survivors_ids, ← List.map_append]
    have := (List.filter_append_perm (fun e : Op n × Nat => decide (cancelled c e.1)) u.q)
    simpa using this.map (·.1.id)
  constructor
  · show ((u.log.delivered ++ del.toList.map (·.id)) ++
      (u.log.cancelled ++ (u.q.filter (fun e => cancelled c e.1)).map (·.1.id)) ++
      (settle c t del acc u.q).map (·.1.id)).Perm (u.log.accepted ++ acc.toList.map (·.id))
    generalize (u.q.filter (fun e => cancelled c e.1)).map (·.1.id) = K at *
    generalize (survivors c u.q).map (·.1.id) = S at *
    generalize (settle c t del acc u.q).map (·.1.id) = T at *
    generalize del.toList.map (·.id) = D at *
    generalize acc.toList.map (·.id) = A at *
    have h1 : (u.log.delivered ++ D ++ (u.log.cancelled ++ K) ++ T).Perm
        (u.log.delivered ++ u.log.cancelled ++ (K ++ (D ++ T))) := by
      simp only [List.append_assoc]
      refine List.Perm.append_left _ ?_
      have h2 : (D ++ (u.log.cancelled ++ (K ++ T))).Perm ((u.log.cancelled ++ (K ++ T)) ++ D) :=
        List.perm_append_comm
      refine h2.trans ?_
      simp only [List.append_assoc]
      refine List.Perm.append_left _ (List.Perm.append_left _ ?_)
      exact List.perm_append_comm
    refine h1.trans ?_
    rw [hsplit, ← List.append_assoc K S A]
    have h3 := (hperm.append_right A).append_left (u.log.delivered ++ u.log.cancelled)
    refine h3.trans ?_
    rw [← List.append_assoc]
    exact hp.append_right A
  · show ((u.log.delivered ++ del.toList.map (·.id)) ++
      (settle c t del acc u.q).map (·.1.id)).Sublist (u.log.accepted ++ acc.toList.map (·.id))
    rw [List.append_assoc, hsplit, ← List.append_assoc]
    refine List.Sublist.append ?_ (List.Sublist.refl _)
    refine List.Sublist.trans ?_ hs
    rw [survivors_ids]
    exact (List.Sublist.refl _).append (List.filter_sublist.map _)

/-! ### A port -/

theorem isFixed_step (c : Ctl n) (t : Nat) (won : Bool) (inc : Option (Op n)) (x : Cell n) :
    IsFixed (cellStep c t won inc x).cell ↔ IsFixed x := by
  show (∃ l p, postFu c t won x = .fixed l p) ↔ ∃ l p, x.fu = .fixed l p
  unfold postFu midFu
  match hx : x.fu with
  | .single => simp [Fu.ctrl, Fu.accept, Fu.consume]
  | .fixed l p =>
    simp only [Fu.ctrl]
    have h1 : ∀ p' : List (Op n × Nat), ∃ p2, Fu.accept t (enOf c x) (.fixed l p') = .fixed l p2 := by
      intro p'
      unfold Fu.accept
      cases enOf c x with
      | none => exact ⟨_, rfl⟩
      | some o => simp only; split <;> exact ⟨_, rfl⟩
    obtain ⟨p2, h2⟩ := h1 ((p.filter (fun e => !fuKills c e.1)).map (fun e => (scrub c e.1, e.2)))
    rw [h2]
    constructor
    · intro _; exact ⟨l, p, rfl⟩
    · intro _
      match p2 with
      | [] => exact ⟨l, [], rfl⟩
      | (o, d) :: p3 => unfold Fu.consume; simp only; split <;> exact ⟨_, _, rfl⟩
  | .iter cur =>
    simp only [Fu.ctrl]
    constructor
    · rintro ⟨l, p, h⟩
      exfalso
      revert h
      generalize ((cur.filter (fun e => !fuKills c e.1)).map (fun e => (scrub c e.1, e.2))) = k
      cases k with
      | none =>
        simp only [Fu.accept]
        cases enOf c x with
        | none => simp [Fu.consume]
        | some o => simp only [Option.map_some, Fu.consume]; split <;> simp
      | some e =>
        obtain ⟨o, d⟩ := e
        simp only [Fu.accept, Fu.consume]; split <;> simp
    · rintro ⟨l, p, h⟩; simp at h

/-- The invariant of a port. -/
structure Inv (t : Nat) (us : List (Spec.Unit n)) : Prop where
  rel : ∀ u ∈ us, Rel t u.cell u.q
  log : ∀ u ∈ us, LogOk u
  first : ∀ u ∈ us.tail, ¬ IsFixed u.cell

/-- Each unit's output is its own cycle, with `won` only on a completion. -/
theorem portGo_get (c : Ctl n) (t : Nat) : ∀ (xs : List (Cell n)) (taken : Bool)
    (inc : Option (Op n)) (i : Nat) (x : Cell n), xs[i]? = some x →
    ∃ won inc', (portGo c t taken inc xs)[i]? = some (cellStep c t won inc' x) ∧
      (won = true → (offerOf c t x).isSome = true) ∧
      (i = 0 → taken = false → won = (offerOf c t x).isSome)
  | [], _, _, _, _, h => by simp at h
  | y :: ys, taken, inc, 0, x, h => by
    have : y = x := by simpa using h
    subst this
    refine ⟨!taken && (offerOf c t y).isSome, inc, rfl, ?_, ?_⟩
    · intro h; simp at h; exact h.2
    · rintro _ rfl; simp
  | y :: ys, taken, inc, i + 1, x, h => by
    obtain ⟨won, inc', h1, h2, _⟩ := portGo_get c t ys (taken || (offerOf c t y).isSome)
      (if ((inc.filter (takes c t (!taken && (offerOf c t y).isSome) y))).isSome then none else inc)
      i x (by simpa using h)
    exact ⟨won, inc', by simpa [portGo] using h1, h2, by omega⟩

theorem length_portGo (c : Ctl n) (t : Nat) : ∀ (xs : List (Cell n)) (taken : Bool)
    (inc : Option (Op n)), (portGo c t taken inc xs).length = xs.length
  | [], _, _ => rfl
  | _ :: xs, _, _ => by simp [portGo, length_portGo c t xs]

/-- The facts about unit `i` of a port in one cycle. -/
theorem unit_cycle {t : Nat} {us : List (Spec.Unit n)} (h : Inv t us) {c : Ctl n}
    {inc : Option (Op n)} (hv : Valid c t inc us) {i : Nat} {u : Spec.Unit n} (hu : us[i]? = some u) :
    ∃ won inc', (portGo c t false inc (us.map (·.cell)))[i]? = some (cellStep c t won inc' u.cell) ∧
      CellOk c t won u.cell u.q := by
  have hmem : u ∈ us := List.mem_of_getElem? hu
  obtain ⟨won, inc', h1, h2, h3⟩ := portGo_get c t (us.map (·.cell)) false inc i u.cell (by simp [hu])
  refine ⟨won, inc', h1, h.rel u hmem, fun hf => (hv.wide hf).imp id (fun hh => hh u hmem), h2, ?_⟩
  intro hfx
  rcases Nat.eq_zero_or_pos i with hi | hi
  · exact h3 hi rfl
  · exfalso
    refine h.first u ?_ hfx
    match us, i, hu, hi with
    | _ :: us', i + 1, hu, _ => exact List.mem_of_getElem? (by simpa using hu)

theorem del_offer {c : Ctl n} {t : Nat} {won : Bool} {inc : Option (Op n)} {x : Cell n} {o : Op n}
    (h : (cellStep c t won inc x).del = some o) : offerOf c t x = some o := by
  have h' : (if won then offerOf c t x else none) = some o := h
  cases won <;> simp at h' ⊢
  exact h'

theorem inv_step {t : Nat} {us : List (Spec.Unit n)} (h : Inv t us) {c : Ctl n}
    {inc : Option (Op n)} (hv : Valid c t inc us) : Inv (t + 1) (portStep c t inc us) := by
  have key : ∀ (i : Nat) (u' : Spec.Unit n), (portStep c t inc us)[i]? = some u' → ∃ u : Spec.Unit n, us[i]? = some u ∧
      ∃ won inc', CellOk c t won u.cell u.q ∧
        u' = ⟨(cellStep c t won inc' u.cell).cell,
          settle c t (cellStep c t won inc' u.cell).del (cellStep c t won inc' u.cell).acc u.q,
          u.log.extend c (cellStep c t won inc' u.cell).del (cellStep c t won inc' u.cell).acc u.q⟩ := by
    intro i u' hu'
    unfold portStep at hu'
    rw [List.getElem?_zipWith] at hu'
    cases hu : us[i]? with
    | none => simp [hu] at hu'
    | some u =>
      obtain ⟨won, inc', h1, h2⟩ := unit_cycle h hv hu
      rw [hu, h1] at hu'
      exact ⟨u, rfl, won, inc', h2, by simpa using hu'.symm⟩
  refine ⟨?_, ?_, ?_⟩
  · intro u' hu'
    obtain ⟨i, hi⟩ := List.mem_iff_getElem?.1 hu'
    obtain ⟨u, hu, won, inc', h2, rfl⟩ := key i u' hi
    exact cell_step h2 inc'
  · intro u' hu'
    obtain ⟨i, hi⟩ := List.mem_iff_getElem?.1 hu'
    obtain ⟨u, hu, won, inc', h2, rfl⟩ := key i u' hi
    refine logOk_step (h.log u (List.mem_of_getElem? hu)) ?_
    intro o ho
    obtain ⟨tin, rest, h3, _⟩ := (offer_iff h2.rel h2.wide o).1 (del_offer ho)
    exact ⟨tin, rest, h3⟩
  · intro u' hu'
    obtain ⟨j, hj⟩ := List.mem_iff_getElem?.1 hu'
    rw [List.getElem?_tail] at hj
    obtain ⟨u, hu, won, inc', h2, rfl⟩ := key (j + 1) u' hj
    have : u ∈ us.tail := List.mem_iff_getElem?.2 ⟨j, by rw [List.getElem?_tail]; exact hu⟩
    exact fun hf => h.first u this ((isFixed_step c t won inc' u.cell).1 hf)

theorem inv_reach {t : Nat} {us : List (Spec.Unit n)} (h : Reach t us) : Inv t us := by
  induction h with
  | init t xs hok =>
    refine ⟨?_, ?_, ?_⟩
    · intro u hu
      obtain ⟨x, hx, rfl⟩ := List.mem_map.1 hu
      exact rel_idle t x (hok.1 x hx)
    · intro u hu
      obtain ⟨x, hx, rfl⟩ := List.mem_map.1 hu
      simp [LogOk, Log.empty]
    · intro u hu
      rw [← List.map_tail] at hu
      obtain ⟨x, hx, rfl⟩ := List.mem_map.1 hu
      exact hok.2 x hx
  | step t us c inc _ hv ih => exact inv_step ih hv

theorem capacity_of_rel {t : Nat} {x : Cell n} {q : Owed n} (h : Rel t x q) :
    q.length ≤ capacity x := by
  have hone : ∀ s : Option (Op n), s.toList.length ≤ 1 := by intro s; cases s <;> simp
  match hx : x.fu with
  | .single =>
    simp only [Rel, hx] at h
    have := congrArg List.length h.1
    rw [List.length_map] at this
    simp only [capacity, hx]; have := hone x.slot; omega
  | .fixed l pipe =>
    simp only [Rel, hx] at h
    obtain ⟨ps, ss, hq, hp, hss, hst, hsort, hb, hl⟩ := h
    have h1 := congrArg List.length hss
    rw [List.length_map] at h1
    have h2 := length_le_of_sorted (ps.map Prod.snd) (t - l) (l - 1) hsort (by
      intro y hy
      obtain ⟨e, he, rfl⟩ := List.mem_map.1 hy
      have := hb e he
      omega)
    rw [List.length_map] at h2
    have h3 := hone x.slot
    simp only [capacity, hx, hq, List.length_append]
    omega
  | .iter none =>
    simp only [Rel, hx] at h
    have := congrArg List.length h.1
    rw [List.length_map] at this
    simp only [capacity, hx]; have := hone x.slot; omega
  | .iter (some (o, d)) =>
    simp only [Rel, hx] at h
    obtain ⟨tin, hq, _⟩ := h
    simp [capacity, hx, hq]

theorem on_time_of_rel {c : Ctl n} {t l : Nat} {x : Cell n} {q : Owed n} {p : List (Op n × Nat)}
    (h : Rel t x q) (hx : x.fu = .fixed l p)
    (hw : c.flush = true → 16 < n ∨ ∀ e ∈ q, e.1.brMask ≠ 0#n) :
    ∀ e ∈ survivors c q, t ≤ e.2 + l := by
  simp only [Rel, hx] at h
  obtain ⟨ps, ss, hq, hp, hss, hst, hsort, hb, hl⟩ := h
  exact fun e he => ((mid_fixed hx hw hq hp hss hst hsort hb hl).2.2 e he).1

/-! ### Hand-over -/

theorem acc_none (c : Ctl n) (t : Nat) : ∀ (xs : List (Cell n)) (taken : Bool),
    (portGo c t taken none xs).filterMap (·.acc) = []
  | [], _ => rfl
  | x :: xs, taken => by
    simp [portGo, cellStep, acc_none c t xs]

theorem acc_once (c : Ctl n) (t : Nat) (o : Op n) (hf : c.flush = false) (hm : c.mispred = false) :
    ∀ (xs : List (Cell n)) (taken : Bool), readyMask c t o.op taken xs = true →
      (portGo c t taken (some o) xs).filterMap (·.acc) = [resolve c o]
  | [], _, h => by simp [readyMask] at h
  | x :: xs, taken, h => by
    have hbk : brKilled c o = false := by simp [brKilled, hm]
    simp only [readyMask, hf, Bool.not_false, Bool.true_and] at h
    generalize hwn : (!taken && (offerOf c t x).isSome) = won at h
    have htk : takes c t won x o =
        (x.sup o.op && ((postSlot c t won x).isNone || rdyOf c t won x)) := by
      unfold takes
      rw [hf, hbk, pipeSlot_eq]
      unfold postSlot enOf
      cases rdyOf c t won x <;> simp
    cases hb : (x.sup o.op && ((postSlot c t won x).isNone || rdyOf c t won x)) with
    | true =>
      simp [portGo, cellStep, hwn, htk, hb, Option.filter, acc_none, scrub_eq]
    | false =>
      rw [hb] at h
      have := acc_once c t o hf hm xs (taken || (offerOf c t x).isSome) (by simpa using h)
      simp [portGo, cellStep, hwn, htk, hb, Option.filter, this]

theorem acc_sup (c : Ctl n) (t : Nat) : ∀ (xs : List (Cell n)) (taken : Bool)
    (inc : Option (Op n)) (i : Nat) (x : Cell n) (r : CellOut n) (o : Op n), xs[i]? = some x →
    (portGo c t taken inc xs)[i]? = some r → r.acc = some o → x.sup o.op = true
  | [], _, _, _, _, _, _, h, _, _ => by simp at h
  | y :: ys, taken, inc, 0, x, r, o, h, hr, ho => by
    have : y = x := by simpa using h
    subst this
    have hr' : cellStep c t (!taken && (offerOf c t y).isSome) inc y = r := by
      simpa [portGo] using hr
    subst hr'
    cases inc with
    | none => simp [cellStep] at ho
    | some o' =>
      simp only [cellStep, Option.filter] at ho
      split at ho
      · rename_i htk
        have : scrub c o' = o := by simpa using ho
        subst this
        unfold takes at htk
        simp only [Bool.and_eq_true] at htk
        exact htk.1.2
      · simp at ho
  | y :: ys, taken, inc, i + 1, x, r, o, h, hr, ho =>
    acc_sup c t ys _ _ i x r o (by simpa using h) (by simpa [portGo] using hr) ho

end Verif.Exu.Proofs

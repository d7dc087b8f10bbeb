import Verif.Proofs.Exu
import Verif.Props.Rob
/-
C25, C38, C44, C45: the functional units and their ports.  `Reach t us` ranges over every state
`us` of a port reachable by the start of cycle `t`, each unit with the independent account
(`Verif.Spec.ExuQueue`) of what it owes; `portGo` gives what the units do in the cycle.
-/
namespace Verif.Props
open Verif.Exu Verif.Exu.Spec Verif.Exu.Proofs

variable {n : Nat} {t : Nat} {us : List (Spec.Unit n)}

/-- C25: a completion taken from a unit is the oldest operation the unit owes, and it has been
with the unit for at least its latency. -/
theorem C25_in_order_partial (h : Reach t us) {c : Ctl n} {inc : Option (Op n)}
    (hv : Valid c t inc us) {i : Nat} {u : Spec.Unit n} {r : CellOut n} (hu : us[i]? = some u)
    (hr : (portGo c t false inc (us.map (·.cell)))[i]? = some r) {o : Op n} (ho : r.del = some o) :
    ∃ tin rest, survivors c u.q = (o, tin) :: rest ∧ tin + delay u.cell o ≤ t := by
  obtain ⟨won, inc', h1, h2⟩ := unit_cycle (inv_reach h) hv hu
  rw [hr] at h1
  cases h1
  exact (offer_iff h2.rel h2.wide o).1 (del_offer ho)

/-- C25: a unit announces (and bypasses) a result exactly from the cycle in which the oldest
operation it owes has been with it for its latency, until it is taken or cancelled. -/
theorem C25_announced_partial (h : Reach t us) {c : Ctl n} {inc : Option (Op n)}
    (hv : Valid c t inc us) {i : Nat} {u : Spec.Unit n} {r : CellOut n} (hu : us[i]? = some u)
    (hr : (portGo c t false inc (us.map (·.cell)))[i]? = some r) (o : Op n) :
    r.offer = some o ↔ ∃ tin rest, survivors c u.q = (o, tin) :: rest ∧ tin + delay u.cell o ≤ t := by
  obtain ⟨won, inc', h1, h2⟩ := unit_cycle (inv_reach h) hv hu
  rw [hr] at h1
  cases h1
  exact offer_iff h2.rel h2.wide o

/-- C25: the pipelined unit delivers every operation exactly `l` cycles after it was handed over:
none is ever overdue, and one that is due is delivered. -/
theorem C25_pipelined_latency_partial (h : Reach t us) {c : Ctl n} {inc : Option (Op n)}
    (hv : Valid c t inc us) {i : Nat} {u : Spec.Unit n} {r : CellOut n} (hu : us[i]? = some u)
    (hr : (portGo c t false inc (us.map (·.cell)))[i]? = some r) {l : Nat} {p : List (Op n × Nat)}
    (hl : u.cell.fu = .fixed l p) :
    (∀ e ∈ survivors c u.q, t ≤ e.2 + l) ∧
      ∀ o, r.del = some o ↔ ∃ rest tin, survivors c u.q = (o, tin) :: rest ∧ tin + l = t := by
  obtain ⟨won, inc', h1, h2⟩ := unit_cycle (inv_reach h) hv hu
  rw [hr] at h1
  cases h1
  have hot := on_time_of_rel h2.rel hl h2.wide
  refine ⟨hot, fun o => ?_⟩
  have hd : delay u.cell o = l := by simp [delay, hl]
  have hoff := offer_iff h2.rel h2.wide o
  rw [hd] at hoff
  constructor
  · intro ho
    obtain ⟨tin, rest, h3, h4⟩ := hoff.1 (del_offer ho)
    have h5 : t ≤ tin + l := hot (o, tin) (by simp [h3])
    exact ⟨rest, tin, h3, by omega⟩
  · rintro ⟨rest, tin, h3, h4⟩
    have ho := hoff.2 ⟨tin, rest, h3, by omega⟩
    have hw := h2.hfirst ⟨l, p, hl⟩
    show (if won then offerOf c t u.cell else none) = some o
    rw [hw, ho]; rfl

/-- C25: a unit never owes more operations than it can hold. -/
theorem C25_capacity_partial (h : Reach t us) {u : Spec.Unit n} (hu : u ∈ us) :
    u.q.length ≤ capacity u.cell :=
  capacity_of_rel ((inv_reach h).rel u hu)

/-- C25: of all the operations ever handed to a unit, each has been delivered, or cancelled, or is
still owed, exactly once; and deliveries happen in the order of hand-over. -/
theorem C25_exactly_once_partial (h : Reach t us) {u : Spec.Unit n} (hu : u ∈ us) :
    (u.log.delivered ++ u.log.cancelled ++ u.q.map (·.1.id)).Perm u.log.accepted ∧
      (u.log.delivered ++ u.q.map (·.1.id)).Sublist u.log.accepted :=
  (inv_reach h).log u hu

/-- C44: an operation issued to a port that announced itself ready for it is handed to exactly one
unit (the assertion "EXU enqueue without free FU input slot" cannot fail) … -/
theorem C44_handed_over_once {c : Ctl n} {o : Op n} (hv : Valid c t (some o) us) :
    (portGo c t false (some o) (us.map (·.cell))).filterMap (·.acc) = [resolve c o] := by
  obtain ⟨hf, hm, hr⟩ := hv.issue o rfl
  exact acc_once c t o hf hm _ false hr

/-- C44: … that supports it … -/
theorem C44_supported {c : Ctl n} {inc : Option (Op n)} {i : Nat} {u : Spec.Unit n} {r : CellOut n}
    {o : Op n} (hu : us[i]? = some u)
    (hr : (portGo c t false inc (us.map (·.cell)))[i]? = some r) (ho : r.acc = some o) :
    u.cell.sup o.op = true :=
  acc_sup c t (us.map (·.cell)) false inc i u.cell r o (by simp [hu]) hr ho

/-- C44: … and at most one completion per port is taken in a cycle, the first one announced. -/
theorem C44_one_winner (c : Ctl n) (t : Nat) (inc : Option (Op n)) (xs : List (Cell n)) :
    (portGo c t false inc xs).filterMap (·.del) =
      ((portGo c t false inc xs).filterMap (·.offer)).take 1 := by
  have h1 : ∀ (xs : List (Cell n)) (inc : Option (Op n)),
      (portGo c t true inc xs).filterMap (·.del) = [] := by
    intro xs
    induction xs with
    | nil => intro inc; rfl
    | cons x xs ih => intro inc; simp [portGo, cellStep, ih]
  induction xs generalizing inc with
  | nil => rfl
  | cons x xs ih =>
    cases hx : offerOf c t x with
    | none => simp [portGo, cellStep, hx, ih]
    | some o => simp [portGo, cellStep, hx, h1]

/-- C45: after a full flush no unit holds anything.  Proved for branch masks wider than 16 bits, or
when every operation in flight depends on some unresolved branch; false otherwise, see
`C45_zombie_completes`. -/
theorem C45_flush_empties_partial (h : Reach t us) {c : Ctl n} {inc : Option (Op n)}
    (hv : Valid c t inc us) (hf : c.flush = true) {r : CellOut n}
    (hr : r ∈ portGo c t false inc (us.map (·.cell))) :
    r.cell.slot = none ∧ r.del = none ∧ r.offer = none ∧
      (r.cell.fu = .single ∨ (∃ l, r.cell.fu = .fixed l []) ∨ r.cell.fu = .iter none) := by
  obtain ⟨i, hi⟩ := List.mem_iff_getElem?.1 hr
  have hlen : i < us.length := by
    have := (List.getElem?_eq_some_iff.1 hi).1
    simpa [length_portGo] using this
  obtain ⟨won, inc', h1, h2⟩ := unit_cycle (inv_reach h) hv (List.getElem?_eq_getElem hlen)
  rw [hi] at h1
  cases h1
  generalize us[i] = u at h2 ⊢
  have hs : survivors c u.q = [] := by
    unfold survivors
    rw [List.map_eq_nil_iff, List.filter_eq_nil_iff]
    intro e _
    simp [cancelled, hf]
  have hoff : offerOf c t u.cell = none := by
    cases ho : offerOf c t u.cell with
    | none => rfl
    | some o =>
      obtain ⟨tin, rest, h3, _⟩ := (offer_iff h2.rel h2.wide o).1 ho
      rw [hs] at h3; cases h3
  have hdel : (cellStep c t won inc' u.cell).del = none := by
    show (if won then offerOf c t u.cell else none) = none
    rw [hoff]; simp
  have hacc : (cellStep c t won inc' u.cell).acc = none := by
    show (inc'.filter (takes c t won u.cell)).map (scrub c) = none
    cases inc' with
    | none => rfl
    | some o => simp [Option.filter, takes, hf]
  have hrel := cell_step h2 inc'
  rw [hdel, hacc] at hrel
  simp only [settle, hs, Option.isSome_none, Bool.false_eq_true, if_false, Option.toList,
    List.map_nil, List.append_nil] at hrel
  refine ⟨?_, hdel, hoff, ?_⟩
  · rw [slot_next, hacc, enOf_eq]
    have : keep c u.cell.slot = none := by
      cases u.cell.slot <;> simp [keep, Option.filter, cancelled, hf]
    simp [this]
  · generalize (cellStep c t won inc' u.cell).cell = y at hrel
    match hy : y.fu with
    | .single => exact Or.inl rfl
    | .fixed l p =>
      simp only [Rel, hy] at hrel
      obtain ⟨ps, ss, hq, hp, _⟩ := hrel
      have : ps = [] := (List.append_eq_nil_iff.1 hq.symm).1
      subst this
      exact Or.inr (Or.inl ⟨l, by rw [hp]; rfl⟩)
    | .iter none => exact Or.inr (Or.inr rfl)
    | .iter (some (o, d)) =>
      simp only [Rel, hy] at hrel
      obtain ⟨tin, hq, _⟩ := hrel
      cases hq

/-! ### C38 -/

/-- C38: every branch resolved in the cycle, and nothing else, is in the mask of resolved branches. -/
theorem C38_resolved_mask (c : Ctl n) (res : List (Op n)) (k : Nat) (hk : k < n) :
    (arbitrate c res).clear.getLsbD k = true ↔
      ∃ u ∈ res, ¬ cancelled c u ∧ u.brId = k := by
  unfold arbitrate
  have key : ∀ (l : List (Op n)) (a : Arb n),
      (l.foldl arbStep a).clear.getLsbD k = true ↔
        a.clear.getLsbD k = true ∨ ∃ u ∈ l, u.brId = k := by
    intro l
    induction l with
    | nil => intro a; simp
    | cons u l ih =>
      intro a
      rw [List.foldl_cons, ih]
      have : (arbStep a u).clear.getLsbD k = (a.clear.getLsbD k || decide (u.brId = k)) := by
        simp only [arbStep, BitVec.getLsbD_or, BitVec.getLsbD_shiftLeft, BitVec.getLsbD_one, hk,
          decide_true, Bool.true_and]
        congr 1
        rcases Nat.lt_trichotomy u.brId k with h | h | h
        · have : 0 < k - u.brId := by omega
          simp only [Nat.not_lt.2 (Nat.le_of_lt h), decide_false, Bool.not_false, Bool.true_and]
          have h1 : ¬ (k - u.brId = 0) := by omega
          have h2 : ¬ (u.brId = k) := by omega
          simp [h1, h2]
        · subst h
          simp [Nat.zero_lt_of_lt hk]
        · have h2 : ¬ (u.brId = k) := by omega
          simp [h, h2]
      rw [this]
      simp only [Bool.or_eq_true, decide_eq_true_eq, List.mem_cons, exists_eq_or_imp, or_assoc]
  rw [key]
  simp only [BitVec.getLsbD_zero, Bool.false_eq_true, false_or, List.mem_filter]
  constructor
  · rintro ⟨u, ⟨hm, hl⟩, he⟩
    refine ⟨u, hm, ?_, he⟩
    simpa [flushed, brKilled_eq] using hl
  · rintro ⟨u, hm, hl, he⟩
    refine ⟨u, ⟨hm, ?_⟩, he⟩
    simpa [flushed, brKilled_eq] using hl

/-- C38: recovery is performed exactly when some live branch resolved as mispredicted. -/
theorem C38_recovers_iff (c : Ctl n) (res : List (Op n)) :
    (arbitrate c res).worst.isSome = true ↔
      ∃ u ∈ res, ¬ cancelled c u ∧ u.mispred = true := by
  unfold arbitrate
  have key : ∀ (l : List (Op n)) (a : Arb n), (l.foldl arbStep a).worst.isSome = true ↔
      a.worst.isSome = true ∨ ∃ u ∈ l, u.mispred = true := by
    intro l
    induction l with
    | nil => intro a; simp
    | cons u l ih =>
      intro a
      rw [List.foldl_cons, ih]
      have : (arbStep a u).worst.isSome = (a.worst.isSome || u.mispred) := by
        unfold arbStep
        cases u.mispred <;> cases a.worst <;> simp
        split <;> rfl
      rw [this]
      simp only [Bool.or_eq_true, List.mem_cons, exists_eq_or_imp, or_assoc]
  rw [key]
  simp [flushed, brKilled_eq, List.mem_filter, and_assoc]

/-- C38: the branch recovered to is live, mispredicted, and no other live mispredicted branch of
the cycle is older, age being the position in the reorder buffer. -/
theorem C38_oldest {B L : Nat} (hL : 0 < L) {s : Rob.State} (hs : RobQueue.Reach B L s)
    (c : Ctl n) (res : List (Op n)) (pos : Op n → Nat)
    (hpos : ∀ u ∈ res, ∃ v, (RobQueue.insts L s)[pos u]? = some v ∧ v.robIdx = u.robIdx ∧
      v.robFlag = u.robFlag)
    {w : Op n} (hw : (arbitrate c res).worst = some w) :
    w ∈ res ∧ ¬ cancelled c w ∧ w.mispred = true ∧
      ∀ u ∈ res, ¬ cancelled c u → u.mispred = true → pos w ≤ pos u := by
  have hcmp : ∀ a ∈ res, ∀ b ∈ res, cmpAge a b = true ↔ pos b < pos a := by
    intro a ha b hb
    obtain ⟨va, h1, h2, h3⟩ := hpos a ha
    obtain ⟨vb, g1, g2, g3⟩ := hpos b hb
    rw [← C37_age hL hs h1 g1]
    simp [cmpAge, RobQueue.younger, h2, h3, g2, g3]
  unfold arbitrate at hw
  have key : ∀ (l : List (Op n)) (a : Arb n), (∀ u ∈ l, u ∈ res) →
      (∀ x, a.worst = some x → x ∈ res ∧ x.mispred = true) →
      ∀ w, (l.foldl arbStep a).worst = some w →
        (a.worst = some w ∨ (w ∈ l ∧ w.mispred = true)) ∧
        (∀ x, a.worst = some x → pos w ≤ pos x) ∧ ∀ u ∈ l, u.mispred = true → pos w ≤ pos u := by
    intro l
    induction l with
    | nil =>
      intro a _ _ w hw
      refine ⟨Or.inl hw, ?_, by simp⟩
      intro x hx
      have : w = x := by
        have hw' : a.worst = some w := hw
        rw [hw'] at hx; exact Option.some.inj hx
      rw [this]; exact Nat.le_refl _
    | cons u l ih =>
      intro a hl ha w hw
      rw [List.foldl_cons] at hw
      have hu : u ∈ res := hl u (by simp)
      have hst : ∀ x, (arbStep a u).worst = some x → x ∈ res ∧ x.mispred = true := by
        intro x hx
        unfold arbStep at hx
        simp only at hx
        split at hx
        · rename_i hm
          split at hx
          · cases hx; exact ⟨hu, hm⟩
          · rename_i y hy
            split at hx
            · cases hx; exact ⟨hu, hm⟩
            · cases hx; exact ha _ hy
        · exact ha x hx
      obtain ⟨h1, h2, h3⟩ := ih (arbStep a u) (fun v hv => hl v (by simp [hv])) hst w hw
      -- what the step did
      cases hm : u.mispred with
      | false =>
        have he : (arbStep a u).worst = a.worst := by simp [arbStep, hm]
        rw [he] at h1 h2
        refine ⟨h1.imp id (fun h => ⟨List.mem_cons_of_mem _ h.1, h.2⟩), h2, ?_⟩
        intro v hv hvm
        rcases List.mem_cons.1 hv with rfl | hv
        · rw [hm] at hvm; cases hvm
        · exact h3 v hv hvm
      | true =>
        have hcons : ∀ v ∈ u :: l, v.mispred = true → pos w ≤ pos u → pos w ≤ pos v := by
          intro v hv hvm hle
          rcases List.mem_cons.1 hv with rfl | hv
          · exact hle
          · exact h3 v hv hvm
        cases hy : a.worst with
        | none =>
          have he : (arbStep a u).worst = some u := by simp [arbStep, hm, hy]
          have hle := h2 u he
          refine ⟨Or.inr ?_, by simp, fun v hv hvm => hcons v hv hvm hle⟩
          rcases h1 with h1 | h1
          · rw [he] at h1; cases h1; exact ⟨by simp, hm⟩
          · exact ⟨List.mem_cons_of_mem _ h1.1, h1.2⟩
        | some y =>
          have hyr := (ha y hy).1
          cases hc : cmpAge y u with
          | true =>
            have he : (arbStep a u).worst = some u := by simp [arbStep, hm, hy, hc]
            have hle := h2 u he
            have hlt := (hcmp y hyr u hu).1 hc
            refine ⟨Or.inr ?_, ?_, fun v hv hvm => hcons v hv hvm hle⟩
            · rcases h1 with h1 | h1
              · rw [he] at h1; cases h1; exact ⟨by simp, hm⟩
              · exact ⟨List.mem_cons_of_mem _ h1.1, h1.2⟩
            · intro x hx; cases hx; omega
          | false =>
            have he : (arbStep a u).worst = some y := by simp [arbStep, hm, hy, hc]
            have hle := h2 y he
            have hnlt : ¬ pos u < pos y := by
              intro hlt
              rw [(hcmp y hyr u hu).2 hlt] at hc; cases hc
            refine ⟨?_, ?_, fun v hv hvm => hcons v hv hvm (by omega)⟩
            · rcases h1 with h1 | h1
              · rw [he] at h1; cases h1; exact Or.inl rfl
              · exact Or.inr ⟨List.mem_cons_of_mem _ h1.1, h1.2⟩
            · intro x hx; cases hx; exact hle
  have hmem : ∀ u ∈ res.filter (fun u => !flushed c u), u ∈ res := fun u hu => (List.mem_filter.1 hu).1
  obtain ⟨h1, _, h3⟩ := key _ ⟨0#n, none⟩ hmem (by simp) w hw
  have hlive : ∀ u, u ∈ res.filter (fun u => !flushed c u) ↔ u ∈ res ∧ ¬ cancelled c u := by
    intro u; simp [List.mem_filter, flushed, brKilled_eq]
  rcases h1 with h1 | ⟨h1, h2⟩
  · cases h1
  · refine ⟨((hlive w).1 h1).1, ((hlive w).1 h1).2, h2, ?_⟩
    intro u hu hc hm
    exact h3 u ((hlive u).2 ⟨hu, hc⟩) hm

/-! ### Concrete runs -/

namespace ExuRun

def op (id code lat : Nat) (mask : BitVec 16) : Op 16 :=
  ⟨id, code, lat, mask, 0, false, 0, false, 0, true, 10 + id, 7⟩

def quiet : Ctl 16 := ⟨false, false, 0, 0⟩
def flushAll : Ctl 16 := ⟨true, false, 0, 0⟩

/-- Port 1 of the shipped configuration (config.h:374): divider (operation 3), then ALU
(operation 1). -/
def divPort : List (Cell 16) := [⟨(· == 3), .iter none, none⟩, ⟨(· == 1), .single, none⟩]
/-- Port 0: multiplier of latency 2 (operation 2), then ALU. -/
def mulPort : List (Cell 16) := [⟨(· == 2), .fixed 2 [], none⟩, ⟨(· == 1), .single, none⟩]

def start (p : List (Cell 16)) : List (Spec.Unit 16) := p.map (fun x => ⟨x, [], Log.empty⟩)

theorem divPort_ok : PortOk divPort := by
  constructor
  · intro x hx
    simp only [divPort, List.mem_cons, List.not_mem_nil, or_false] at hx
    rcases hx with rfl | rfl
    · exact ⟨rfl, Or.inr (Or.inr rfl)⟩
    · exact ⟨rfl, Or.inl rfl⟩
  · intro x hx
    simp only [divPort, List.tail_cons, List.mem_singleton] at hx
    subst hx
    rintro ⟨l, p, h⟩; cases h

theorem mulPort_ok : PortOk mulPort := by
  constructor
  · intro x hx
    simp only [mulPort, List.mem_cons, List.not_mem_nil, or_false] at hx
    rcases hx with rfl | rfl
    · exact ⟨rfl, Or.inr (Or.inl ⟨2, by decide, rfl⟩)⟩
    · exact ⟨rfl, Or.inl rfl⟩
  · intro x hx
    simp only [mulPort, List.tail_cons, List.mem_singleton] at hx
    subst hx
    rintro ⟨l, p, h⟩; cases h

/-- A legal run without full flush is reachable. -/
theorem reach_of_legal : ∀ (r : List (Ctl 16 × Option (Op 16))) (t : Nat) (us : List (Spec.Unit 16)),
    Reach t us → Legal t us r → (∀ e ∈ r, e.1.flush = false) → Reach (t + r.length) (after t us r)
  | [], _, _, h, _, _ => h
  | (c, inc) :: rest, t, us, h, hl, hf => by
    have hv : Valid c t inc us := by
      refine ⟨?_, fun h' => ?_⟩
      · rintro o rfl; exact hl.1
      · have hff := hf (c, inc) (by simp)
        rw [show c.flush = true from h'] at hff; cases hff
    have := reach_of_legal rest (t + 1) (portStep c t inc us) (.step t us c inc h hv) hl.2
      (fun e he => hf e (by simp [he]))
    rw [List.length_cons, Nat.add_comm rest.length 1, ← Nat.add_assoc]
    exact this

/-- Two multiplications back to back, then an ADD and a third multiplication whose completions
collide on the port; branch 3 is mispredicted in cycle 4 and cancels the multiplication with
payload 14. -/
def busy : List (Ctl 16 × Option (Op 16)) :=
  [(quiet, some (op 11 2 0 0)), (quiet, some (op 12 2 0 0)), (quiet, some (op 13 1 0 0)),
   (quiet, some (op 14 2 0 8)), (⟨false, true, 3, 8⟩, none), (quiet, none)]

/-- Hypotheses of C25 and C44 met by a non-trivial run: cycle 2 delivers multiplication 11 while
12 is owed. -/
example : Reach 2 (after 0 (start mulPort) (busy.take 2)) :=
  reach_of_legal (busy.take 2) 0 (start mulPort) (.init 0 mulPort mulPort_ok)
    (by decide +kernel) (by decide +kernel)

example : Valid quiet 2 (some (op 13 1 0 0)) (after 0 (start mulPort) (busy.take 2)) := by
  refine ⟨?_, by intro h; cases h⟩
  rintro o h
  cases h
  refine ⟨rfl, rfl, by decide +kernel⟩

example : ((portGo quiet 2 false (some (op 13 1 0 0))
    ((after 0 (start mulPort) (busy.take 2)).map (·.cell))).map (fun r => (r.del.map (·.id), r.acc.map (·.id)))) =
    [(some 11, none), (none, some 13)] := by decide +kernel

/-- In cycle 3 multiplication 12 wins the port over ADD 13, which is announced all the same. -/
example : ((portGo quiet 3 false none
    ((after 0 (start mulPort) (busy.take 3)).map (·.cell))).map (fun r => (r.offer.map (·.id), r.del.map (·.id)))) =
    [(some 12, some 12), (some 13, none)] := by decide +kernel

example : ((after 0 (start mulPort) busy).map (·.log)) =
    [⟨[11, 12, 14], [11, 12], [14]⟩, ⟨[13], [13], []⟩] := by decide +kernel

/-- C45 is false as stated for the shipped mask width of 16 bits: a division that depends on no
branch is handed over in cycle 0, a full flush happens in cycle 3, nothing is issued afterwards,
and yet the division completes in cycle 19 (and is reported and written back). -/
theorem C45_zombie_completes :
    let run := (quiet, some (op 1 3 18 0)) :: (List.replicate 2 (quiet, none) ++
      (flushAll, none) :: List.replicate 15 (quiet, none))
    Legal 0 (start divPort) run ∧
      ((after 0 (start divPort) run).map (·.log))[0]? = some ⟨[1], [], [1]⟩ ∧
      (portGo quiet 19 false none ((after 0 (start divPort) run).map (·.cell))).map
        (fun r => r.del.map (·.id)) = [some 1, none] := by
  decide +kernel

/-- … and C25 is false with it: a division handed over after the flush vanishes when the zombie
completes. It is neither delivered nor cancelled, and the unit is empty. -/
theorem C25_operation_lost :
    let run := (quiet, some (op 1 3 18 0)) :: (List.replicate 2 (quiet, none) ++
      (flushAll, none) :: (quiet, none) :: (quiet, some (op 2 3 18 0)) :: List.replicate 14 (quiet, none))
    Legal 0 (start divPort) run ∧
      ((after 0 (start divPort) run).map (·.log))[0]? = some ⟨[1, 2], [1], [1]⟩ ∧
      ((after 0 (start divPort) run).map (fun u => (u.cell.fu, u.cell.slot)))[0]? =
        some (.iter none, none) := by
  decide +kernel

/-- The hypotheses of `C45_flush_empties_partial` hold for a division that depends on a branch. -/
example : Reach 2 (after 0 (start divPort) [(quiet, some (op 1 3 18 4)), (quiet, none)]) ∧
    Valid flushAll 2 none (after 0 (start divPort) [(quiet, some (op 1 3 18 4)), (quiet, none)]) := by
  constructor
  · exact reach_of_legal [(quiet, some (op 1 3 18 4)), (quiet, none)] 0 (start divPort)
      (.init 0 divPort divPort_ok) (by decide +kernel) (by decide +kernel)
  · refine ⟨(by intro o h; cases h), fun _ => Or.inr ?_⟩
    have : ((after 0 (start divPort) [(quiet, some (op 1 3 18 4)), (quiet, none)]).all
        (fun u => u.q.all (fun e => e.1.brMask != 0))) = true := by decide +kernel
    intro u hu e he
    have h1 := List.all_eq_true.1 (List.all_eq_true.1 this u hu) e he
    simpa using h1

/-- A branch result for buffer position `idx`. -/
def brOp (id idx br : Nat) (mp : Bool) : Op 16 :=
  ⟨id, 6, 0, 0, idx, false, br, mp, 0, false, 0, 0⟩

/-- C38 on three branches that resolve together, two of them mispredicted. -/
example : ((arbitrate quiet [brOp 1 3 5 true, brOp 2 1 4 true, brOp 3 2 6 false]).worst.map (·.id)) = some 2 ∧
    (arbitrate quiet [brOp 1 3 5 true, brOp 2 1 4 true, brOp 3 2 6 false]).clear = 0x70#16 := by
  decide +kernel

/-- The hypotheses of C38 met in a reachable reorder buffer holding four instructions. -/
example : RobQueue.Reach 2 2 s2 ∧
    ∀ u ∈ [brOp 1 3 5 true, brOp 2 1 4 true, brOp 3 2 6 false],
      ∃ v, (RobQueue.insts 2 s2)[u.robIdx]? = some v ∧ v.robIdx = u.robIdx ∧ v.robFlag = u.robFlag := by
  refine ⟨reach2, ?_⟩
  intro u hu
  simp only [List.mem_cons, List.not_mem_nil, or_false] at hu
  rcases hu with rfl | rfl | rfl
  · exact ⟨_, rfl, by decide +kernel, by decide +kernel⟩
  · exact ⟨_, rfl, by decide +kernel, by decide +kernel⟩
  · exact ⟨_, rfl, by decide +kernel, by decide +kernel⟩

end ExuRun
end Verif.Props

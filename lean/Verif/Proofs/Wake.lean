import Verif.Proofs.Exu
import Verif.Spec.WakeTiming
namespace Verif.Wake.Proofs
open Verif.Exu Verif.Exu.Spec Verif.Exu.Proofs Verif.Wake Verif.Wake.Spec
variable {n : Nat}

theorem acc_from (c : Ctl n) (t : Nat) : ∀ (xs : List (Cell n)) (taken : Bool)
    (inc : Option (Op n)) (i : Nat) (r : CellOut n) (o : Op n),
    (portGo c t taken inc xs)[i]? = some r → r.acc = some o → ∃ o', inc = some o' ∧ o = resolve c o'
  | [], _, _, _, _, _, h, _ => by simp [portGo] at h
  | x :: xs, taken, inc, 0, r, o, h, ho => by
    have hr' : cellStep c t (!taken && (offerOf c t x).isSome) inc x = r := by
      simpa [portGo] using h
    subst hr'
    cases inc with
    | none => simp [cellStep] at ho
    | some o' =>
      refine ⟨o', rfl, ?_⟩
      simp only [cellStep, Option.filter] at ho
      split at ho
      · simpa [scrub_eq] using ho.symm
      · simp at ho
  | x :: xs, taken, inc, i + 1, r, o, h, ho => by
    obtain ⟨o', h1, h2⟩ := acc_from c t xs _ _ i r o (by simpa [portGo] using h) ho
    split at h1
    · cases h1
    · exact ⟨o', h1, h2⟩

/-- In a valid cycle, the class' unit is handed the issued operation exactly when it is of the class. -/
theorem class_acc {k : Cls n} {t : Nat} {us : List (Exu.Spec.Unit n)} {c : Ctl n}
    {inc : Option (Op n)} (hk : k.Only (us.map (·.cell))) (hv : Exu.Spec.Valid c t inc us)
    {r : CellOut n} (hr : (portGo c t false inc (us.map (·.cell)))[k.unit]? = some r) :
    r.acc = (inc.filter (fun o => k.isOp o.op)).map (resolve c) := by
  have hsup : ∀ (i : Nat) (r : CellOut n) (o : Op n),
      (portGo c t false inc (us.map (·.cell)))[i]? = some r → r.acc = some o →
      (k.isOp o.op = true ↔ i = k.unit) := by
    intro i r o hi ho
    have hlt : i < (us.map (·.cell)).length := by
      have := (List.getElem?_eq_some_iff.1 hi).1
      rwa [length_portGo] at this
    have hx := List.getElem?_eq_getElem hlt
    exact hk i _ o.op hx (acc_sup c t _ false inc i _ r o hx hi ho)
  cases hra : r.acc with
  | some o =>
    obtain ⟨o', h1, h2⟩ := acc_from c t _ _ _ _ _ _ hr hra
    have h3 : k.isOp o'.op = true := by
      have := (hsup _ r o hr hra).2 rfl
      rw [h2] at this; exact this
    rw [h1]
    simp [Option.filter, h3, h2]
  | none =>
    cases inc with
    | none => rfl
    | some o =>
      obtain ⟨hf, hm, hrd⟩ := hv.issue o rfl
      have honce := acc_once c t o hf hm _ false hrd
      have hmem : resolve c o ∈ (portGo c t false (some o) (us.map (·.cell))).filterMap (·.acc) := by
        rw [honce]; simp
      obtain ⟨r', hr', ha'⟩ := List.mem_filterMap.1 hmem
      obtain ⟨j, hj⟩ := List.mem_iff_getElem?.1 hr'
      have hiff := hsup j r' _ hj ha'
      cases hop : k.isOp o.op with
      | false => simp [Option.filter, hop]
      | true =>
        exfalso
        have : j = k.unit := hiff.1 hop
        subst this
        rw [hr] at hj
        cases hj
        rw [hra] at ha'
        cases ha'

/-- What one cycle does to the class' unit. -/
theorem owed_step {k : Cls n} {t : Nat} {us : List (Exu.Spec.Unit n)} {c : Ctl n}
    {inc : Option (Op n)} (hi : Inv t us) (hk : k.Only (us.map (·.cell)))
    (hv : Exu.Spec.Valid c t inc us) {u : Exu.Spec.Unit n} (hu : us[k.unit]? = some u) :
    ∃ won inc', CellOk c t won u.cell u.q ∧
      (portStep c t inc us)[k.unit]? = some
        ⟨(cellStep c t won inc' u.cell).cell,
         settle c t (cellStep c t won inc' u.cell).del
          ((inc.filter (fun o => k.isOp o.op)).map (resolve c)) u.q,
         u.log.extend c (cellStep c t won inc' u.cell).del
          ((inc.filter (fun o => k.isOp o.op)).map (resolve c)) u.q⟩ := by
  obtain ⟨won, inc', h1, h2⟩ := unit_cycle hi hv hu
  refine ⟨won, inc', h2, ?_⟩
  have h3 := class_acc hk hv h1
  unfold portStep
  rw [List.getElem?_zipWith, hu, h1]
  simp [h3]

theorem only_step {k : Cls n} {t : Nat} {us : List (Exu.Spec.Unit n)} {c : Ctl n}
    {inc : Option (Op n)} (hi : Inv t us) (hk : k.Only (us.map (·.cell)))
    (hv : Exu.Spec.Valid c t inc us) : k.Only ((portStep c t inc us).map (·.cell)) := by
  intro i x o hx hs
  rw [List.getElem?_map] at hx
  cases hu' : (portStep c t inc us)[i]? with
  | none => rw [hu'] at hx; cases hx
  | some u' =>
    rw [hu'] at hx
    have hx' : u'.cell = x := by simpa using hx
    unfold portStep at hu'
    rw [List.getElem?_zipWith] at hu'
    cases hu : us[i]? with
    | none => simp [hu] at hu'
    | some u =>
      obtain ⟨won, inc', h1, _⟩ := unit_cycle hi hv hu
      rw [hu, h1] at hu'
      have hc : (cellStep c t won inc' u.cell).cell = u'.cell := by
        have := congrArg (fun y : Option (Exu.Spec.Unit n) => y.map (·.cell)) hu'
        simpa using this
      refine hk i u.cell o (by simp [hu]) ?_
      rw [← hx', ← hc] at hs
      exact hs

/-- Kind of a unit is fixed. -/
theorem iter_step {c : Ctl n} {t : Nat} {won : Bool} {inc : Option (Op n)} {x : Cell n}
    {cur : Option (Op n × Nat)} (hx : x.fu = .iter cur) :
    ∃ cur', (cellStep c t won inc x).cell.fu = .iter cur' := by
  show ∃ cur', postFu c t won x = .iter cur'
  unfold postFu midFu
  rw [hx]
  simp only [Fu.ctrl]
  generalize ((cur.filter (fun e => !fuKills c e.1)).map (fun e => (scrub c e.1, e.2))) = m
  have h1 : ∃ m', Fu.accept t (enOf c x) (.iter m) = .iter m' := by
    cases m <;> exact ⟨_, rfl⟩
  obtain ⟨m', h1⟩ := h1
  rw [h1]
  cases m' with
  | none => exact ⟨_, rfl⟩
  | some e =>
    obtain ⟨o, d⟩ := e
    unfold Fu.consume
    simp only
    split <;> exact ⟨_, rfl⟩

theorem fixed_step {c : Ctl n} {t l : Nat} {won : Bool} {inc : Option (Op n)} {x : Cell n}
    {p : List (Op n × Nat)} (hx : x.fu = .fixed l p) :
    ∃ p', (cellStep c t won inc x).cell.fu = .fixed l p' := by
  show ∃ p', postFu c t won x = .fixed l p'
  unfold postFu midFu
  rw [hx]
  simp only [Fu.ctrl]
  generalize ((p.filter (fun e => !fuKills c e.1)).map (fun e => (scrub c e.1, e.2))) = m
  have h1 : ∃ m', Fu.accept t (enOf c x) (.fixed l m) = .fixed l m' := by
    unfold Fu.accept
    cases enOf c x with
    | none => exact ⟨_, rfl⟩
    | some o => simp only; split <;> exact ⟨_, rfl⟩
  obtain ⟨m', h1⟩ := h1
  rw [h1]
  cases m' with
  | nil => exact ⟨_, rfl⟩
  | cons e m' =>
    obtain ⟨o, d⟩ := e
    unfold Fu.consume
    simp only
    split <;> exact ⟨_, rfl⟩

/-- The slot and the account of an iterative unit. -/
def SlotOk (t : Nat) (s : Option (Entry n)) (q : Owed n) : Prop :=
  match s with
  | none => ∀ e ∈ q, e.1.destEn = true → e.2 + e.1.lat < t
  | some e => ∃ o tin, q = [(o, tin)] ∧ o.destEn = true ∧ e.preg = o.dest ∧ e.brMask = o.brMask ∧
      e.cd + t = tin + o.lat

theorem settleSlot_some (c : Ctl n) (e : Entry n) (o : Op n) (hb : e.brMask = o.brMask) :
    settleSlot c (some e) =
      if cancelled c o then none else some { e with brMask := (resolve c o).brMask } := by
  have h := brKilled_eq c o
  unfold settleSlot
  rw [show (c.flush || brKilled c o) = (c.flush || (c.mispred && (e.brMask &&& c.mask != 0#n))) by
    rw [hb]; rfl] at h
  cases hf : c.flush with
  | true =>
    have : cancelled c o := Or.inl hf
    simp [this]
  | false =>
    rw [hf] at h
    simp only [Bool.false_or] at h
    by_cases hc : cancelled c o
    · rw [decide_eq_true hc] at h
      simp [Option.filter, h, hc]
    · rw [decide_eq_false hc] at h
      rw [hb] at h
      simp only [Option.filter, h, hc, resolve, hb, Bool.not_false, if_true, if_false,
        Option.map_some, Bool.false_eq_true]

theorem iter_slot_step {k : Cls n} {t : Nat} {us : List (Exu.Spec.Unit n)} {c : Ctl n}
    {inc : Option (Op n)} (hi : Inv t us) (hk : k.Only (us.map (·.cell)))
    (hv : Exu.Spec.Valid c t inc us) {u : Exu.Spec.Unit n} (hu : us[k.unit]? = some u)
    {cur : Option (Op n × Nat)} (hcur : u.cell.fu = .iter cur) {s : Option (Entry n)}
    (hlat : ∀ o, inc = some o → k.isOp o.op = true → 2 ≤ o.lat) (hs : SlotOk t s u.q) :
    ∃ s', iterNext c (k.issued inc) [s] = some [s'] ∧
      SlotOk (t + 1) s' (owed k (portStep c t inc us)) := by
  obtain ⟨won, inc', h2, hst⟩ := owed_step hi hk hv hu
  have hi' := inv_step hi hv
  have hrel := hi'.rel _ (List.mem_of_getElem? hst)
  have hcap := capacity_of_rel hrel
  have hfu := iter_step (c := c) (t := t) (won := won) (inc := inc') hcur
  have hone : (settle c t (cellStep c t won inc' u.cell).del
      ((inc.filter (fun o => k.isOp o.op)).map (resolve c)) u.q).length ≤ 1 := by
    obtain ⟨cur', hfu⟩ := hfu
    simp only [capacity, hfu] at hcap
    exact hcap
  have howed : owed k (portStep c t inc us) = settle c t (cellStep c t won inc' u.cell).del
      ((inc.filter (fun o => k.isOp o.op)).map (resolve c)) u.q := by
    unfold owed; rw [hst]; rfl
  rw [howed]
  have hdel : ∀ o, (cellStep c t won inc' u.cell).del = some o →
      ∃ tin rest, survivors c u.q = (o, tin) :: rest ∧ tin + (1 + o.lat) ≤ t := by
    intro o ho
    obtain ⟨tin, rest, h3, h4⟩ := (offer_iff h2.rel h2.wide o).1 (del_offer ho)
    exact ⟨tin, rest, h3, by simpa [delay, hcur] using h4⟩
  generalize (cellStep c t won inc' u.cell).del = del at *
  clear hrel hcap hfu howed hst hi'
  -- the operation allocated, if any
  cases hiss : k.issued inc with
  | cons o os =>
    -- an operation of the class with a destination is issued: it is all the unit owes
    have hinc : inc = some o ∧ k.isOp o.op = true ∧ o.destEn = true ∧ os = [] := by
      unfold Cls.issued at hiss
      cases inc with
      | none => simp at hiss
      | some o' =>
        simp only [Option.filter] at hiss
        split at hiss
        · rename_i hcond
          simp only [Option.toList, List.cons.injEq] at hiss
          simp only [Bool.and_eq_true] at hcond
          obtain ⟨rfl, rfl⟩ := hiss
          exact ⟨rfl, hcond.1, hcond.2, rfl⟩
        · simp at hiss
    obtain ⟨rfl, hop, hen, rfl⟩ := hinc
    have hl := hlat o rfl hop
    obtain ⟨hf, hm, _⟩ := hv.issue o rfl
    have hnc : ¬ cancelled c o := by simp [cancelled, hf, hm]
    have hacc : ((some o).filter (fun o => k.isOp o.op)).map (resolve c) = some (resolve c o) := by
      simp [Option.filter, hop]
    rw [hacc] at hone ⊢
    have hempty : (if del.isSome then (survivors c u.q).tail else survivors c u.q) = [] := by
      unfold settle at hone
      simp only [Option.toList, List.map_cons, List.map_nil, List.length_append, List.length_cons,
        List.length_nil] at hone
      exact List.eq_nil_of_length_eq_zero (by omega)
    have hsn : tick s = none := by
      cases s with
      | none => rfl
      | some e =>
        obtain ⟨o', tin, hq, _, _, _, hcd⟩ := hs
        have hnc' : ¬ cancelled c o' := by simp [cancelled, hf, hm]
        cases hd : del with
        | none =>
          rw [hd, hq] at hempty
          simp [survivors, hnc'] at hempty
        | some d =>
          obtain ⟨tin', rest, h3, h4⟩ := hdel d hd
          rw [hq] at h3
          simp only [survivors, List.filter_cons, List.filter_nil, hnc', not_false_eq_true,
            decide_true, if_true, List.map_cons, List.map_nil, List.cons.injEq,
            Prod.mk.injEq] at h3
          have h5 : d.lat = o'.lat := by rw [← h3.1.1]; rfl
          omega
    refine ⟨settleSlot c (some ⟨o.lat - 1, o.dest, o.brMask⟩), ?_, ?_⟩
    · simp [iterNext, allocAll, alloc, hsn]
    · rw [settleSlot_some c _ o rfl, if_neg hnc]
      refine ⟨resolve c o, t, ?_, hen, rfl, rfl, ?_⟩
      · unfold settle; rw [hempty]; rfl
      · show o.lat - 1 + (t + 1) = t + o.lat
        omega
  | nil =>
    have hnew : ∀ e ∈ (((inc.filter (fun o => k.isOp o.op)).map (resolve c)).toList.map
        (fun o => (o, t))), e.1.destEn = false := by
      intro e he
      cases inc with
      | none => simp at he
      | some o =>
        cases hop : k.isOp o.op with
        | false => simp [Option.filter, hop] at he
        | true =>
          simp only [Cls.issued, Option.filter, hop, Bool.true_and] at hiss
          cases hen : o.destEn with
          | true => rw [hen] at hiss; simp at hiss
          | false =>
            simp only [Option.filter, hop, if_true, Option.map_some, Option.toList, List.map_cons,
              List.map_nil, List.mem_singleton] at he
            rw [he]; exact hen
    refine ⟨settleSlot c (tick s), by simp [iterNext, allocAll], ?_⟩
    have hmem : ∀ e ∈ settle c t del ((inc.filter (fun o => k.isOp o.op)).map (resolve c)) u.q,
        e.1.destEn = true → e ∈ survivors c u.q := by
      intro e he hen
      unfold settle at he
      rcases List.mem_append.1 he with he | he
      · split at he
        · exact List.mem_of_mem_tail he
        · exact he
      · rw [hnew e he] at hen; cases hen
    have hdead : ∀ (P : ∀ e ∈ survivors c u.q, e.1.destEn = true → e.2 + e.1.lat < t + 1),
        SlotOk (t + 1) none
          (settle c t del ((inc.filter (fun o => k.isOp o.op)).map (resolve c)) u.q) := by
      intro P e he hen
      exact P e (hmem e he hen) hen
    cases s with
    | none =>
      have h0 : settleSlot c (tick (none : Option (Entry n))) = none := by
        simp [settleSlot, tick]
      rw [h0]
      refine hdead ?_
      intro e he hen
      obtain ⟨e', he', _, rfl⟩ := mem_survivors he
      have := hs e' he' hen
      show e'.2 + e'.1.lat < t + 1
      omega
    | some e =>
      obtain ⟨o, tin, hq, hen, hpr, hbm, hcd⟩ := hs
      by_cases hpos : 0 < e.cd
      · have htk : tick (some e) = some { e with cd := e.cd - 1 } := by simp [tick, hpos]
        rw [htk, settleSlot_some c { e with cd := e.cd - 1 } o hbm]
        by_cases hc : cancelled c o
        · rw [if_pos hc]
          refine hdead ?_
          intro e' he' _
          rw [hq] at he'
          simp [survivors, hc] at he'
        · rw [if_neg hc]
          have hsv : survivors c u.q = [(resolve c o, tin)] := by simp [hq, survivors, hc]
          have hdn : del = none := by
            cases hd : del with
            | none => rfl
            | some d =>
              obtain ⟨tin', rest, h3, h4⟩ := hdel d hd
              rw [hsv] at h3
              simp only [List.cons.injEq, Prod.mk.injEq] at h3
              have h5 : d.lat = o.lat := by rw [← h3.1.1]; rfl
              omega
          have hno : ((inc.filter (fun o => k.isOp o.op)).map (resolve c)) = none := by
            cases hx : ((inc.filter (fun o => k.isOp o.op)).map (resolve c)) with
            | none => rfl
            | some o' =>
              rw [hx, hdn] at hone
              simp [settle, hsv] at hone
          refine ⟨resolve c o, tin, ?_, hen, hpr, rfl, ?_⟩
          · simp [settle, hdn, hno, hsv]
          · show e.cd - 1 + (t + 1) = tin + o.lat
            omega
      · have htk : tick (some e) = none := by simp [tick, hpos]
        have h0 : settleSlot c (none : Option (Entry n)) = none := by simp [settleSlot]
        rw [htk, h0]
        refine hdead ?_
        intro e' he' _
        rw [hq] at he'
        obtain ⟨e'', hm'', _, rfl⟩ := mem_survivors he'
        have : e'' = (o, tin) := by simpa using hm''
        subst this
        show tin + o.lat < t + 1
        omega

/-- Everything known about a reachable port with a countdown slot. -/
theorem iter_inv {k : Cls n} {t : Nat} {us : List (Exu.Spec.Unit n)} {ss : List (Option (Entry n))}
    (h : IterReach k t us ss) : Reach t us ∧ k.Only (us.map (·.cell)) ∧
      ∃ u cur s, us[k.unit]? = some u ∧ u.cell.fu = .iter cur ∧ ss = [s] ∧ SlotOk t s u.q := by
  induction h with
  | init t xs hok hk hx =>
    obtain ⟨x, hx1, hx2⟩ := hx
    refine ⟨.init t xs hok, ?_, ⟨x, [], Log.empty⟩, none, none, by simp [hx1], hx2, rfl, by simp [SlotOk]⟩
    rw [List.map_map]
    have : ((fun u : Exu.Spec.Unit n => u.cell) ∘ fun x => ⟨x, [], Log.empty⟩) = id := rfl
    rw [this, List.map_id]
    exact hk
  | step t us ss ss' c inc hr hv hlat hn ih =>
    obtain ⟨h1, hk, u, cur, s, hu, hcur, rfl, hs⟩ := ih
    have hi := inv_reach h1
    obtain ⟨won, inc', h2, hst⟩ := owed_step hi hk hv hu
    obtain ⟨cur', hcur'⟩ := iter_step (c := c) (t := t) (won := won) (inc := inc') hcur
    obtain ⟨s', h3, h4⟩ := iter_slot_step hi hk hv hu hcur hlat hs
    rw [hn] at h3
    cases h3
    refine ⟨.step t us c inc h1 hv, only_step hi hk hv, _, cur', s', hst, hcur', rfl, ?_⟩
    unfold owed at h4
    rw [hst] at h4
    exact h4

/-! ### The multiplier -/

/-- Does the entry stand for the operation? -/
def Matches (e : Entry n) (o : Op n) : Prop :=
  o.destEn = true ∧ e.preg = o.dest ∧ e.brMask = o.brMask

/-- The shift register and the account of a pipelined unit: stage `j` is for what was handed over
`j + 1` cycles ago. -/
structure PipeOk (t l : Nat) (ss : List (List (Option (Entry n)))) (q : Owed n) : Prop where
  shape : ∀ st ∈ ss, ∃ s, st = [s]
  len : ss.length = l - 1
  sound : ∀ j e, ss[j]? = some [some e] → ∃ o tin, (o, tin) ∈ q ∧ tin + 1 + j = t ∧ Matches e o
  complete : ∀ j o tin, (o, tin) ∈ q → tin + 1 + j = t → j < l - 1 → o.destEn = true →
    ∃ e, ss[j]? = some [some e] ∧ Matches e o

theorem pipe_slot_step {k : Cls n} {t l : Nat} {us : List (Exu.Spec.Unit n)} {c : Ctl n}
    {inc : Option (Op n)} (hi : Inv t us) (hk : k.Only (us.map (·.cell)))
    (hv : Exu.Spec.Valid c t inc us) {u : Exu.Spec.Unit n} (hu : us[k.unit]? = some u)
    {p : List (Op n × Nat)} (hfu : u.cell.fu = .fixed l p) {ss : List (List (Option (Entry n)))}
    (hs : PipeOk t l ss u.q) :
    ∃ ss', mulNext c (k.issued inc) ss = some ss' ∧
      PipeOk (t + 1) l ss' (owed k (portStep c t inc us)) := by
  obtain ⟨won, inc', h2, hst⟩ := owed_step hi hk hv hu
  have howed : owed k (portStep c t inc us) = settle c t (cellStep c t won inc' u.cell).del
      ((inc.filter (fun o => k.isOp o.op)).map (resolve c)) u.q := by
    unfold owed; rw [hst]; rfl
  rw [howed]
  have hot := on_time_of_rel h2.rel hfu h2.wide
  have hdel : ∀ o, (cellStep c t won inc' u.cell).del = some o →
      ∃ tin rest, survivors c u.q = (o, tin) :: rest ∧ tin + l = t := by
    intro o ho
    obtain ⟨tin, rest, h3, h4⟩ := (offer_iff h2.rel h2.wide o).1 (del_offer ho)
    have h5 : t ≤ tin + l := hot (o, tin) (by simp [h3])
    simp only [delay, hfu] at h4
    exact ⟨tin, rest, h3, by omega⟩
  generalize (cellStep c t won inc' u.cell).del = del at *
  clear howed hst
  -- survivors that stay
  have hstay : ∀ o tin, (o, tin) ∈ u.q → ¬ cancelled c o → t < tin + l →
      (resolve c o, tin) ∈ settle c t del ((inc.filter (fun o => k.isOp o.op)).map (resolve c)) u.q := by
    intro o tin hm hnc hlt
    have hsv : (resolve c o, tin) ∈ survivors c u.q := by
      unfold survivors
      exact List.mem_map.2 ⟨(o, tin), List.mem_filter.2 ⟨hm, by simpa using hnc⟩, rfl⟩
    unfold settle
    refine List.mem_append.2 (Or.inl ?_)
    cases hd : del with
    | none => simpa using hsv
    | some d =>
      obtain ⟨tin', rest, h3, h4⟩ := hdel d hd
      rw [h3] at hsv ⊢
      rcases List.mem_cons.1 hsv with h | h
      · have : tin = tin' := by rw [Prod.mk.injEq] at h; exact h.2
        omega
      · simpa using h
  have hback : ∀ o tin, (o, tin) ∈ settle c t del
      ((inc.filter (fun o => k.isOp o.op)).map (resolve c)) u.q →
      (∃ o', (o', tin) ∈ u.q ∧ ¬ cancelled c o' ∧ o = resolve c o') ∨
        (tin = t ∧ ∃ o', inc = some o' ∧ k.isOp o'.op = true ∧ o = resolve c o') := by
    intro o tin hm
    unfold settle at hm
    rcases List.mem_append.1 hm with hm | hm
    · have hsv : (o, tin) ∈ survivors c u.q := by
        split at hm
        · exact List.mem_of_mem_tail hm
        · exact hm
      obtain ⟨e', he', hnc, heq⟩ := mem_survivors hsv
      rw [Prod.mk.injEq] at heq
      exact Or.inl ⟨e'.1, by rw [heq.2]; exact he', hnc, heq.1⟩
    · cases inc with
      | none => simp at hm
      | some o' =>
        cases hop : k.isOp o'.op with
        | false => simp [Option.filter, hop] at hm
        | true =>
          simp only [Option.filter, hop, if_true, Option.map_some, Option.toList, List.map_cons,
            List.map_nil, List.mem_singleton, Prod.mk.injEq] at hm
          exact Or.inr ⟨hm.2, o', rfl, hop, hm.1⟩
  have hrel := h2.rel
  simp only [Rel, hfu] at hrel
  obtain ⟨_, _, _, _, _, _, _, _, hl1⟩ := hrel
  have htime : ∀ o tin, (o, tin) ∈ u.q → tin < t := by
    intro o tin hm
    have hrel := h2.rel
    simp only [Rel, hfu] at hrel
    obtain ⟨ps, ss', hq, _, _, hst', _, hb, _⟩ := hrel
    rw [hq] at hm
    rcases List.mem_append.1 hm with hm | hm
    · have : t ≤ tin + l ∧ tin + 2 ≤ t := hb _ hm
      omega
    · have : tin + 1 = t := hst' _ hm
      omega
  match ss, hs with
  | [], hs =>
    refine ⟨[], rfl, by simp, hs.len, by simp, ?_⟩
    intro j o tin _ _ hj
    have := hs.len
    simp at this
    omega
  | s0 :: rest, hs =>
    obtain ⟨s0v, hs0⟩ := hs.shape s0 (by simp)
    subst hs0
    -- the new first stage
    have halloc : ∃ a : Option (Entry n),
        allocAll (fun o => (⟨0, o.dest, o.brMask⟩ : Entry n)) (k.issued inc) [none] = some [a] ∧
        (∀ e, settleSlot c a = some e → ∃ o', inc = some o' ∧ k.isOp o'.op = true ∧ ¬ cancelled c o' ∧
          Matches e (resolve c o')) ∧
        (∀ o', inc = some o' → k.isOp o'.op = true → o'.destEn = true →
          ∃ e, settleSlot c a = some e ∧ Matches e (resolve c o')) := by
      cases hinc : inc with
      | none => exact ⟨none, rfl, by simp [settleSlot], by simp⟩
      | some o =>
        obtain ⟨hf, hm, _⟩ := hv.issue o hinc
        have hnc : ¬ cancelled c o := by simp [cancelled, hf, hm]
        cases hcond : (k.isOp o.op && o.destEn) with
        | true =>
          simp only [Bool.and_eq_true] at hcond
          refine ⟨some ⟨0, o.dest, o.brMask⟩, ?_, ?_, ?_⟩
          · simp [Cls.issued, Option.filter, hcond, allocAll, alloc]
          · intro e he
            rw [settleSlot_some c _ o rfl, if_neg hnc] at he
            cases he
            exact ⟨o, rfl, hcond.1, hnc, hcond.2, rfl, rfl⟩
          · intro o' ho' _ _
            cases ho'
            rw [settleSlot_some c _ o rfl, if_neg hnc]
            exact ⟨_, rfl, hcond.2, rfl, rfl⟩
        | false =>
          refine ⟨none, ?_, by simp [settleSlot], ?_⟩
          · simp [Cls.issued, Option.filter, hcond, allocAll]
          · intro o' ho' hop hen
            cases ho'
            simp [hop, hen] at hcond
    obtain ⟨a, ha1, ha2, ha3⟩ := halloc
    refine ⟨([a] :: ([s0v] :: rest).dropLast).map (·.map (settleSlot c)), ?_, ?_⟩
    · unfold mulNext
      simp only [List.length_cons, List.length_nil, List.replicate, ha1, Option.map_some]
    · have hlen := hs.len
      have hget : ∀ j, (([a] :: ([s0v] :: rest).dropLast).map (·.map (settleSlot c)))[j + 1]? =
          if j + 1 < l - 1 then (([s0v] :: rest)[j]?).map (·.map (settleSlot c)) else none := by
        intro j
        rw [List.map_cons, List.getElem?_cons_succ, List.getElem?_map, List.getElem?_dropLast]
        rw [hlen]
        by_cases hj : j + 1 < l - 1
        · have hj' : j < l - 1 - 1 := by omega
          simp [hj, hj']
        · have hj' : ¬ j < l - 1 - 1 := by omega
          simp [hj, hj']
      refine ⟨?_, ?_, ?_, ?_⟩
      · intro st hst
        obtain ⟨st', hst', rfl⟩ := List.mem_map.1 hst
        rcases List.mem_cons.1 hst' with rfl | h
        · exact ⟨_, rfl⟩
        · obtain ⟨s, rfl⟩ := hs.shape st' (List.dropLast_subset _ h)
          exact ⟨_, rfl⟩
      · simp only [List.length_map, List.length_cons, List.length_dropLast] at hlen ⊢
        omega
      · intro j e hj
        match j with
        | 0 =>
          have : settleSlot c a = some e := by simpa using hj
          obtain ⟨o', h5, h6, h7, h8⟩ := ha2 e this
          refine ⟨resolve c o', t, ?_, by omega, h8⟩
          unfold settle
          refine List.mem_append.2 (Or.inr ?_)
          simp [h5, Option.filter, h6]
        | j + 1 =>
          rw [hget] at hj
          split at hj
          · rename_i hlt
            cases hsj : ([s0v] :: rest)[j]? with
            | none => rw [hsj] at hj; cases hj
            | some st =>
              obtain ⟨sv, hsv⟩ := hs.shape st (List.mem_of_getElem? hsj)
              subst hsv
              rw [hsj] at hj
              have hj' : settleSlot c sv = some e := by simpa using hj
              cases sv with
              | none => simp [settleSlot] at hj'
              | some e0 =>
                obtain ⟨o, tin, hm, ht, hen, hpr, hbm⟩ := hs.sound j e0 hsj
                rw [settleSlot_some c e0 o hbm] at hj'
                split at hj'
                · cases hj'
                · rename_i hnc
                  cases hj'
                  exact ⟨resolve c o, tin, hstay o tin hm hnc (by omega), by omega, hen, hpr, rfl⟩
          · cases hj
      · intro j o tin hm ht hj hen
        rcases hback o tin hm with ⟨o', hm', hnc, rfl⟩ | ⟨rfl, o', hinc, hop, rfl⟩
        · have htl := htime o' tin hm'
          match j with
          | 0 => omega
          | j + 1 =>
            obtain ⟨e0, he0, h5, h6, h7⟩ := hs.complete j o' tin hm' (by omega) (by omega) hen
            rw [hget, if_pos hj, he0]
            refine ⟨{ e0 with brMask := (resolve c o').brMask }, ?_, hen, h6, rfl⟩
            simp [settleSlot_some c e0 o' h7, hnc]
        · have : j = 0 := by omega
          subst this
          obtain ⟨e, he, hme⟩ := ha3 o' hinc hop hen
          exact ⟨e, by simp [he], hme⟩

theorem mul_inv {k : Cls n} {t l : Nat} {us : List (Exu.Spec.Unit n)}
    {ss : List (List (Option (Entry n)))} (h : MulReach k l t us ss) :
    Reach t us ∧ k.Only (us.map (·.cell)) ∧
      ∃ u p, us[k.unit]? = some u ∧ u.cell.fu = .fixed l p ∧ PipeOk t l ss u.q := by
  induction h with
  | init t xs hok hk hx =>
    obtain ⟨x, hx1, hx2⟩ := hx
    refine ⟨.init t xs hok, ?_, ⟨x, [], Log.empty⟩, [], by simp [hx1], hx2, ?_, by simp, ?_, by simp⟩
    · rw [List.map_map]
      have : ((fun u : Exu.Spec.Unit n => u.cell) ∘ fun x => ⟨x, [], Log.empty⟩) = id := rfl
      rw [this, List.map_id]
      exact hk
    · intro st hst; exact ⟨none, List.eq_of_mem_replicate hst⟩
    · intro j e hj
      have := List.eq_of_mem_replicate (List.mem_of_getElem? hj)
      simp at this
  | step t us ss ss' c inc hr hv hn ih =>
    obtain ⟨h1, hk, u, p, hu, hfu, hs⟩ := ih
    have hi := inv_reach h1
    obtain ⟨won, inc', h2, hst⟩ := owed_step hi hk hv hu
    obtain ⟨p', hp'⟩ := fixed_step (c := c) (t := t) (won := won) (inc := inc') hfu
    obtain ⟨s', h3, h4⟩ := pipe_slot_step hi hk hv hu hfu hs
    rw [hn] at h3
    cases h3
    refine ⟨.step t us c inc h1 hv, only_step hi hk hv, _, p', hst, hp', ?_⟩
    unfold owed at h4
    rw [hst] at h4
    exact h4

end Verif.Wake.Proofs

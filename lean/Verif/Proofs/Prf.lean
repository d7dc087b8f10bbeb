import Verif.Spec.PrfView
import Verif.Proofs.Exu
namespace Verif.Prf.Proofs
open Verif.Exu Verif.Exu.Spec Verif.Exu.Proofs Verif.Prf.Spec

variable {n : Nat}

theorem hit_eq (p : Nat) (o : Op n) : hit p (some o) = if Writes p o then some o.result else none := by
  simp only [hit, Writes]
  by_cases h1 : o.destEn = true <;> by_cases h2 : o.dest = p <;> simp [h1, h2]

/-- The write-back stage reads as the file it will produce. -/
theorem write_eq (s : State n) (p : Nat) (hp : p ≠ 0) : write s p = stageRead p (s.file p) s.stage := by
  unfold write stageRead
  rw [if_neg hp]
  generalize s.file = f
  generalize s.stage = l
  induction l generalizing f with
  | nil => rfl
  | cons e l ih =>
    rw [List.foldl_cons, List.foldl_cons, ih]
    congr 1
    cases e with
    | none => rfl
    | some o =>
      rw [hit_eq]
      simp only [writeOne, Writes]
      by_cases h1 : o.destEn = true
      · by_cases h2 : o.dest = p
        · subst h2; simp [h1, hp]
        · by_cases h3 : o.dest = 0
          · have : ¬ (0 = p) := fun h => hp h.symm
            simp [h1, h3, this]
          · have : ¬ p = o.dest := fun h => h2 h.symm
            simp [h1, h2, h3, this]
      · simp [h1]

theorem pipe_one (c : Ctl n) (o : Op n) :
    (if c.flush then none else ((some o).filter (fun o => !brKilled c o)).map (scrub c)) =
      if cancelled c o then none else some (resolve c o) := by
  by_cases hf : c.flush = true
  · simp [hf, cancelled]
  · have hb := brKilled_eq c o
    have hf' : c.flush = false := by simpa using hf
    rw [hf', Bool.false_or] at hb
    by_cases hc : cancelled c o
    · simp [hc, hf', Option.filter, hb]
    · simp [hc, hf', Option.filter, hb]
      rfl

theorem stageRead_pipeline (c : Ctl n) (p : Nat) (v : BitVec 32) (l : List (Option (Op n))) :
    stageRead p v (pipeline c l) = deliver c p v l := by
  unfold stageRead pipeline
  induction l generalizing v with
  | nil => rfl
  | cons e l ih =>
    rw [List.map_cons, List.foldl_cons, ih]
    cases e with
    | none => simp [deliver, hit]
    | some o =>
      rw [pipe_one]
      simp only [deliver]
      congr 1
      by_cases hc : cancelled c o
      · simp [hc, hit]
      · have : Writes p (resolve c o) ↔ Writes p o := Iff.rfl
        by_cases hw : Writes p o
        · rw [if_neg hc, hit_eq, if_pos (this.2 hw), if_pos ⟨hw, hc⟩]; rfl
        · rw [if_neg hc, hit_eq, if_neg (fun h => hw (this.1 h)), if_neg (fun h => hw h.1)]; rfl

theorem inv_val {s : Sys n} (h : Reach s) (p : Nat) (hp : p ≠ 0) :
    stageRead p (s.prf.file p) s.prf.stage = s.val p := by
  induction h with
  | init width =>
    have : ∀ w, stageRead p 0#32 (List.replicate w (none : Option (Op n))) = 0#32 := by
      intro w
      induction w with
      | zero => rfl
      | succ w ih => rw [List.replicate_succ]; exact ih
    exact this width
  | step c entry s _ ih =>
    show stageRead p (write s.prf p) (pipeline c entry) = deliver c p (s.val p) entry
    rw [write_eq _ _ hp, ih, stageRead_pipeline]

theorem file_zero {s : Sys n} (h : Reach s) : s.prf.file 0 = 0#32 := by
  cases h <;> rfl

theorem stageRead_none {p : Nat} {d : BitVec 32} {l : List (Option (Op n))}
    (h : ∀ o, some o ∈ l → ¬ Writes p o) : stageRead p d l = d := by
  unfold stageRead
  induction l generalizing d with
  | nil => rfl
  | cons e l ih =>
    rw [List.foldl_cons, ih (fun o ho => h o (List.mem_cons_of_mem _ ho))]
    cases e with
    | none => rfl
    | some o => rw [hit_eq, if_neg (h o (by simp))]; rfl

theorem bypRead_none {p : Nat} {d : BitVec 32} {l : List (Option (Op n))}
    (h : ∀ o, some o ∈ l → ¬ Writes p o) : bypRead p d l = d := by
  unfold bypRead
  have : l.findSome? (hit p) = none := by
    rw [List.findSome?_eq_none_iff]
    intro e he
    cases e with
    | none => rfl
    | some o => rw [hit_eq, if_neg (h o he)]
  rw [this]; rfl

theorem bypRead_some {p : Nat} {d v : BitVec 32} {l : List (Option (Op n))}
    (h : ∀ o, some o ∈ l → Writes p o → o.result = v) {o : Op n} (ho : some o ∈ l) (hw : Writes p o) :
    bypRead p d l = v := by
  unfold bypRead
  cases hf : l.findSome? (hit p) with
  | none =>
    have := (List.findSome?_eq_none_iff.1 hf) (some o) ho
    rw [hit_eq, if_pos hw] at this
    cases this
  | some w =>
    obtain ⟨e, he, hh⟩ := List.exists_of_findSome?_eq_some hf
    cases e with
    | none => cases hh
    | some o' =>
      rw [hit_eq] at hh
      by_cases hw' : Writes p o'
      · rw [if_pos hw'] at hh
        cases hh
        exact h o' he hw'
      · rw [if_neg hw'] at hh; cases hh

theorem deliver_none {c : Ctl n} {p : Nat} {v : BitVec 32} {l : List (Option (Op n))}
    (h : ∀ o, some o ∈ l → ¬ Writes p o) : deliver c p v l = v := by
  rw [← stageRead_pipeline]
  apply stageRead_none
  intro o ho hw
  obtain ⟨e, he, hh⟩ := List.mem_map.1 ho
  cases e with
  | none => by_cases hf : c.flush = true <;> simp [hf] at hh
  | some o' =>
    rw [pipe_one] at hh
    by_cases hc : cancelled c o'
    · simp [hc] at hh
    · rw [if_neg hc] at hh
      cases hh
      exact h o' he hw

theorem deliver_some {c : Ctl n} {p : Nat} {v w : BitVec 32} {l : List (Option (Op n))}
    (h : ∀ o, some o ∈ l → Writes p o → o.result = w) {o : Op n} (ho : some o ∈ l) (hw : Writes p o)
    (hc : ¬ cancelled c o) : deliver c p v l = w := by
  induction l generalizing v with
  | nil => cases ho
  | cons e l ih =>
    have h' : ∀ o, some o ∈ l → Writes p o → o.result = w := fun o ho => h o (List.mem_cons_of_mem _ ho)
    by_cases hl : some o ∈ l
    · cases e with
      | none => exact ih h' hl
      | some o' => exact ih h' hl
    · have he : e = some o := by
        rcases List.mem_cons.1 ho with h1 | h1
        · exact h1.symm
        · exact absurd h1 hl
      subst he
      simp only [deliver, if_pos (And.intro hw hc)]
      have hr : o.result = w := h o (by simp) hw
      rw [hr]
      clear ih hl ho h
      induction l with
      | nil => rfl
      | cons e l ih =>
        have h'' : ∀ o, some o ∈ l → Writes p o → o.result = w :=
          fun o ho => h' o (List.mem_cons_of_mem _ ho)
        cases e with
        | none => exact ih h''
        | some o' =>
          simp only [deliver]
          by_cases hw' : Writes p o' ∧ ¬ cancelled c o'
          · rw [if_pos hw', h' o' (by simp) hw'.1]; exact ih h''
          · rw [if_neg hw']; exact ih h''

/-! ### With the ports -/

theorem core_port {opCsr alu t : Nat} {s : Core n} (h : Core.Reach opCsr alu t s) :
    ∀ (k : Nat) (us : List (Exu.Spec.Unit n)), s.ports[k]? = some us → Exu.Spec.Reach t us := by
  induction h with
  | init t width xss hok =>
    intro k us hk
    simp only [List.getElem?_map, Option.map_eq_some_iff] at hk
    obtain ⟨xs, hxs, rfl⟩ := hk
    exact Exu.Spec.Reach.init t xs (hok xs (List.mem_of_getElem? hxs))
  | step t s x _ hv ih =>
    intro k us hk
    simp only [Core.step, List.getElem?_mapIdx, Option.map_eq_some_iff] at hk
    obtain ⟨us', hk', rfl⟩ := hk
    exact Exu.Spec.Reach.step t us' x.c (x.inc k) (ih k us' hk') (hv k us' hk')

theorem core_reg {opCsr alu t : Nat} {s : Core n} (h : Core.Reach opCsr alu t s) : Prf.Spec.Reach s.reg := by
  induction h with
  | init t width xss hok => exact Prf.Spec.Reach.init width
  | step t s x _ hv ih => exact Prf.Spec.Reach.step _ _ _ ih

theorem portGo_won (c : Ctl n) (t : Nat) : ∀ (xs : List (Cell n)) (taken : Bool)
    (inc : Option (Op n)) (i : Nat) (x : Cell n), xs[i]? = some x →
    ∃ inc', (portGo c t taken inc xs)[i]? = some (cellStep c t
      (!taken && (xs.take i).all (fun y => (offerOf c t y).isNone) && (offerOf c t x).isSome) inc' x)
  | [], _, _, _, _, h => by simp at h
  | y :: ys, taken, inc, 0, x, h => by
    have : y = x := by simpa using h
    subst this
    exact ⟨inc, by simp [portGo]⟩
  | y :: ys, taken, inc, i + 1, x, h => by
    obtain ⟨inc', h1⟩ := portGo_won c t ys (taken || (offerOf c t y).isSome)
      (if ((inc.filter (takes c t (!taken && (offerOf c t y).isSome) y))).isSome then none else inc)
      i x (by simpa using h)
    refine ⟨inc', ?_⟩
    have e : (!(taken || (offerOf c t y).isSome) && (ys.take i).all (fun y => (offerOf c t y).isNone)
        && (offerOf c t x).isSome) = (!taken && ((y :: ys).take (i + 1)).all (fun y => (offerOf c t y).isNone)
        && (offerOf c t x).isSome) := by
      rw [List.take_succ_cons, List.all_cons]
      cases taken <;> cases offerOf c t y <;> simp
    rw [e] at h1
    simpa [portGo] using h1

def fuDelay (o : Op n) : Fu n → Nat
  | .single => 1
  | .fixed l _ => l
  | .iter _ => 1 + o.lat

theorem fuDelay_ctrl (o : Op n) (c : Ctl n) (f : Fu n) : fuDelay o (f.ctrl c) = fuDelay o f := by
  cases f <;> rfl

theorem fuDelay_accept (o : Op n) (t : Nat) (en : Option (Op n)) (f : Fu n) :
    fuDelay o (f.accept t en) = fuDelay o f := by
  match f with
  | .single => rfl
  | .fixed l p => cases en with
    | none => rfl
    | some o' => simp only [Fu.accept]; split <;> rfl
  | .iter none => rfl
  | .iter (some e) => rfl

theorem fuDelay_consume (o : Op n) (t : Nat) (won : Bool) (f : Fu n) :
    fuDelay o (f.consume t won) = fuDelay o f := by
  match f with
  | .single => rfl
  | .fixed l [] => rfl
  | .fixed l (e :: p) => simp only [Fu.consume]; split <;> rfl
  | .iter none => rfl
  | .iter (some e) => simp only [Fu.consume]; split <;> rfl

theorem delay_step (c : Ctl n) (t : Nat) (won : Bool) (inc : Option (Op n)) (x : Cell n) (o : Op n) :
    delay (cellStep c t won inc x).cell o = delay x o := by
  have h : ∀ y : Cell n, delay y o = fuDelay o y.fu := fun y => by unfold delay fuDelay; rfl
  rw [h, h]
  show fuDelay o (((x.fu.ctrl c).accept t (enOf c x)).consume t won) = _
  rw [fuDelay_consume, fuDelay_accept, fuDelay_ctrl]

theorem unit_next {t : Nat} {us : List (Exu.Spec.Unit n)} {c : Ctl n} {inc : Option (Op n)} {i : Nat}
    {u : Exu.Spec.Unit n} {r : CellOut n} (hu : us[i]? = some u)
    (hr : (portGo c t false inc (us.map (·.cell)))[i]? = some r) :
    (portStep c t inc us)[i]? = some ⟨r.cell, settle c t r.del r.acc u.q, u.log.extend c r.del r.acc u.q⟩ := by
  unfold portStep
  rw [List.getElem?_zipWith, hu, hr]

/-- A result broadcast but not taken is broadcast again, unless cancelled. -/
theorem offer_persists {t : Nat} {us : List (Exu.Spec.Unit n)} (h : Exu.Spec.Reach t us) {c c' : Ctl n}
    {inc inc' : Option (Op n)} (hv : Valid c t inc us) (hv' : Valid c' (t + 1) inc' (portStep c t inc us))
    {i : Nat} {u u' : Exu.Spec.Unit n} {o : Op n} (hu : us[i]? = some u) (ho : offerOf c t u.cell = some o)
    (hu' : (portStep c t inc us)[i]? = some u')
    (hnot : ∃ y ∈ (us.map (·.cell)).take i, (offerOf c t y).isSome = true) (hc : ¬ cancelled c' o) :
    offerOf c' (t + 1) u'.cell = some (resolve c' o) := by
  obtain ⟨incx, h1⟩ := portGo_won c t (us.map (·.cell)) false inc i u.cell (by simp [hu])
  have hw : (!false && ((us.map (·.cell)).take i).all (fun y => (offerOf c t y).isNone)
      && (offerOf c t u.cell).isSome) = false := by
    obtain ⟨y, hy, hs⟩ := hnot
    have : ((us.map (·.cell)).take i).all (fun y => (offerOf c t y).isNone) = false := by
      rw [List.all_eq_false]
      exact ⟨y, hy, by cases h : offerOf c t y <;> simp_all⟩
    rw [this]; simp
  rw [hw] at h1
  have hn := unit_next hu h1
  rw [hn] at hu'
  cases hu'
  obtain ⟨won, inc2, h2, hcell⟩ := unit_cycle (inv_reach h) hv hu
  have hq := (offer_iff hcell.rel hcell.wide o).1 ho
  obtain ⟨tin, rest, hq, hle⟩ := hq
  obtain ⟨won', inc3, h3, hcell'⟩ := unit_cycle (inv_reach (Exu.Spec.Reach.step t us c inc h hv)) hv' hn
  refine (offer_iff hcell'.rel hcell'.wide _).2 ?_
  have hset : settle c t (cellStep c t false incx u.cell).del (cellStep c t false incx u.cell).acc u.q =
      (o, tin) :: (rest ++ (cellStep c t false incx u.cell).acc.toList.map (fun o => (o, t))) := by
    simp only [settle, hq]
    rfl
  refine ⟨tin, survivors c' (rest ++ (cellStep c t false incx u.cell).acc.toList.map (fun o => (o, t))), ?_, ?_⟩
  · show survivors c' (settle c t _ _ u.q) = _
    rw [hset]
    unfold survivors
    rw [List.filter_cons]
    simp [hc]
  · show tin + delay (cellStep c t false incx u.cell).cell (resolve c' o) ≤ t + 1
    rw [delay_step]
    have : delay u.cell (resolve c' o) = delay u.cell o := by
      unfold delay resolve; cases u.cell.fu <;> rfl
    rw [this]; omega

theorem offer_live {t : Nat} {us : List (Exu.Spec.Unit n)} (h : Exu.Spec.Reach t us) {c : Ctl n}
    {inc : Option (Op n)} (hv : Valid c t inc us)
    {i : Nat} {u : Exu.Spec.Unit n} {o : Op n} (hu : us[i]? = some u) (ho : offerOf c t u.cell = some o) :
    ¬ cancelled c o := by
  obtain ⟨won, inc2, h2, hcell⟩ := unit_cycle (inv_reach h) hv hu
  obtain ⟨tin, rest, hq, hle⟩ := (offer_iff hcell.rel hcell.wide o).1 ho
  have : (o, tin) ∈ survivors c u.q := by rw [hq]; simp
  unfold survivors at this
  obtain ⟨e, he, heq⟩ := List.mem_map.1 this
  have hc := (List.mem_filter.1 he).2
  cases heq
  exact cancelled_resolve (by simpa using hc)

theorem portWinner_mem (c : Ctl n) (t : Nat) : ∀ (xs : List (Cell n)) (o : Op n), portWinner c t xs = some o →
    ∃ (i : Nat) (x : Cell n), xs[i]? = some x ∧ offerOf c t x = some o
  | [], o, h => by cases h
  | x :: xs, o, h => by
    simp only [portWinner] at h
    cases hx : offerOf c t x with
    | some o' =>
      rw [hx] at h
      cases h
      exact ⟨0, x, rfl, hx⟩
    | none =>
      rw [hx, Option.none_or] at h
      obtain ⟨i, y, h1, h2⟩ := portWinner_mem c t xs o h
      exact ⟨i + 1, y, by simpa using h1, h2⟩

theorem portWinner_first (c : Ctl n) (t : Nat) : ∀ (xs : List (Cell n)) (i : Nat) (x : Cell n) (o : Op n),
    xs[i]? = some x → offerOf c t x = some o →
    (∀ j y, j < i → xs[j]? = some y → offerOf c t y = none) → portWinner c t xs = some o
  | [], _, _, _, h, _, _ => by simp at h
  | y :: ys, 0, x, o, h, ho, _ => by
    have : y = x := by simpa using h
    subst this
    simp [portWinner, ho]
  | y :: ys, i + 1, x, o, h, ho, hn => by
    have hy : offerOf c t y = none := hn 0 y (by omega) rfl
    simp only [portWinner, hy, Option.none_or]
    exact portWinner_first c t ys i x o (by simpa using h) ho
      (fun j z hj hz => hn (j + 1) z (by omega) (by simpa using hz))

theorem offer_eq {t : Nat} {s : Core n} {x : Input n} {k i : Nat} {o : Op n} :
    s.offer t x k i = some o ↔ ∃ us u, s.ports[k]? = some us ∧ us[i]? = some u ∧ offerOf x.c t u.cell = some o := by
  unfold Core.offer
  simp only [Option.bind_eq_some_iff]
  constructor
  · rintro ⟨u, ⟨us, h1, h2⟩, h3⟩; exact ⟨us, u, h1, h2, h3⟩
  · rintro ⟨us, u, h1, h2, h3⟩; exact ⟨u, ⟨us, h1, h2⟩, h3⟩

theorem mem_bypass {t : Nat} {s : Core n} {x : Input n} {o : Op n} :
    some o ∈ s.bypass t x ↔ ∃ k i, s.offer t x k i = some o := by
  unfold Core.bypass
  simp only [offer_eq, List.mem_map, List.mem_flatten]
  constructor
  · rintro ⟨u, ⟨us, hus, hu⟩, h⟩
    obtain ⟨k, hk⟩ := List.mem_iff_getElem?.1 hus
    obtain ⟨i, hi⟩ := List.mem_iff_getElem?.1 hu
    exact ⟨k, i, us, u, hk, hi, h⟩
  · rintro ⟨k, i, us, u, hk, hi, h⟩
    exact ⟨u, ⟨us, List.mem_of_getElem? hk, List.mem_of_getElem? hi⟩, h⟩

/-- What enters the register file for `p` comes from a broadcast or from the load/store unit. -/
theorem entry_src {opCsr alu t p : Nat} {s : Core n} {x : Input n} {o : Op n}
    (h : some o ∈ s.entry opCsr alu t x) (hw : Writes p o) (hl : ∀ o, some o ∈ x.lsu → ¬ Writes p o) :
    ∃ k i o', s.offer t x k i = some o' ∧ Writes p o' ∧ (o'.op ≠ opCsr → o = o') := by
  unfold Core.entry at h
  rcases List.mem_append.1 h with h | h
  · obtain ⟨us, hus, he⟩ := List.mem_map.1 h
    obtain ⟨k, hk⟩ := List.mem_iff_getElem?.1 (List.mem_of_mem_take hus)
    unfold aluEntry at he
    cases hwn : winner t x us with
    | none => rw [hwn] at he; cases he
    | some w =>
      rw [hwn] at he
      obtain ⟨i, c, hi, ho⟩ := portWinner_mem x.c t _ w hwn
      simp only [List.getElem?_map, Option.map_eq_some_iff] at hi
      obtain ⟨u, hu, rfl⟩ := hi
      refine ⟨k, i, w, offer_eq.2 ⟨us, u, hk, hu, ho⟩, ?_⟩
      simp only [Option.map_some, Option.filter_eq_some_iff, Option.some.injEq] at he
      obtain ⟨he, hd⟩ := he
      by_cases hcs : w.op = opCsr
      · rw [if_pos hcs] at he
        subst he
        exact ⟨hw, fun h => absurd hcs h⟩
      · rw [if_neg hcs] at he
        subst he
        exact ⟨hw, fun _ => rfl⟩
  · exact absurd hw (hl o h)

theorem step_port {opCsr alu t k : Nat} {s : Core n} {x : Input n} {us : List (Exu.Spec.Unit n)}
    (h : s.ports[k]? = some us) :
    (s.step opCsr alu t x).ports[k]? = some (portStep x.c t (x.inc k) us) := by
  simp [Core.step, List.getElem?_mapIdx, h]

/-- Facts carried along an availability derivation. -/
structure Facts (opCsr alu p : Nat) (v : BitVec 32) (t : Nat) (s : Core n) (x : Input n)
    (st : Option (Nat × Nat × Op n)) : Prop where
  reach : Core.Reach opCsr alu t s
  valid : s.Valid t x
  quiet : s.Quiet p (st.map (fun e => (e.1, e.2.1))) t x
  pending : ∀ k i o, st = some (k, i, o) → k < alu ∧ s.offer t x k i = some o ∧ Writes p o ∧
    o.result = v ∧ o.op ≠ opCsr
  done : st = none → s.reg.val p = v

theorem facts {opCsr alu p : Nat} {v : BitVec 32} {t : Nat} {s : Core n} {x : Input n}
    {st : Option (Nat × Nat × Op n)} (h : Core.Available opCsr alu p v t s x st) :
    Facts opCsr alu p v t s x st := by
  induction h with
  | first t s x k i o hr hv hk ho hw hres hop hq =>
    refine ⟨hr, hv, hq, ?_, by simp⟩
    rintro _ _ _ ⟨⟩
    exact ⟨hk, ho, hw, hres, hop⟩
  | keep t s x x' k i o _ hj hv' hc hq ih =>
    obtain ⟨hk, ho, hw, hres, hop⟩ := ih.pending k i o rfl
    refine ⟨Core.Reach.step t s x ih.reach ih.valid, hv', hq, ?_, by simp⟩
    rintro _ _ _ ⟨⟩
    refine ⟨hk, ?_, hw, hres, hop⟩
    obtain ⟨us, u, h1, h2, h3⟩ := offer_eq.1 ho
    have hp := step_port (opCsr := opCsr) (alu := alu) (t := t) (x := x) h1
    obtain ⟨incx, hgo⟩ := portGo_won x.c t (us.map (·.cell)) false (x.inc k) i u.cell (by simp [h2])
    have hn := unit_next h2 hgo
    refine offer_eq.2 ⟨_, _, hp, hn, ?_⟩
    refine offer_persists (core_port ih.reach k us h1) (ih.valid k us h1) (hv' k _ hp) h2 h3 hn ?_ hc
    obtain ⟨j, hji, hjo⟩ := hj
    obtain ⟨o', ho'⟩ := Option.isSome_iff_exists.1 hjo
    obtain ⟨us', u', h1', h2', h3'⟩ := offer_eq.1 ho'
    rw [h1] at h1'
    cases h1'
    refine ⟨u'.cell, ?_, by simp [h3']⟩
    refine List.mem_iff_getElem?.2 ⟨j, ?_⟩
    rw [List.getElem?_take, if_pos hji]
    simp [h2']
  | take t s x x' k i o _ hfirst hv' hq ih =>
    obtain ⟨hk, ho, hw, hres, hop⟩ := ih.pending k i o rfl
    refine ⟨Core.Reach.step t s x ih.reach ih.valid, hv', hq, by simp, fun _ => ?_⟩
    obtain ⟨us, u, h1, h2, h3⟩ := offer_eq.1 ho
    have hwin : winner t x us = some o := by
      refine portWinner_first x.c t _ i u.cell o (by simp [h2]) h3 ?_
      intro j y hj hy
      simp only [List.getElem?_map, Option.map_eq_some_iff] at hy
      obtain ⟨w, hw', rfl⟩ := hy
      cases hx : offerOf x.c t w.cell with
      | none => rfl
      | some z =>
        have := offer_eq.2 ⟨us, w, h1, hw', hx⟩
        rw [hfirst j hj] at this
        cases this
    have hmem : some o ∈ s.entry opCsr alu t x := by
      unfold Core.entry
      refine List.mem_append_left _ (List.mem_map.2 ⟨us, ?_, ?_⟩)
      · exact List.mem_iff_getElem?.2 ⟨k, by rw [List.getElem?_take, if_pos hk]; exact h1⟩
      · rw [hwin]
        have : o.destEn = true := hw.1
        simp [aluEntry, hop, Option.filter, this]
    have hlive := offer_live (core_port ih.reach k us h1) (ih.valid k us h1) h2 h3
    refine deliver_some ?_ hmem hw hlive
    intro o' ho' hw'
    obtain ⟨k', i', w, hof, hww, heq⟩ := entry_src ho' hw' ih.quiet.2
    have := ih.quiet.1 k' i' w hof hww
    simp only [Option.map_some, Option.some.injEq, Prod.mk.injEq] at this
    obtain ⟨rfl, rfl⟩ := this
    rw [ho] at hof
    cases hof
    rw [heq hop]
    exact hres
  | rest t s x x' _ hv' hq ih =>
    refine ⟨Core.Reach.step t s x ih.reach ih.valid, hv', hq, by simp, fun _ => ?_⟩
    show deliver x.c p (s.reg.val p) (s.entry opCsr alu t x) = v
    rw [deliver_none, ih.done rfl]
    intro o ho hw
    obtain ⟨k', i', w, hof, hww, _⟩ := entry_src ho hw ih.quiet.2
    have := ih.quiet.1 k' i' w hof hww
    simp at this

theorem available_read {opCsr alu p : Nat} {v : BitVec 32} {t : Nat} {s : Core n} {x : Input n}
    {st : Option (Nat × Nat × Op n)} (hp : p ≠ 0) (h : Core.Available opCsr alu p v t s x st) :
    readOperand p true s.reg.prf (s.bypass t x) = v := by
  have hf := facts h
  show bypRead p _ _ = v
  cases st with
  | none =>
    rw [bypRead_none, inv_val (core_reg hf.reach) p hp, hf.done rfl]
    intro o ho hw
    obtain ⟨k, i, hki⟩ := mem_bypass.1 ho
    have := hf.quiet.1 k i o hki hw
    simp at this
  | some e =>
    obtain ⟨k, i, o⟩ := e
    obtain ⟨hk, ho, hw, hres, hop⟩ := hf.pending k i o rfl
    refine bypRead_some ?_ (mem_bypass.2 ⟨k, i, ho⟩) hw
    intro o' ho' hw'
    obtain ⟨k', i', hki⟩ := mem_bypass.1 ho'
    have := hf.quiet.1 k' i' o' hki hw'
    simp only [Option.map_some, Option.some.injEq, Prod.mk.injEq] at this
    obtain ⟨rfl, rfl⟩ := this
    rw [ho] at hki
    cases hki
    exact hres

end Verif.Prf.Proofs

import Verif.Spec.Waker
/-
The wake-up registers as a set of pending announcements: register, branch mask, cycles to go.
-/
namespace Verif.WakerProofs
open Verif.Waker
open Verif.Wake (Entry alloc allocAll settleSlot tick iterNext mulNext iterDue mulDue)

variable {n : Nat}

theorem alloc_mem {e : Entry n} : ∀ {ss ss' : List (Option (Entry n))}, alloc e ss = some ss' → ∀ x, some x ∈ ss' ↔ some x ∈ ss ∨ x = e
  | [], _, h, _ => by cases h
  | none :: ss, ss', h, x => by
    have : ss' = some e :: ss := by simpa [alloc] using h.symm
    rw [this]
    simp only [List.mem_cons, Option.some.injEq, reduceCtorEq, false_or]
    exact or_comm
  | some y :: ss, ss', h, x => by
    rw [alloc, Option.map_eq_some_iff] at h
    obtain ⟨t, ht, rfl⟩ := h
    have := alloc_mem ht x
    simp only [List.mem_cons, this, or_assoc]

theorem allocAll_mem {f : Exu.Op n → Entry n} : ∀ {l : List (Exu.Op n)} {ss ss' : List (Option (Entry n))}, allocAll f l ss = some ss' →
    ∀ x, some x ∈ ss' ↔ some x ∈ ss ∨ ∃ o ∈ l, x = f o
  | [], ss, ss', h, x => by
    have : ss' = ss := by simpa [allocAll] using h.symm
    rw [this]; simp
  | o :: l, ss, ss', h, x => by
    rw [allocAll, Option.bind_eq_some_iff] at h
    obtain ⟨t, h1, h2⟩ := h
    rw [allocAll_mem h2 x, alloc_mem h1 x]
    simp only [List.mem_cons, exists_eq_or_imp, or_assoc]

/-- Not squashed in the cycle. -/
def alive (c : Exu.Ctl n) (b : BitVec n) : Bool := !c.flush && !(c.mispred && (b &&& c.mask != 0#n))

theorem settle_mem {c : Exu.Ctl n} {ss : List (Option (Entry n))} {x : Entry n} : some x ∈ ss.map (settleSlot c) ↔
    ∃ e, some e ∈ ss ∧ alive c e.brMask = true ∧ x = { e with brMask := e.brMask &&& ~~~c.clear } := by
  rw [List.mem_map]
  constructor
  · rintro ⟨o, ho, he⟩
    unfold settleSlot at he
    split at he
    · cases he
    · rename_i hf
      rw [Option.map_eq_some_iff] at he
      obtain ⟨e, h1, h2⟩ := he
      rw [Option.filter_eq_some_iff] at h1
      refine ⟨e, h1.1 ▸ ho, ?_, h2.symm⟩
      unfold alive
      rw [h1.2, Bool.and_true]; simpa using hf
  · rintro ⟨e, he, ha, rfl⟩
    refine ⟨some e, he, ?_⟩
    unfold alive at ha
    rw [Bool.and_eq_true, Bool.not_eq_true'] at ha
    unfold settleSlot
    rw [ha.1, if_neg (by simp), Option.filter_some, ha.2]; rfl

theorem tick_mem {ss : List (Option (Entry n))} {x : Entry n} : some x ∈ ss.map tick ↔ some { x with cd := x.cd + 1 } ∈ ss := by
  rw [List.mem_map]
  constructor
  · rintro ⟨o, ho, he⟩
    cases o with
    | none => cases he
    | some e =>
      simp only [tick] at he
      split at he
      · rename_i hc
        have : x = { e with cd := e.cd - 1 } := by simpa using he.symm
        subst this
        have : e.cd - 1 + 1 = e.cd := by omega
        simpa [this] using ho
      · cases he
  · intro h
    exact ⟨_, h, by simp [tick]⟩

/-- An announcement of register `p` for an instruction with branch mask `b`, `r` cycles from now. -/
def Pend (s : State n) (op : Fu.Uop) (p : Nat) (b : BitVec n) (r : Nat) : Prop :=
  match op with
  | .mul => ∃ d st, s.mul[d]? = some st ∧ (∃ e, some e ∈ st ∧ e.preg = p ∧ e.brMask = b) ∧ d + 1 + r = s.mul.length
  | .div => some ⟨r, p, b⟩ ∈ s.div
  | .fp => some ⟨r, p, b⟩ ∈ s.fp
  | _ => False

theorem iter_step {c : Exu.Ctl n} {l : List (Exu.Op n)} {ss ss' : List (Option (Entry n))} (h : iterNext c l ss = some ss') (r p : Nat)
    (b' : BitVec n) : some ⟨r, p, b'⟩ ∈ ss' ↔ ∃ b, alive c b = true ∧ b' = b &&& ~~~c.clear ∧
      (some ⟨r + 1, p, b⟩ ∈ ss ∨ ∃ o ∈ l, o.lat - 1 = r ∧ o.dest = p ∧ o.brMask = b) := by
  unfold iterNext at h
  rw [Option.map_eq_some_iff] at h
  obtain ⟨t, h1, rfl⟩ := h
  rw [settle_mem]
  constructor
  · rintro ⟨e, he, ha, hx⟩
    rw [allocAll_mem h1, tick_mem] at he
    obtain ⟨e1, e2, e3⟩ : r = e.cd ∧ p = e.preg ∧ b' = e.brMask &&& ~~~c.clear := by simpa using hx
    refine ⟨e.brMask, ha, e3, ?_⟩
    rcases he with he | ⟨o, ho, rfl⟩
    · left; rw [e1, e2]; exact he
    · exact .inr ⟨o, ho, e1.symm, e2.symm, rfl⟩
  · rintro ⟨b, ha, rfl, h⟩
    refine ⟨⟨r, p, b⟩, ?_, ha, rfl⟩
    rw [allocAll_mem h1, tick_mem]
    rcases h with h | ⟨o, ho, e1, e2, e3⟩
    · exact .inl h
    · exact .inr ⟨o, ho, by rw [e1, e2, e3]⟩

theorem mul_length {c : Exu.Ctl n} {l : List (Exu.Op n)} {ss ss' : List (List (Option (Entry n)))} (h : mulNext c l ss = some ss') :
    ss'.length = ss.length := by
  unfold mulNext at h
  split at h
  · cases h; rfl
  · rw [Option.map_eq_some_iff] at h
    obtain ⟨t, _, rfl⟩ := h
    simp

theorem mul_step {c : Exu.Ctl n} {l : List (Exu.Op n)} {ss ss' : List (List (Option (Entry n)))} (h : mulNext c l ss = some ss')
    (p : Nat) (b' : BitVec n) (d : Nat) (hd : d < ss.length) :
    (∃ st, ss'[d]? = some st ∧ ∃ e, some e ∈ st ∧ e.preg = p ∧ e.brMask = b') ↔ ∃ b, alive c b = true ∧ b' = b &&& ~~~c.clear ∧
      ((∃ j st, d = j + 1 ∧ ss[j]? = some st ∧ ∃ e, some e ∈ st ∧ e.preg = p ∧ e.brMask = b) ∨
        d = 0 ∧ ∃ o ∈ l, o.dest = p ∧ o.brMask = b) := by
  unfold mulNext at h
  split at h
  · simp at hd
  · rename_i s0 rest
    rw [Option.map_eq_some_iff] at h
    obtain ⟨t, h1, rfl⟩ := h
    have hm : ∀ e : Entry n, some e ∈ t ↔ ∃ o ∈ l, e = ⟨0, o.dest, o.brMask⟩ := by
      intro e
      rw [allocAll_mem h1]
      constructor
      · rintro (h | h)
        · have := (List.mem_replicate.1 h).2; cases this
        · exact h
      · exact .inr
    rw [List.getElem?_map]
    constructor
    · rintro ⟨st, hst, e', he', rfl, rfl⟩
      obtain ⟨st0, h0, rfl⟩ := Option.map_eq_some_iff.1 hst
      obtain ⟨e, he, ha, rfl⟩ := settle_mem.1 he'
      refine ⟨e.brMask, ha, rfl, ?_⟩
      cases d with
      | zero =>
        have : t = st0 := by simpa using h0
        subst this
        obtain ⟨o, ho, rfl⟩ := (hm e).1 he
        exact .inr ⟨rfl, o, ho, rfl, rfl⟩
      | succ j =>
        rw [List.getElem?_cons_succ, List.getElem?_dropLast] at h0
        split at h0
        · exact .inl ⟨j, st0, rfl, h0, e, he, rfl, rfl⟩
        · cases h0
    · rintro ⟨b, ha, rfl, h⟩
      rcases h with ⟨j, st, rfl, hj, e, he, rfl, rfl⟩ | ⟨rfl, o, ho, rfl, rfl⟩
      · refine ⟨st.map (settleSlot c), ?_, _, settle_mem.2 ⟨e, he, ha, rfl⟩, rfl, rfl⟩
        rw [List.getElem?_cons_succ, List.getElem?_dropLast, if_pos (by omega), hj]; rfl
      · exact ⟨t.map (settleSlot c), by simp, _, settle_mem.2 ⟨_, (hm _).2 ⟨o, ho, rfl⟩, ha, rfl⟩, rfl, rfl⟩

theorem iterDue_mem {ss : List (Option (Entry n))} {p : Nat} : p ∈ (iterDue ss).map (·.2) ↔ ∃ b, some ⟨0, p, b⟩ ∈ ss := by
  unfold iterDue
  simp only [List.mem_map, List.mem_filterMap]
  constructor
  · rintro ⟨⟨i, q⟩, ⟨⟨o, j⟩, ho, he⟩, rfl⟩
    have ho := List.mem_zipIdx_iff_getElem?.1 ho
    cases o with
    | none => cases he
    | some e =>
      simp only at he
      split at he
      · rename_i hc
        obtain ⟨rfl, rfl⟩ : j = i ∧ e.preg = q := by simpa using he
        exact ⟨e.brMask, by rw [← hc]; exact List.mem_of_getElem? ho⟩
      · cases he
  · rintro ⟨b, hb⟩
    obtain ⟨i, hi⟩ := List.mem_iff_getElem?.1 hb
    exact ⟨(i, p), ⟨(some ⟨0, p, b⟩, i), List.mem_zipIdx_iff_getElem?.2 hi, by simp⟩, rfl⟩

theorem mulDue_mem {ss : List (List (Option (Entry n)))} {p : Nat} : p ∈ (mulDue ss).map (·.2) ↔
    ∃ d st, ss[d]? = some st ∧ (∃ e, some e ∈ st ∧ e.preg = p) ∧ d + 1 = ss.length := by
  have hx : p ∈ (mulDue ss).map (·.2) ↔ ∃ e, some e ∈ ss.getLast?.getD [] ∧ e.preg = p := by
    unfold mulDue
    simp only [List.mem_map, List.mem_filterMap]
    constructor
    · rintro ⟨⟨i, q⟩, ⟨⟨o, j⟩, ho, he⟩, rfl⟩
      have ho := List.mem_zipIdx_iff_getElem?.1 ho
      obtain ⟨e, rfl, h2⟩ := Option.map_eq_some_iff.1 he
      obtain ⟨rfl, rfl⟩ : j = i ∧ e.preg = q := by simpa using h2
      exact ⟨e, List.mem_of_getElem? ho, rfl⟩
    · rintro ⟨e, he, rfl⟩
      obtain ⟨i, hi⟩ := List.mem_iff_getElem?.1 he
      exact ⟨(i, e.preg), ⟨(some e, i), List.mem_zipIdx_iff_getElem?.2 hi, by simp⟩, rfl⟩
  rw [hx, List.getLast?_eq_getElem?]
  constructor
  · rintro ⟨e, he, hp⟩
    cases hg : ss[ss.length - 1]? with
    | none => rw [hg] at he; cases he
    | some st =>
      rw [hg] at he
      have := (List.getElem?_eq_some_iff.1 hg).1
      exact ⟨_, st, hg, ⟨e, he, hp⟩, by omega⟩
  · rintro ⟨d, st, hd, ⟨e, he, hp⟩, hl⟩
    rw [show ss.length - 1 = d from by omega, hd]
    exact ⟨e, he, hp⟩

theorem due_mem {s : State n} {p : Nat} : p ∈ due s ↔ ∃ op b, Pend s op p b 0 := by
  unfold due
  rw [List.map_append, List.map_append, List.mem_append, List.mem_append, iterDue_mem, iterDue_mem, mulDue_mem]
  constructor
  · rintro ((⟨b, h⟩ | ⟨b, h⟩) | ⟨d, st, h1, ⟨e, he, hp⟩, h3⟩)
    · exact ⟨.div, b, h⟩
    · exact ⟨.fp, b, h⟩
    · exact ⟨.mul, e.brMask, d, st, h1, ⟨e, he, hp, rfl⟩, h3⟩
  · rintro ⟨op, b, h⟩
    cases op with
    | mul => obtain ⟨d, st, h1, ⟨e, he, hp, _⟩, h3⟩ := h; exact .inr ⟨d, st, h1, ⟨e, he, hp⟩, h3⟩
    | div => exact .inl (.inl ⟨b, h⟩)
    | fp => exact .inl (.inr ⟨b, h⟩)
    | _ => cases h

/-- The operation goes to the wake-up registers. -/
def isLate (k : Cfg) (o : Issue n) : Prop :=
  o.mop.inst.destEn = true ∧ 1 < latency k o.mop

theorem late_mem {k : Cfg} {s : State n} {c : Cyc n} {op : Fu.Uop} {x : Exu.Op n} : x ∈ late k s c op →
    ∃ o ∈ issues k s c, isLate k o ∧ o.mop.op = op ∧ x.lat = latency k o.mop ∧ x.dest = dest s o ∧ x.brMask = o.uop.brMask := by
  intro h
  obtain ⟨o, ho, rfl⟩ := List.mem_map.1 h
  obtain ⟨h1, h2⟩ := List.mem_filter.1 ho
  simp only [Bool.and_eq_true, decide_eq_true_eq] at h2
  exact ⟨o, h1, ⟨h2.1.1, h2.1.2⟩, h2.2, rfl, rfl, rfl⟩

theorem late_of {k : Cfg} {s : State n} {c : Cyc n} {o : Issue n} (ho : o ∈ issues k s c) (hl : isLate k o) :
    ∃ x ∈ late k s c o.mop.op, x.lat = latency k o.mop ∧ x.dest = dest s o ∧ x.brMask = o.uop.brMask :=
  ⟨_, List.mem_map.2 ⟨o, List.mem_filter.2 ⟨ho, by simp [hl.1, hl.2]⟩, rfl⟩, rfl, rfl, rfl⟩

section
variable {k : Cfg} {s s' : State n} {c : Cyc n}

theorem step_some (h : Waker.step k s c = some s') : ∃ ws, wakes k s c = some ws ∧ Sched.step k.sc s.sc (cyc c ws) = some s'.sc ∧
    mulNext (ctl k s c) (late k s c .mul) s.mul = some s'.mul ∧ iterNext (ctl k s c) (late k s c .div) s.div = some s'.div ∧
    iterNext (ctl k s c) (late k s c .fp) s.fp = some s'.fp ∧ ∀ u, s'.since u =
      if (issues k s c).any fun o => o.uop.id == u && o.mop.inst.destEn then 1 else if s.since u = 0 then 0 else s.since u + 1 := by
  unfold Waker.step at h
  simp only [Option.bind_eq_some_iff, Option.map_eq_some_iff] at h
  obtain ⟨ws, h1, t, h2, mul, h3, div, h4, fp, h5, rfl⟩ := h
  exact ⟨ws, h1, h2, h3, h4, h5, fun _ => rfl⟩

theorem wakes_mem {ws : List Nat} (h : wakes k s c = some ws) (p : Nat) :
    p ∈ ws ↔ p ∈ c.slow ∨ (∃ op b, Pend s op p b 0) ∨ p ∈ fast k s c := by
  unfold wakes at h
  split at h
  · cases h
  · cases h
    rw [List.mem_append, List.mem_append, due_mem, or_assoc]

/-- The pending announcements after a cycle. -/
theorem pend_step (h : Waker.step k s c = some s') (hlen : s.mul.length = k.mulLat - 1) (op : Fu.Uop) (p : Nat) (b' : BitVec n) (r : Nat) :
    Pend s' op p b' r ↔ ∃ b, alive (ctl k s c) b = true ∧ b' = b &&& ~~~(ctl k s c).clear ∧ (Pend s op p b (r + 1) ∨
      ∃ o ∈ issues k s c, isLate k o ∧ o.mop.op = op ∧ dest s o = p ∧ o.uop.brMask = b ∧ r + 1 = delay k o.mop) := by
  obtain ⟨ws, _, _, hm, hd, hf, _⟩ := step_some h
  have hdel : ∀ o : Issue n, isLate k o → o.mop.op ≠ .mul → delay k o.mop = latency k o.mop := by
    intro o ho hn
    have := ho.2
    unfold delay; rw [if_neg (by omega), if_neg hn]
  have hop : ∀ o : Issue n, isLate k o → o.mop.op = .mul ∨ o.mop.op = .div ∨ o.mop.op = .fp := by
    intro o ho
    have := ho.2
    unfold latency at this
    split at this <;> simp_all
  cases op with
  | div =>
    show some (⟨r, p, b'⟩ : Entry n) ∈ s'.div ↔ _
    rw [iter_step hd]
    refine exists_congr fun b => and_congr_right fun _ => and_congr_right fun _ => or_congr Iff.rfl ?_
    constructor
    · rintro ⟨x, hx, rfl, rfl, rfl⟩
      obtain ⟨o, h1, h2, h3, h4, h5, h6⟩ := late_mem hx
      have := h2.2
      refine ⟨o, h1, h2, h3, h5.symm, h6.symm, ?_⟩
      rw [hdel o h2 (by rw [h3]; simp), h4]; omega
    · rintro ⟨o, h1, h2, h3, rfl, rfl, h6⟩
      obtain ⟨x, hx, x1, x2, x3⟩ := late_of h1 h2
      rw [h3] at hx
      rw [hdel o h2 (by rw [h3]; simp)] at h6
      exact ⟨x, hx, by omega, x2, x3⟩
  | fp =>
    show some (⟨r, p, b'⟩ : Entry n) ∈ s'.fp ↔ _
    rw [iter_step hf]
    refine exists_congr fun b => and_congr_right fun _ => and_congr_right fun _ => or_congr Iff.rfl ?_
    constructor
    · rintro ⟨x, hx, rfl, rfl, rfl⟩
      obtain ⟨o, h1, h2, h3, h4, h5, h6⟩ := late_mem hx
      have := h2.2
      refine ⟨o, h1, h2, h3, h5.symm, h6.symm, ?_⟩
      rw [hdel o h2 (by rw [h3]; simp), h4]; omega
    · rintro ⟨o, h1, h2, h3, rfl, rfl, h6⟩
      obtain ⟨x, hx, x1, x2, x3⟩ := late_of h1 h2
      rw [h3] at hx
      rw [hdel o h2 (by rw [h3]; simp)] at h6
      exact ⟨x, hx, by omega, x2, x3⟩
  | mul =>
    have hl' := mul_length hm
    have hmd : ∀ o : Issue n, isLate k o → o.mop.op = .mul → delay k o.mop = s.mul.length ∧ 0 < s.mul.length := by
      intro o ho he
      have := ho.2
      have hk : latency k o.mop = k.mulLat := by unfold latency; rw [he]
      unfold delay
      rw [if_neg (by omega), if_pos he, hlen, hk]
      exact ⟨rfl, by omega⟩
    constructor
    · rintro ⟨d, st, h1, h2, h3⟩
      rw [hl'] at h3
      obtain ⟨b, ha, hb, h⟩ := (mul_step hm p b' d (by omega)).1 ⟨st, h1, h2⟩
      refine ⟨b, ha, hb, ?_⟩
      rcases h with ⟨j, st', rfl, hj, he⟩ | ⟨rfl, x, hx, rfl, rfl⟩
      · exact .inl ⟨j, st', hj, he, by omega⟩
      · obtain ⟨o, h4, h5, h6, _, h7, h8⟩ := late_mem hx
        refine .inr ⟨o, h4, h5, h6, h7.symm, h8.symm, ?_⟩
        rw [(hmd o h5 h6).1]; omega
    · rintro ⟨b, ha, hb, h⟩
      rcases h with ⟨j, st', hj, he, hx⟩ | ⟨o, h1, h2, h3, h4, h5, h6⟩
      · obtain ⟨st, h1, h2⟩ := (mul_step hm p b' (j + 1) (by omega)).2 ⟨b, ha, hb, .inl ⟨j, st', rfl, hj, he⟩⟩
        exact ⟨j + 1, st, h1, h2, by omega⟩
      · obtain ⟨x, hx, _, x2, x3⟩ := late_of h1 h2
        rw [h3] at hx
        obtain ⟨e1, e2⟩ := hmd o h2 h3
        obtain ⟨st, g1, g2⟩ := (mul_step hm p b' 0 e2).2 ⟨b, ha, hb, .inr ⟨rfl, x, hx, x2.trans h4, x3.trans h5⟩⟩
        exact ⟨0, st, g1, g2, by omega⟩
  | _ =>
    constructor
    · intro h; cases h
    · rintro ⟨b, _, _, h | ⟨o, _, h2, h3, _⟩⟩
      · cases h
      · rcases hop o h2 with e | e | e <;> rw [h3] at e <;> cases e

end

end Verif.WakerProofs

import Verif.Proofs.LsuListStep2

/-
Waiting lists of the load/store unit: the invariant holds in every reachable state.
-/
namespace Verif.LsuList

open Verif.Ring

attribute [local grind] okWm okSq okWd okFin flying

theorem nAlloc_congr {c : Cfg} {s s' : LS} (h : ∀ l, s'.st l = .allocated ↔ s.st l = .allocated) : s'.nAlloc c = s.nAlloc c := by
  unfold LS.nAlloc
  congr 1
  funext l
  exact decide_eq_decide.mpr (h l)

theorem nAlloc_le {c : Cfg} {s s' : LS} (h : ∀ l, s'.st l = .allocated → s.st l = .allocated) : s'.nAlloc c ≤ s.nAlloc c := by
  unfold LS.nAlloc
  apply List.countP_mono_left
  intro l _ hl
  simp only [decide_eq_true_eq] at hl ⊢
  exact h l hl

/-! ### Dispatch -/

theorem allocs_ok {c : Cfg} : ∀ (ls : List Nat) {s : LS}, Inv c s [] → ls.Nodup → (∀ l ∈ ls, s.st l = .empty ∧ l < c.n) →
    ∃ s', allocs s ls = some s' ∧ Inv c s' [] ∧ s'.nAlloc c = s.nAlloc c + ls.length ∧ s'.wm = s.wm ∧ s'.wd = s.wd ∧
      ∀ j, s'.st j = if j ∈ ls then .allocated else s.st j
  | [], s, h, _, _ => ⟨s, rfl, h, rfl, rfl, rfl, fun j => by simp⟩
  | l :: ls, s, h, hn, hl => by
    rw [List.nodup_cons] at hn
    obtain ⟨he, hlt⟩ := hl l (by simp)
    have hi : Inv c (s.set l .allocated) [] := by
      obtain ⟨a1, a2, a3, a4, b1, b2, b3, b4, b5, b6, b7, b8, b9, b10, b11⟩ := h
      unfold LS.set
      refine ⟨a1, a2, a3, a4, ?_, ?_, ?_, ?_, by simp, b6, ?_, ?_, b9, b10, ?_⟩
      all_goals dsimp only
      all_goals grind
    have hcnt : (s.set l .allocated).nAlloc c = s.nAlloc c + 1 := by
      have := countP_flip (p := fun j => decide ((s.set l .allocated).st j = .allocated)) (p' := fun j => decide (s.st j = .allocated))
        (l := l) (by simp [LS.set, upd_apply]) (by simp [he]) (by intro j hj; simp [LS.set, upd_apply, hj]) c.n
      rw [if_pos hlt] at this
      exact this.symm
    obtain ⟨s', h1, h2, h3, h4, h5, h6⟩ := allocs_ok ls hi hn.2 (by
      intro j hj
      have := hl j (by simp [hj])
      refine ⟨?_, this.2⟩
      simp only [LS.set, upd_apply]
      rw [if_neg (by rintro rfl; exact hn.1 hj)]
      exact this.1)
    refine ⟨s', ?_, h2, ?_, h4, h5, ?_⟩
    · rw [allocs, if_pos he]; exact h1
    · rw [h3, hcnt, List.length_cons]; omega
    · intro j
      rw [h6]
      simp only [LS.set, upd_apply, List.mem_cons]
      by_cases h1 : j ∈ ls
      · simp [h1]
      · by_cases h2 : j = l <;> simp [h1, h2]

/-! ### Recovery -/

theorem flush_ok {c : Cfg} {s : LS} (h : Inv c s []) (keep : Bool) : Inv c (flush s keep) [] := by
  have m1 := s.wm.clear_mem
  have m2 := s.sq.clear_mem
  have m3 := s.wd.clear_mem
  have m4 := s.fin.clear_mem
  refine ⟨Q.clear_wf h.wm, Q.clear_wf h.sq, Q.clear_wf h.wd, Q.clear_wf h.fin, ?_, ?_, ?_, ?_, by simp, by simp, ?_, ?_, ?_, ?_, ?_⟩
  all_goals dsimp only [flush]
  case refine_5 =>
    intro l hl
    split at hl <;> simp at hl
  case refine_6 => intro l hl; simp [flying] at hl
  case refine_9 => intro l hl; simp at hl
  all_goals
    intro l hl
    first
      | exact absurd hl (m1 l)
      | exact absurd hl (m2 l)
      | exact absurd hl (m3 l)
      | exact absurd hl (m4 l)

theorem mispred_ok {c : Cfg} {s : LS} (h : Inv c s []) (kill : Nat → Bool) (drop : Bool) : Inv c (mispred c s kill drop) [] := by
  unfold mispred
  generalize hst : (fun l => if l < c.n ∧ s.st l ≠ .empty ∧ kill l = true then LSt.empty else s.st l) = st
  have h1 : ∀ l, st l ≠ .empty → st l = s.st l := by
    intro l; rw [← hst]; dsimp only; split <;> simp
  have e1 := Q.prune_mem h.wm st
  have e2 := Q.prune_mem h.sq st
  have e3 := Q.prune_mem h.wd st
  have e4 := Q.prune_mem h.fin st
  have w1 := Q.prune_wf h.wm st
  have w2 := Q.prune_wf h.sq st
  have w3 := Q.prune_wf h.wd st
  have w4 := Q.prune_wf h.fin st
  clear hst
  obtain ⟨a1, a2, a3, a4, b1, b2, b3, b4, b5, b6, b7, b8, b9, b10, b11⟩ := h
  refine ⟨w1, w2, w3, w4, ?_, ?_, ?_, ?_, by simp, b6, ?_, ?_, ?_, ?_, ?_⟩
  all_goals dsimp only [pruneAll]
  case refine_5 =>
    intro l hl
    cases hu : s.unc with
    | free => rw [hu] at hl; simp at hl
    | store => rw [hu] at hl; simp only at hl; split at hl <;> simp at hl
    | load j =>
      rw [hu] at hl
      simp only at hl
      split at hl
      · simp at hl
      · next hne =>
        have : j = l := by simpa using hl
        subst this
        rw [h1 _ hne]; exact b7 _ hu
  case refine_6 =>
    intro l hl
    have hne : st l ≠ .empty := by intro e; rw [e] at hl; simp [flying] at hl
    rw [h1 l hne] at hl
    rcases b8 l hl with h | h | h | h | h | h
    · exact .inl ((e1 l).mpr ⟨h, hne⟩)
    · exact .inr (.inl ((e2 l).mpr ⟨h, hne⟩))
    · exact .inr (.inr (.inl ((e3 l).mpr ⟨h, hne⟩)))
    · exact .inr (.inr (.inr (.inl ((e4 l).mpr ⟨h, hne⟩))))
    · simp at h
    · refine .inr (.inr (.inr (.inr (.inr ?_))))
      rw [h]; simp only; rw [if_neg hne]
  all_goals grind

theorem recover_ok {c : Cfg} {s : LS} (h : Inv c s []) (x : In) :
    Inv c (recover c s x) [] ∧ (∀ l, (recover c s x).st l = s.st l ∨ (recover c s x).st l = .empty) ∧
      (recover c s x).wm.count ≤ s.wm.count := by
  have f : ∀ s : LS, Inv c s [] → ∀ k : (Nat → Bool) × Bool, Inv c (mispred c s k.1 k.2) [] ∧
      (∀ l, (mispred c s k.1 k.2).st l = s.st l ∨ (mispred c s k.1 k.2).st l = .empty) ∧
      (mispred c s k.1 k.2).wm.count ≤ s.wm.count := by
    intro s h k
    refine ⟨mispred_ok h _ _, ?_, Nat.le_refl _⟩
    intro l
    simp only [mispred, pruneAll]
    split
    · exact .inr rfl
    · exact .inl rfl
  unfold recover
  dsimp only
  cases x.flush with
  | none =>
    cases x.kill with
    | none => exact ⟨h, fun l => .inl rfl, Nat.le_refl _⟩
    | some k => exact f s h k
  | some keep =>
    have g := flush_ok h keep
    cases x.kill with
    | none => exact ⟨g, fun l => .inr rfl, Nat.zero_le _⟩
    | some k =>
      obtain ⟨r1, r2, r3⟩ := f _ g k
      refine ⟨r1, fun l => .inr ?_, Nat.le_trans r3 (Nat.zero_le _)⟩
      rcases r2 l with e | e
      · rw [e]; rfl
      · exact e

/-! ### Issue -/

theorem idSlot_req {c : Cfg} {p g : Nat} (hp : p < 2 ^ c.iw) : idSlot c (reqId c p g) = p := by
  unfold idSlot reqId
  rw [Nat.mod_eq_of_lt hp, Nat.mul_comm, Nat.mul_add_mod, Nat.mod_eq_of_lt hp]

theorem idGen_req {c : Cfg} {p g : Nat} (hp : p < 2 ^ c.iw) : idGen c (reqId c p g) = normGen c g := by
  unfold idGen reqId
  rw [Nat.mod_eq_of_lt hp, Nat.mul_comm, Nat.mul_add_div (Nat.two_pow_pos _), Nat.div_eq_of_lt hp, Nat.add_zero]
  unfold normGen
  rw [Nat.mod_mod]

theorem reqId_lt {c : Cfg} (hw : c.iw ≤ 31) (p g : Nat) : reqId c p g < 2 ^ 31 := by
  unfold reqId normGen
  have h1 := Nat.mod_lt g (Nat.two_pow_pos (31 - c.iw))
  have h2 := Nat.mod_lt p (Nat.two_pow_pos c.iw)
  have h3 : 2 ^ (31 - c.iw) * 2 ^ c.iw = 2 ^ 31 := by rw [← Nat.pow_add]; congr 1; omega
  have h4 : (g % 2 ^ (31 - c.iw) + 1) * 2 ^ c.iw ≤ 2 ^ (31 - c.iw) * 2 ^ c.iw := Nat.mul_le_mul_right _ h1
  rw [Nat.add_mul, Nat.one_mul, h3] at h4
  omega

/-- Sizes: the index of a slot fits its field. -/
structure Cfg.Ok (c : Cfg) : Prop where
  pos : 0 < c.n
  fits : c.n ≤ 2 ^ c.iw
  w : c.iw ≤ 31

theorem issueOne_ok {c : Cfg} (hc : c.Ok) {a : LS × List (Nat × Nat)} (h : Inv c a.1 []) (hp : PendOk c a.1 a.2) (i : Nat) :
    Inv c (issueOne c a i).1 [] ∧ PendOk c (issueOne c a i).1 (issueOne c a i).2 ∧
      (∀ l, (issueOne c a i).1.st l = .allocated ↔ a.1.st l = .allocated) ∧ (issueOne c a i).1.wm = a.1.wm := by
  obtain ⟨s, out⟩ := a
  dsimp only at h hp
  unfold issueOne
  dsimp only
  split
  · exact ⟨h, hp, fun _ => Iff.rfl, rfl⟩
  · split
    · exact ⟨h, hp, fun _ => Iff.rfl, rfl⟩
    · next l hl =>
      split
      · exact ⟨h, hp, fun _ => Iff.rfl, rfl⟩
      · next hst =>
        have hst : s.st l = .readyToIssue := Classical.not_not.mp hst
        split
        · obtain ⟨a1, a2, a3, a4, b1, b2, b3, b4, b5, b6, b7, b8, b9, b10, b11⟩ := h
          exact ⟨⟨a1, a2, a3, a4, b1, b2, b3, b4, b5, b6, b7, b8, b9, b10, b11⟩, ⟨hp.ent, hp.nodup, hp.all⟩, fun _ => Iff.rfl, rfl⟩
        · have hpl : (s.wd.head + i) % c.n < 2 ^ c.iw := Nat.lt_of_lt_of_le (Nat.mod_lt _ hc.pos) hc.fits
          have hi : Inv c (s.set l .waitDcacheResp) [] := by
            apply set_same h
            all_goals try rw [hst]
            all_goals simp [okWm, okSq, okWd, okFin, flying]
          have hnot : ∀ q ∈ out, q.2 ≠ l := by
            intro q hq e
            have := (hp.ent q hq).2.2.2
            rw [e, hst] at this; exact absurd this (by decide)
          refine ⟨?_, ⟨?_, ?_, ?_⟩, ?_, rfl⟩
          · obtain ⟨a1, a2, a3, a4, b1, b2, b3, b4, b5, b6, b7, b8, b9, b10, b11⟩ := hi
            exact ⟨a1, a2, a3, a4, b1, b2, b3, b4, b5, b6, b7, b8, b9, b10, b11⟩
          · intro q hq
            rw [List.mem_append, List.mem_singleton] at hq
            rcases hq with hq | rfl
            · obtain ⟨i1, i2, i3, i4⟩ := hp.ent q hq
              have hne := hnot q hq
              refine ⟨i1, i2, ?_, ?_⟩
              · dsimp only
                rw [upd_apply, if_neg ?_]
                · exact i3
                · intro e
                  rw [e, hl] at i2
                  exact hne (Option.some.inj i2).symm
              · dsimp only [LS.set]
                rw [upd_apply, if_neg hne]; exact i4
            · refine ⟨reqId_lt hc.w _ _, ?_, ?_, ?_⟩
              · rw [idSlot_req hpl]; exact hl
              · dsimp only
                rw [idSlot_req hpl, idGen_req hpl, upd_apply, if_pos rfl]
                unfold normGen; rw [Nat.mod_mod]
              · simp [LS.set, upd_apply]
          · rw [List.map_append, List.nodup_append]
            refine ⟨hp.nodup, by simp, ?_⟩
            intro a ha b hb e
            simp only [List.map_cons, List.map_nil, List.mem_singleton] at hb
            subst hb; subst e
            obtain ⟨q, hq, e⟩ := List.mem_map.mp ha
            exact hnot q hq e
          · intro j hj
            simp only [LS.set, upd_apply] at hj
            by_cases e : j = l
            · subst e; exact ⟨_, by rw [List.mem_append]; exact .inr (List.mem_singleton.mpr rfl)⟩
            · rw [if_neg e] at hj
              obtain ⟨id, hid⟩ := hp.all j hj
              exact ⟨id, by simp [hid]⟩
          · intro j
            simp only [LS.set, upd_apply]
            by_cases e : j = l
            · subst e; simp [hst]
            · rw [if_neg e]

theorem issue_ok {c : Cfg} (hc : c.Ok) {s : LS} (h : Inv c s []) (hn : ∀ l, s.st l ≠ .waitDcacheResp) :
    Inv c (issue c s).1 [] ∧ PendOk c (issue c s).1 (issue c s).2 ∧
      (∀ l, (issue c s).1.st l = .allocated ↔ s.st l = .allocated) ∧ (issue c s).1.wm = s.wm := by
  have := foldl_inv (f := issueOne c)
    (P := fun b => Inv c b.1 [] ∧ PendOk c b.1 b.2 ∧ (∀ l, b.1.st l = .allocated ↔ s.st l = .allocated) ∧ b.1.wm = s.wm)
    (fun b i ⟨h1, h2, h3, h4⟩ => let g := issueOne_ok hc h1 h2 i
      ⟨g.1, g.2.1, fun l => (g.2.2.1 l).trans (h3 l), g.2.2.2.trans h4⟩)
    (List.range (min s.wd.count c.win)) (s, [])
    ⟨h, ⟨fun q hq => by simp at hq, by simp, fun l hl => absurd hl (hn l)⟩, fun _ => Iff.rfl, rfl⟩
  unfold issue
  dsimp only
  obtain ⟨⟨a1, a2, a3, a4, b1, b2, b3, b4, b5, b6, b7, b8, b9, b10, b11⟩, h2, h3, h4⟩ := this
  exact ⟨⟨a1, a2, a3, a4, b1, b2, b3, b4, b5, b6, b7, b8, b9, b10, b11⟩, ⟨h2.ent, h2.nodup, h2.all⟩, h3, h4⟩

/-! ### A cycle -/

structure SysInv (c : Cfg) (y : Sys) : Prop where
  inv : Inv c y.s []
  pend : PendOk c y.s y.pend
  credit : y.s.nAlloc c + y.s.wm.count ≤ c.n

theorem init_ok {c : Cfg} (hc : c.Ok) : SysInv c Sys.init := by
  refine ⟨⟨Q.init_wf hc.pos, Q.init_wf hc.pos, Q.init_wf hc.pos, Q.init_wf hc.pos, ?_, ?_, ?_, ?_, by simp, by simp, ?_, ?_, ?_, ?_, ?_⟩,
    ⟨?_, ?_, ?_⟩, ?_⟩
  all_goals simp only [Sys.init, LS.init]
  case refine_13 =>
    have : (List.range c.n).countP (fun _ => decide (LSt.empty = .allocated)) = 0 := by
      rw [List.countP_eq_zero]; simp
    show (List.range c.n).countP (fun _ => decide (LSt.empty = .allocated)) + 0 ≤ c.n
    omega
  all_goals first
    | (intro l hl; first | exact absurd hl (Q.init_mem l) | simp [flying] at hl | simp at hl)
    | simp

/-- What dispatch is offered. -/
theorem offer_ok {c : Cfg} {s : LS} {width : Nat} (h : s.nAlloc c + s.wm.count ≤ c.n) (hn : c.n < 2 ^ 32) :
    (s.offer c width).Nodup ∧ (∀ l ∈ s.offer c width, s.st l = .empty ∧ l < c.n) ∧
      s.nAlloc c + s.wm.count + (s.offer c width).length ≤ c.n := by
  have hmod : (2 ^ 32 + c.n - s.nAlloc c - s.wm.count) % 2 ^ 32 = c.n - s.nAlloc c - s.wm.count := by
    rw [show 2 ^ 32 + c.n - s.nAlloc c - s.wm.count = 2 ^ 32 + (c.n - s.nAlloc c - s.wm.count) by omega, Nat.add_mod_left,
      Nat.mod_eq_of_lt (by omega)]
  unfold LS.offer
  dsimp only
  rw [hmod]
  refine ⟨?_, ?_, ?_⟩
  · exact ((List.nodup_range (n := c.n)).filter _).sublist (List.take_sublist _ _)
  · intro l hl
    have := List.mem_of_mem_take hl
    rw [List.mem_filter, List.mem_range, decide_eq_true_eq] at this
    exact ⟨this.2, this.1⟩
  · rw [List.length_take]; omega

theorem Le.fly {c : Cfg} {s s' : LS} (h : Le c s s') (l : Nat) : flying (s'.st l) = flying (s.st l) := by
  have h1 := h.e l
  have h2 := h.al l
  cases e : s.st l <;> cases e' : s'.st l <;> simp_all [flying]

/-- The part of a cycle before the recovery never fails, keeps the invariant, and leaves no request unanswered. -/
theorem front_ok {c : Cfg} {width : Nat} (hn : c.n < 2 ^ 32) {y : Sys} (h : SysInv c y) {x : In} (hv : Valid c width y x) :
    ∃ r, front c y.s x = some r ∧ Inv c r.1 [] ∧ (∀ l, r.1.st l ≠ .waitDcacheResp) ∧ r.1.nAlloc c + r.1.wm.count ≤ c.n ∧
      r.2.Nodup ∧
      (∀ l, y.s.st l = .empty → r.1.st l = if l ∈ x.alloc then .allocated else .empty) ∧
      (∀ l, y.s.st l = .allocated → if l ∈ x.reqs then flying (r.1.st l) = true else r.1.st l = .allocated) ∧
      (∀ l, flying (y.s.st l) = true → if l ∈ r.2 then r.1.st l = .empty else flying (r.1.st l) = true) ∧
      ∀ l, l ∈ r.2 → flying (y.s.st l) = true := by
  obtain ⟨m1, m2, m3, m4, m5⟩ := mmioIn_ok h.inv x.mmio
  have pp : PendOk c (mmioIn c y.s x.mmio) y.pend := by
    refine ⟨?_, h.pend.nodup, ?_⟩
    · intro q hq
      obtain ⟨i1, i2, i3, i4⟩ := h.pend.ent q hq
      rw [m3, m4]
      exact ⟨i1, i2, i3, m5 _ i4⟩
    · intro l hl; exact h.pend.all l (m2.nr l hl)
  obtain ⟨s1, d1, d2, d3, d4⟩ := dcacheIn_ok m1 pp hv.resp x.wake
  have rr := report_ok d2 x.scPorts
  have l01 := m2.trans d3
  obtain ⟨r1, r2, r3, r4, r5, r6, r7⟩ := rr
  dsimp only at r1 r2 r3 r4 r5 r6 r7
  have al0 : ∀ l, (report c s1 x.scPorts).1.st l = .allocated ↔ y.s.st l = .allocated := fun l => (r2 l).trans (l01.al l)
  have cr0 : (report c s1 x.scPorts).1.nAlloc c + (report c s1 x.scPorts).1.wm.count ≤ y.s.nAlloc c + y.s.wm.count := by
    have := nAlloc_congr (c := c) al0
    have := l01.cnt
    omega
  obtain ⟨q1, q2, q3⟩ := loadReqs_ok x.reqs r1 (by have := h.credit; omega) hv.reqs.1 (fun l hl => (al0 l).mpr (hv.reqs.2 l hl))
  obtain ⟨t1, t2⟩ := tlbIn_ok q1 x.tlb
  obtain ⟨s3, u1, u2, u3⟩ := stlf_ok t1 hv.cmp
  have l23 := t2.trans u3
  obtain ⟨k, hk⟩ := hv.alloc
  obtain ⟨o1, o2, o3⟩ := offer_ok (width := width) h.credit hn
  have cr3 : s3.nAlloc c + s3.wm.count ≤ y.s.nAlloc c + y.s.wm.count := by
    have := nAlloc_congr (c := c) l23.al
    have := l23.cnt
    omega
  have hsub : x.alloc.Sublist (y.s.offer c width) := by rw [hk]; exact List.take_sublist _ _
  have nowb : ∀ l, l ∉ (report c s1 x.scPorts).2 → (report c s1 x.scPorts).1.st l = s1.st l := by
    intro l hl
    cases Classical.em (s1.st l = (report c s1 x.scPorts).1.st l) with
    | inl e => exact e.symm
    | inr e => exact absurd ((r5 l).mpr e) hl
  have emp3 : ∀ l, y.s.st l = .empty → s3.st l = .empty := by
    intro l hl
    rw [l23.e, q3]
    have e1 : s1.st l = .empty := (l01.e l).mpr hl
    have hr : l ∉ x.reqs := fun hr => by have := hv.reqs.2 l hr; rw [hl] at this; exact absurd this (by decide)
    rw [if_neg hr, nowb l, e1]
    intro hw; have := (r6 l hw).1; rw [e1] at this; simp at this
  obtain ⟨s4, v1, v2, v3, v4, v5, v6⟩ := allocs_ok x.alloc u2 (o1.sublist hsub) (fun l hl =>
    ⟨emp3 l (o2 l (hsub.subset hl)).1, (o2 l (hsub.subset hl)).2⟩)
  have nal : ∀ l, y.s.st l ≠ .empty → l ∉ x.alloc := fun l hl ha => hl (o2 l (hsub.subset ha)).1
  refine ⟨(s4, (report c s1 x.scPorts).2), ?_, v2, ?_, ?_, r7, ?_, ?_, ?_, ?_⟩
  · unfold front
    rw [d1]
    dsimp only
    rw [u1]
    dsimp only
    rw [v1]; rfl
  · intro l
    dsimp only
    rw [v6]
    split
    · decide
    · intro e
      have := l23.nr l e
      rw [q3] at this
      split at this
      · exact absurd this (by decide)
      · exact d4 l (r4 l this)
  · dsimp only
    rw [v3, v4]
    have := hsub.length_le
    omega
  · intro l hl
    dsimp only
    rw [v6]
    split
    · rfl
    · exact emp3 l hl
  · intro l hl
    dsimp only
    rw [v6, if_neg (nal l (by rw [hl]; decide)), l23.fly, l23.al, q3]
    split
    · rfl
    · exact (al0 l).mpr hl
  · intro l hl
    have hne : y.s.st l ≠ .empty := by intro e; rw [e] at hl; simp [flying] at hl
    have hr : l ∉ x.reqs := fun hr => by have := hv.reqs.2 l hr; rw [this] at hl; simp [flying] at hl
    dsimp only
    rw [v6, if_neg (nal l hne), l23.fly, l23.e, q3, if_neg hr]
    split
    · next hw => exact (r6 l hw).2
    · next hw => rw [nowb l hw, l01.fly]; exact hl
  · intro l hl
    dsimp only at hl
    rw [← l01.fly]
    rcases (r6 l hl).1 with e | e <;> rw [e] <;> rfl

theorem storeTakes_ok {c : Cfg} {s : LS} (h : Inv c s []) (go : Bool) : Inv c (storeTakes s go) [] := by
  unfold storeTakes
  split
  · next hg =>
    obtain ⟨a1, a2, a3, a4, b1, b2, b3, b4, b5, b6, b7, b8, b9, b10, b11⟩ := h
    refine ⟨a1, a2, a3, a4, b1, b2, b3, b4, b5, b6, ?_, ?_, b9, b10, b11⟩
    · intro l hl; simp at hl
    · intro l hl
      rcases b8 l hl with h | h | h | h | h | h
      · exact .inl h
      · exact .inr (.inl h)
      · exact .inr (.inr (.inl h))
      · exact .inr (.inr (.inr (.inl h)))
      · simp at h
      · rw [hg.2] at h; simp at h
  · exact h

theorem storeTakes_same (s : LS) (go : Bool) : (storeTakes s go).st = s.st ∧ (storeTakes s go).wm = s.wm ∧
    (storeTakes s go).wd = s.wd ∧ (storeTakes s go).gen = s.gen := by
  unfold storeTakes; split <;> exact ⟨rfl, rfl, rfl, rfl⟩

theorem issueOne_fly {c : Cfg} (a : LS × List (Nat × Nat)) (i l : Nat) :
    flying ((issueOne c a i).1.st l) = flying (a.1.st l) ∧ ((issueOne c a i).1.st l = .empty ↔ a.1.st l = .empty) := by
  obtain ⟨s, out⟩ := a
  unfold issueOne
  dsimp only
  split
  · exact ⟨rfl, Iff.rfl⟩
  · split
    · exact ⟨rfl, Iff.rfl⟩
    · next m hm =>
      split
      · exact ⟨rfl, Iff.rfl⟩
      · next hst =>
        have hst : s.st m = .readyToIssue := Classical.not_not.mp hst
        split
        · exact ⟨rfl, Iff.rfl⟩
        · simp only [LS.set, upd_apply]
          by_cases e : l = m
          · subst e; rw [if_pos rfl, hst]; simp [flying]
          · rw [if_neg e]; exact ⟨rfl, Iff.rfl⟩

theorem issue_fly {c : Cfg} (s : LS) (l : Nat) :
    flying ((issue c s).1.st l) = flying (s.st l) ∧ ((issue c s).1.st l = .empty ↔ s.st l = .empty) := by
  have := foldl_inv (f := issueOne c) (P := fun b => flying (b.1.st l) = flying (s.st l) ∧ (b.1.st l = .empty ↔ s.st l = .empty))
    (fun b i hb => let g := issueOne_fly (c := c) b i l; ⟨g.1.trans hb.1, g.2.trans hb.2⟩)
    (List.range (min s.wd.count c.win)) (s, []) ⟨rfl, Iff.rfl⟩
  exact this

/-- Is the load squashed in this cycle? -/
def squashed (c : Cfg) (x : In) (l : Nat) : Prop :=
  x.flush ≠ none ∨ ∃ k, x.kill = some k ∧ l < c.n ∧ k.1 l = true

theorem recover_st {c : Cfg} (s : LS) (x : In) (l : Nat) :
    (squashed c x l → (recover c s x).st l = .empty) ∧ (¬ squashed c x l → (recover c s x).st l = s.st l) := by
  unfold squashed recover
  dsimp only
  cases x.flush with
  | none =>
    cases x.kill with
    | none => simp
    | some k =>
      simp only [mispred, pruneAll]
      refine ⟨?_, ?_⟩
      · rintro (h | ⟨k', h, h1, h2⟩)
        · exact absurd rfl h
        · cases h
          split
          · rfl
          · next hc =>
            cases Classical.em (s.st l = .empty) with
            | inl e => exact e
            | inr e => exact absurd ⟨h1, e, h2⟩ hc
      · intro hs
        rw [if_neg]
        rintro ⟨h1, -, h2⟩
        exact hs (.inr ⟨k, rfl, h1, h2⟩)
  | some keep =>
    refine ⟨fun _ => ?_, fun h => absurd (.inl (by simp)) h⟩
    cases x.kill with
    | none => rfl
    | some k => simp [mispred, pruneAll, flush]

/-- The transition of one load over a cycle. -/
structure Life (c : Cfg) (y y' : Sys) (x : In) : Prop where
  sq : ∀ l, squashed c x l → y'.s.st l = .empty
  e : ∀ l, ¬ squashed c x l → y.s.st l = .empty → y'.s.st l = if l ∈ x.alloc then .allocated else .empty
  a : ∀ l, ¬ squashed c x l → y.s.st l = .allocated → if l ∈ x.reqs then flying (y'.s.st l) = true else y'.s.st l = .allocated
  f : ∀ l, ¬ squashed c x l → flying (y.s.st l) = true → if l ∈ y'.wb then y'.s.st l = .empty else flying (y'.s.st l) = true
  wb : ∀ l, l ∈ y'.wb → flying (y.s.st l) = true
  nodup : y'.wb.Nodup

theorem cycle_ok {c : Cfg} (hc : c.Ok) {width : Nat} {y : Sys} (h : SysInv c y) {x : In} (hv : Valid c width y x) :
    ∃ y', y.cycle c x = some y' ∧ SysInv c y' ∧ Life c y y' x := by
  have hn : c.n < 2 ^ 32 := Nat.lt_of_le_of_lt hc.fits (Nat.pow_lt_pow_right (by omega) (by have := hc.w; omega))
  obtain ⟨r, f1, f2, f3, f4, f5, f6, f7, f8, f9⟩ := front_ok hn h hv
  obtain ⟨g1, g2, g3⟩ := recover_ok f2 x
  have gn : ∀ l, (recover c r.1 x).st l ≠ .waitDcacheResp := by
    intro l
    rcases g2 l with e | e <;> rw [e]
    · exact f3 l
    · decide
  obtain ⟨i1, i2, i3, i4⟩ := issue_ok hc g1 gn
  obtain ⟨t1, t2, t3, t4⟩ := storeTakes_same (issue c (recover c r.1 x)).1 x.storeGo
  refine ⟨{ s := storeTakes (issue c (recover c r.1 x)).1 x.storeGo, pend := (issue c (recover c r.1 x)).2, wb := r.2 }, ?_, ⟨?_, ?_, ?_⟩, ?_⟩
  · unfold Sys.cycle; rw [f1]; rfl
  · exact storeTakes_ok i1 _
  · refine ⟨?_, i2.nodup, ?_⟩
    · dsimp only; rw [t1, t3, t4]; exact i2.ent
    · dsimp only; rw [t1]; exact i2.all
  · dsimp only
    rw [t2, i4]
    have e1 : (storeTakes (issue c (recover c r.1 x)).1 x.storeGo).nAlloc c ≤ r.1.nAlloc c := by
      apply nAlloc_le
      intro l hl
      rw [t1, i3] at hl
      rcases g2 l with e | e
      · rw [e] at hl; exact hl
      · rw [e] at hl; exact absurd hl (by decide)
    omega
  · have st1 : ∀ l, flying ((storeTakes (issue c (recover c r.1 x)).1 x.storeGo).st l) = flying ((recover c r.1 x).st l) ∧
        ((storeTakes (issue c (recover c r.1 x)).1 x.storeGo).st l = .empty ↔ (recover c r.1 x).st l = .empty) ∧
        ((storeTakes (issue c (recover c r.1 x)).1 x.storeGo).st l = .allocated ↔ (recover c r.1 x).st l = .allocated) := by
      intro l; rw [t1]; exact ⟨(issue_fly _ l).1, (issue_fly _ l).2, i3 l⟩
    refine ⟨?_, ?_, ?_, ?_, f9, f5⟩
    all_goals intro l hs
    all_goals dsimp only
    · exact (st1 l).2.1.mpr ((recover_st r.1 x l).1 hs)
    · intro he
      have := f6 l he
      have q := (recover_st r.1 x l).2 hs
      split
      · next ha => rw [if_pos ha] at this; exact (st1 l).2.2.mpr (q.trans this)
      · next ha => rw [if_neg ha] at this; exact (st1 l).2.1.mpr (q.trans this)
    · intro he
      have := f7 l he
      have q := (recover_st r.1 x l).2 hs
      split
      · next ha => rw [if_pos ha] at this; rw [(st1 l).1, q]; exact this
      · next ha => rw [if_neg ha] at this; exact (st1 l).2.2.mpr (q.trans this)
    · intro he
      have := f8 l he
      have q := (recover_st r.1 x l).2 hs
      split
      · next ha => rw [if_pos ha] at this; exact (st1 l).2.1.mpr (q.trans this)
      · next ha => rw [if_neg ha] at this; rw [(st1 l).1, q]; exact this

theorem reach_ok {c : Cfg} (hc : c.Ok) {width : Nat} {y : Sys} (h : Reach c width y) : SysInv c y := by
  induction h with
  | init => exact init_ok hc
  | step x _ hv hs ih =>
    obtain ⟨y'', h1, h2, -⟩ := cycle_ok hc ih hv
    rw [h1] at hs
    exact (Option.some.inj hs) ▸ h2

end Verif.LsuList

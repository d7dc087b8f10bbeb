import Verif.Proofs.LsuListStep

/-
Waiting lists of the load/store unit: translation, comparison with the stores, dispatch, recovery, issue.
-/
namespace Verif.LsuList

open Verif.Ring

attribute [local grind] okWm okSq okWd okFin flying

/-! ### Translation -/

structure OutOk (c : Cfg) (s : LS) (k : Nat) (rs : List (Nat × Nat)) : Prop where
  ent : ∀ q ∈ rs, s.wm.slot q.1 = some q.2 ∧ s.st q.2 = .waitTlb ∧ ∃ d, d < k ∧ q.1 = (s.wm.head + d) % c.n
  nodup : (rs.map (·.2)).Nodup

theorem tlbOut_ok {c : Cfg} {s : LS} (h : s.wm.WF c.n) : ∃ k, OutOk c s k (tlbOut c s) := by
  refine ⟨min s.wm.count c.win, ?_⟩
  unfold tlbOut
  have hk : min s.wm.count c.win ≤ c.n := by have := h.count; omega
  generalize min s.wm.count c.win = k at hk
  induction k with
  | zero => exact ⟨fun q hq => by simp at hq, by simp⟩
  | succ k ih =>
    have ih := ih (by omega)
    rw [List.range_succ, List.foldl_append, List.foldl_cons, List.foldl_nil]
    generalize List.foldl _ _ (List.range k) = rs at ih ⊢
    have up : OutOk c s (k + 1) rs :=
      ⟨fun q hq => let ⟨a, b, d, hd, e⟩ := ih.ent q hq; ⟨a, b, d, by omega, e⟩, ih.nodup⟩
    split
    · exact up
    · dsimp only
      split
      · exact up
      · next l hl =>
        split
        · next hst =>
          refine ⟨?_, ?_⟩
          · intro q hq
            rw [List.mem_append, List.mem_singleton] at hq
            rcases hq with hq | rfl
            · exact up.ent q hq
            · exact ⟨hl, hst, k, by omega, rfl⟩
          · rw [List.map_append, List.nodup_append]
            refine ⟨ih.nodup, by simp, ?_⟩
            intro a ha b hb e
            simp only [List.map_cons, List.map_nil, List.mem_singleton] at hb
            subst hb; subst e
            obtain ⟨q, hq, rfl⟩ := List.mem_map.mp ha
            obtain ⟨i1, -, d, hd, i2⟩ := ih.ent q hq
            have := h.uniq _ _ _ i1 hl
            have := mod_inj h.head (by omega) (by omega) (i2.symm.trans this)
            omega
        · exact up

theorem tlbAns_ok {c : Cfg} (ans : Nat → Option Tlb) : ∀ (rs : List (Nat × Nat)) {s : LS}, Inv c s [] →
    (∀ q ∈ rs, s.wm.slot q.1 = some q.2 ∧ s.st q.2 = .waitTlb) → (rs.map (·.2)).Nodup →
    Inv c (rs.foldl (tlbAns ans) s) [] ∧ Le c s (rs.foldl (tlbAns ans) s)
  | [], s, h, _, _ => ⟨h, Le.refl s⟩
  | q :: rs, s, h, hq, hn => by
    rw [List.foldl_cons]
    rw [List.map_cons, List.nodup_cons] at hn
    obtain ⟨q1, q2⟩ := hq q (by simp)
    have one : Inv c (tlbAns ans s q) [] ∧ Le c s (tlbAns ans s q) ∧ (tlbAns ans s q).wm = s.wm ∧
        ∀ j, j ≠ q.2 → (tlbAns ans s q).st j = s.st j := by
      have key : ∀ x, x = LSt.waitStlf ∨ x = .waitFinish ∨ x = .waitTlbRetry →
          Inv c (s.set q.2 x) [] ∧ Le c s (s.set q.2 x) ∧ (s.set q.2 x).wm = s.wm ∧ ∀ j, j ≠ q.2 → (s.set q.2 x).st j = s.st j := by
        intro x hx
        refine ⟨set_same h ?_ ?_ ?_ ?_ ?_ ?_ ?_, ⟨?_, ?_, Nat.le_refl _, ?_⟩, rfl, ?_⟩
        all_goals rcases hx with rfl | rfl | rfl
        all_goals try simp only [q2, LS.set, upd_apply]
        all_goals grind
      unfold tlbAns
      split
      · exact ⟨h, Le.refl s, rfl, fun _ _ => rfl⟩
      · next x hx =>
        rw [if_neg (by simp [q1]), if_neg (by simp [q2])]
        cases x with
        | hit => exact key _ (.inl rfl)
        | fault => exact key _ (.inr (.inl rfl))
        | miss => exact key _ (.inr (.inr rfl))
    obtain ⟨o1, o2, o3, o4⟩ := one
    obtain ⟨r1, r2⟩ := tlbAns_ok ans rs o1 (by
      intro q' hq'
      rw [o3, o4 _ (fun e => hn.1 (List.mem_map.mpr ⟨q', hq', e⟩))]
      exact hq q' (by simp [hq'])) hn.2
    exact ⟨r1, o2.trans r2⟩

theorem window_ok {c : Cfg} {a : LS × Nat × Nat} (h : Inv c a.1 []) (i : Nat) :
    Inv c (window c a i).1 [] ∧ Le c a.1 (window c a i).1 := by
  obtain ⟨s, si, fi⟩ := a
  dsimp only at h
  unfold window
  dsimp only
  split
  · exact ⟨h, Le.refl s⟩
  · next l hl =>
    have hm : s.wm.Mem l := ⟨_, hl⟩
    have hns := h.d1 l hm
    have e2 := Q.kill_mem h.wm hl
    have w2 := Q.kill_wf h.wm ((s.wm.head + i) % c.n)
    split
    · next hst =>
      split
      · next hc =>
        have e1 := Q.enq_mem h.sq hc.2 l
        have w1 := Q.enq_wf h.sq hc.2 hns
        obtain ⟨a1, a2, a3, a4, b1, b2, b3, b4, b5, b6, b7, b8, b9, b10, b11⟩ := h
        refine ⟨⟨w2, w1, a3, a4, ?_, ?_, ?_, ?_, by simp, b6, ?_, ?_, ?_, b10, ?_⟩, ⟨?_, ?_, ?_, ?_⟩⟩
        all_goals dsimp only [LS.set]
        case refine_11 => exact Nat.le_refl _
        all_goals grind
      · exact ⟨h, Le.refl s⟩
    · split
      · next hst =>
        split
        · next hc =>
          have hnf : ¬ s.fin.Mem l := by intro hm; have := h.mfin l hm; rw [hst] at this; exact absurd this (by decide)
          have e1 := Q.enq_mem h.fin hc.2 l
          have w1 := Q.enq_wf h.fin hc.2 hnf
          obtain ⟨a1, a2, a3, a4, b1, b2, b3, b4, b5, b6, b7, b8, b9, b10, b11⟩ := h
          refine ⟨⟨w2, a2, a3, w1, ?_, ?_, ?_, ?_, by simp, b6, ?_, ?_, ?_, ?_, ?_⟩, ⟨?_, ?_, ?_, ?_⟩⟩
          all_goals dsimp only [LS.set]
          case refine_12 => exact Nat.le_refl _
          all_goals grind
        · exact ⟨h, Le.refl s⟩
      · split
        · next hst =>
          refine ⟨set_same h ?_ ?_ ?_ ?_ ?_ ?_ ?_, ⟨?_, ?_, Nat.le_refl _, ?_⟩⟩
          all_goals try simp only [hst, LS.set, upd_apply]
          all_goals grind
        · exact ⟨h, Le.refl s⟩

theorem tlbIn_ok {c : Cfg} {s : LS} (h : Inv c s []) (ans : Nat → Option Tlb) :
    Inv c (tlbIn c s (tlbOut c s) ans) [] ∧ Le c s (tlbIn c s (tlbOut c s) ans) := by
  obtain ⟨k, ho⟩ := tlbOut_ok (c := c) h.wm
  obtain ⟨i1, i2⟩ := tlbAns_ok (c := c) ans (tlbOut c s) h (fun q hq => let t := ho.ent q hq; ⟨t.1, t.2.1⟩) ho.nodup
  unfold tlbIn
  dsimp only
  generalize (tlbOut c s).foldl (tlbAns ans) s = s1 at i1 i2
  have := foldl_inv (f := window c) (P := fun b => Inv c b.1 [] ∧ Le c s1 b.1)
    (fun b i ⟨a1, a2⟩ => let h := window_ok a1 i; ⟨h.1, a2.trans h.2⟩)
    (List.range (min s1.wm.count c.win)) (s1, 0, 0) ⟨i1, Le.refl s1⟩
  generalize (List.range (min s1.wm.count c.win)).foldl (window c) (s1, 0, 0) = b at this
  obtain ⟨a1, a2⟩ := this
  refine ⟨pop_wm a1 _, i2.trans (a2.trans ⟨fun _ => Iff.rfl, fun _ => Iff.rfl, Q.pop_count _ _, fun _ h => h⟩)⟩


/-! ### Comparison with the older stores -/

theorem okSq_cases {x : LSt} (h : okSq x = true) : x = .checkStlf ∨ x = .waitDcache ∨ x = .waitFinish := by
  cases x <;> simp_all [okSq]

theorem le_set {c : Cfg} {s s' : LS} {l : Nat} {x : LSt} (hst : s'.st = upd s.st l x) (hw : s'.wm = s.wm)
    (h0 : okSq (s.st l) = true) (h1 : x ≠ .allocated) (h2 : x ≠ .empty) (h3 : x ≠ .waitDcacheResp) : Le c s s' := by
  refine ⟨?_, ?_, by rw [hw]; exact Nat.le_refl _, ?_⟩
  all_goals
    intro j
    rw [hst, upd_apply]
    have := okSq_cases h0
    grind

section
variable {c : Cfg} {s : LS} {ex : List Nat} {p l : Nat}

theorem stlf_retry (h : Inv c s ex) (hl : s.sq.slot p = some l) :
    Inv c { s.set l .checkStlf with sq := s.sq.kill p } (ex ++ [l]) := by
  have hm : s.sq.Mem l := ⟨_, hl⟩
  have e2 := Q.kill_mem h.sq hl
  have w2 := Q.kill_wf h.sq p
  have hnx : l ∉ ex := fun hx => (h.mex l hx).2 hm
  obtain ⟨a1, a2, a3, a4, b1, b2, b3, b4, b5, b6, b7, b8, b9, b10, b11⟩ := h
  have hok := okSq_cases (b2 l hm)
  refine ⟨a1, w2, a3, a4, ?_, ?_, ?_, ?_, ?_, ?_, ?_, ?_, ?_, b10, ?_⟩
  all_goals try dsimp only [LS.set]
  case refine_6 =>
    rw [List.nodup_append]
    refine ⟨b6, by simp, ?_⟩
    intro a ha b hb
    simp only [List.mem_singleton] at hb
    subst hb; exact fun e => hnx (e ▸ ha)
  all_goals grind

theorem stlf_wd (h : Inv c s ex) (hl : s.sq.slot p = some l) (hc : s.wd.count < c.n) :
    Inv c { s.set l .readyToIssue with wd := s.wd.enq c.n l, sq := s.sq.kill p } ex := by
  have hm : s.sq.Mem l := ⟨_, hl⟩
  have hok := okSq_cases (h.msq l hm)
  have e2 := Q.kill_mem h.sq hl
  have w2 := Q.kill_wf h.sq p
  have hnx : l ∉ ex := fun hx => (h.mex l hx).2 hm
  have hnd : ¬ s.wd.Mem l := by intro hm; have := h.mwd l hm; grind
  have e1 := Q.enq_mem h.wd hc l
  have w1 := Q.enq_wf h.wd hc hnd
  obtain ⟨a1, a2, a3, a4, b1, b2, b3, b4, b5, b6, b7, b8, b9, b10, b11⟩ := h
  refine ⟨a1, w2, w1, a4, ?_, ?_, ?_, ?_, ?_, b6, ?_, ?_, ?_, ?_, ?_⟩
  all_goals dsimp only [LS.set]
  all_goals grind

theorem stlf_fin (h : Inv c s ex) (hl : s.sq.slot p = some l) (hc : s.fin.count < c.n) :
    Inv c { s.set l .readyToWb with fin := s.fin.enq c.n l, sq := s.sq.kill p } ex := by
  have hm : s.sq.Mem l := ⟨_, hl⟩
  have hok := okSq_cases (h.msq l hm)
  have e2 := Q.kill_mem h.sq hl
  have w2 := Q.kill_wf h.sq p
  have hnx : l ∉ ex := fun hx => (h.mex l hx).2 hm
  have hnd : ¬ s.fin.Mem l := by intro hm; have := h.mfin l hm; grind
  have e1 := Q.enq_mem h.fin hc l
  have w1 := Q.enq_wf h.fin hc hnd
  obtain ⟨a1, a2, a3, a4, b1, b2, b3, b4, b5, b6, b7, b8, b9, b10, b11⟩ := h
  refine ⟨a1, w2, a3, w1, ?_, ?_, ?_, ?_, ?_, b6, ?_, ?_, ?_, ?_, ?_⟩
  all_goals dsimp only [LS.set]
  all_goals grind

theorem stlf_mmio (h : Inv c s ex) (hl : s.sq.slot p = some l) (hu : s.unc = .free) (hs : s.st l = .checkStlf) :
    Inv c { s.set l .waitMmioResp with unc := .load l, sq := s.sq.kill p } ex := by
  have hm : s.sq.Mem l := ⟨_, hl⟩
  have e2 := Q.kill_mem h.sq hl
  have w2 := Q.kill_wf h.sq p
  have hnx : l ∉ ex := fun hx => (h.mex l hx).2 hm
  obtain ⟨a1, a2, a3, a4, b1, b2, b3, b4, b5, b6, b7, b8, b9, b10, b11⟩ := h
  refine ⟨a1, w2, a3, a4, ?_, ?_, ?_, ?_, ?_, b6, ?_, ?_, ?_, b10, ?_⟩
  all_goals dsimp only [LS.set]
  all_goals grind

theorem stlf_stay (h : Inv c s ex) (hl : s.sq.slot p = some l) {x : LSt} (hx : x = .waitDcache ∨ x = .waitFinish) :
    Inv c (s.set l x) ex := by
  have hm : s.sq.Mem l := ⟨_, hl⟩
  have hok := okSq_cases (h.msq l hm)
  have hnx : l ∉ ex := fun hx => (h.mex l hx).2 hm
  obtain ⟨a1, a2, a3, a4, b1, b2, b3, b4, b5, b6, b7, b8, b9, b10, b11⟩ := h
  refine ⟨a1, a2, a3, a4, ?_, ?_, ?_, ?_, ?_, b6, ?_, ?_, b9, b10, ?_⟩
  all_goals dsimp only [LS.set]
  all_goals grind

end

structure ScanInv (c : Cfg) (s0 : LS) (j : Nat) (a : Scan) : Prop where
  inv : Inv c a.s a.retry
  le : Le c s0 a.s
  head : a.s.sq.head = s0.sq.head
  count : a.s.sq.count = s0.sq.count
  pops : a.pops ≤ j
  run : a.stop = false → a.pops = j
  gone : ∀ d, d < a.pops → a.s.sq.slot ((s0.sq.head + d) % c.n) = none
  len : a.retry.length ≤ a.pops

/-- The entry looked at leaves the list. -/
theorem scan_pop {c : Cfg} {s0 : LS} {j : Nat} {a : Scan} (h : ScanInv c s0 j a) (hs : a.stop = false) {s' : LS} {r : List Nat}
    (hi : Inv c s' r) (hl : Le c a.s s') (hq : s'.sq = a.s.sq.kill ((s0.sq.head + j) % c.n)) (hr : r.length ≤ a.retry.length + 1) :
    ScanInv c s0 (j + 1) { s := s', retry := r, pops := a.pops + 1, stop := false } where
  inv := hi
  le := h.le.trans hl
  head := by rw [hq]; exact h.head
  count := by rw [hq]; exact h.count
  pops := by have := h.pops; dsimp only; omega
  run := fun _ => by have := h.run hs; dsimp only; omega
  gone := by
    intro d hd
    have := h.run hs
    dsimp only at hd ⊢
    rw [hq]
    simp only [Q.kill, upd_apply]
    split
    · rfl
    · next ne =>
      apply h.gone
      have : d ≠ j := by rintro rfl; exact ne rfl
      omega
  len := by have := h.len; dsimp only; omega

theorem scan_stay {c : Cfg} {s0 : LS} {j : Nat} {a : Scan} (h : ScanInv c s0 j a) {s' : LS}
    (hi : Inv c s' a.retry) (hl : Le c a.s s') (hq : s'.sq = a.s.sq) :
    ScanInv c s0 (j + 1) { s := s', retry := a.retry, pops := a.pops, stop := true } where
  inv := hi
  le := h.le.trans hl
  head := by rw [hq]; exact h.head
  count := by rw [hq]; exact h.count
  pops := by have := h.pops; dsimp only; omega
  run := fun e => by simp at e
  gone := by intro d hd; dsimp only; rw [hq]; exact h.gone d hd
  len := h.len

theorem stlfOne_ok {c : Cfg} {s0 : LS} {j : Nat} {a : Scan} (h : ScanInv c s0 j a) {cmp : Nat → Cmp} (hc : ∀ l, cmp l ≠ .bad) :
    ∃ a', stlfOne c cmp a j = some a' ∧ ScanInv c s0 (j + 1) a' := by
  unfold stlfOne
  by_cases hs : a.stop = true
  · rw [if_pos hs]
    refine ⟨a, rfl, h.inv, h.le, h.head, h.count, by have := h.pops; omega, fun e => by simp [hs] at e, h.gone, h.len⟩
  · have hs : a.stop = false := by simpa using hs
    rw [if_neg (by simp [hs])]
    dsimp only
    rw [h.head]
    cases hl : a.s.sq.slot ((s0.sq.head + j) % c.n) with
    | none =>
      refine ⟨_, rfl, h.inv, h.le, h.head, h.count, ?_, ?_, ?_, ?_⟩
      · have := h.pops; dsimp only; omega
      · intro _; have := h.run hs; dsimp only; omega
      · intro d hd
        dsimp only at hd ⊢
        by_cases e : d = j
        · rw [e, hl]
        · have := h.run hs; exact h.gone d (by omega)
      · have := h.len; dsimp only; omega
    | some l =>
      dsimp only
      have hm : a.s.sq.Mem l := ⟨_, hl⟩
      have hok := h.inv.msq l hm
      have toWd : ScanInv c s0 (j + 1) (afterStlf c a ((s0.sq.head + j) % c.n) l (some .waitDcache)) := by
        unfold afterStlf
        dsimp only
        split
        · next hr =>
          have := scan_pop h hs (stlf_wd h.inv hl hr) (le_set rfl rfl hok (by decide) (by decide) (by decide)) rfl (Nat.le_succ _)
          rw [← hs] at this; exact this
        · exact scan_stay h (stlf_stay h.inv hl (.inl rfl)) (le_set rfl rfl hok (by decide) (by decide) (by decide)) rfl
      have toFin : ScanInv c s0 (j + 1) (afterStlf c a ((s0.sq.head + j) % c.n) l (some .waitFinish)) := by
        unfold afterStlf
        dsimp only
        split
        · next hr =>
          have := scan_pop h hs (stlf_fin h.inv hl hr) (le_set rfl rfl hok (by decide) (by decide) (by decide)) rfl (Nat.le_succ _)
          rw [← hs] at this; exact this
        · exact scan_stay h (stlf_stay h.inv hl (.inr rfl)) (le_set rfl rfl hok (by decide) (by decide) (by decide)) rfl
      have toRetry : ScanInv c s0 (j + 1) (afterStlf c a ((s0.sq.head + j) % c.n) l none) := by
        unfold afterStlf
        dsimp only
        exact scan_pop h hs (stlf_retry h.inv hl) (le_set rfl rfl hok (by decide) (by decide) (by decide)) rfl (by simp)
      by_cases hst : a.s.st l = .checkStlf
      · rw [if_pos hst]
        cases hcmp : cmp l with
        | bad => exact absurd hcmp (hc l)
        | cache => exact ⟨_, rfl, toWd⟩
        | forward => exact ⟨_, rfl, toFin⟩
        | retry => exact ⟨_, rfl, toRetry⟩
        | mmio may =>
          rw [decideStlf]
          split
          · next hm2 =>
            refine ⟨_, rfl, ?_⟩
            unfold afterStlf
            dsimp only
            have := scan_pop h hs (stlf_mmio h.inv hl hm2.2 hst) (le_set rfl rfl hok (by decide) (by decide) (by decide)) rfl (Nat.le_succ _)
            rw [← hs] at this; exact this
          · exact ⟨_, rfl, toRetry⟩
      · rw [if_neg hst]
        refine ⟨_, rfl, ?_⟩
        cases e : a.s.st l <;> rw [e] at hok hst <;> first | exact absurd rfl hst | exact absurd hok (by decide) | skip
        · exact toWd
        · exact toFin

theorem stlfLoop_ok {c : Cfg} {s0 : LS} {cmp : Nat → Cmp} (hc : ∀ l, cmp l ≠ .bad) : ∀ (m j : Nat) {a : Scan}, ScanInv c s0 j a →
    ∃ a', stlfLoop c cmp a (List.range' j m) = some a' ∧ ScanInv c s0 (j + m) a'
  | 0, j, a, h => ⟨a, rfl, h⟩
  | m + 1, j, a, h => by
    obtain ⟨a1, h1, h2⟩ := stlfOne_ok h hc
    obtain ⟨a2, h3, h4⟩ := stlfLoop_ok hc m (j + 1) h2
    refine ⟨a2, ?_, by rw [show j + (m + 1) = j + 1 + m by omega]; exact h4⟩
    rw [List.range'_succ, stlfLoop, h1]
    exact h3

theorem requeue_ok {c : Cfg} : ∀ (ls : List Nat) {s : LS}, Inv c s ls → s.sq.count + ls.length ≤ c.n →
    ∃ s', requeue c s ls = some s' ∧ Inv c s' [] ∧ Le c s s'
  | [], s, h, _ => ⟨s, rfl, h, Le.refl s⟩
  | l :: ls, s, h, hc => by
    rw [List.length_cons] at hc
    have hlt : s.sq.count < c.n := by omega
    have hx := h.mex l (by simp)
    have hnd := h.nex
    rw [List.nodup_cons] at hnd
    have e1 := Q.enq_mem h.sq hlt l
    have w1 := Q.enq_wf h.sq hlt hx.2
    have hi : Inv c { s with sq := s.sq.enq c.n l } ls := by
      obtain ⟨a1, a2, a3, a4, b1, b2, b3, b4, b5, b6, b7, b8, b9, b10, b11⟩ := h
      refine ⟨a1, w1, a3, a4, b1, ?_, b3, b4, ?_, hnd.2, b7, ?_, ?_, b10, b11⟩
      all_goals dsimp only
      all_goals grind
    obtain ⟨s', h1, h2, h3⟩ := requeue_ok ls hi (by simp only [Q.enq]; omega)
    refine ⟨s', ?_, h2, ⟨h3.e, h3.al, h3.cnt, h3.nr⟩⟩
    rw [requeue, if_pos hlt]; exact h1

theorem stlf_ok {c : Cfg} {s : LS} (h : Inv c s []) {cmp : Nat → Cmp} (hc : ∀ l, cmp l ≠ .bad) :
    ∃ s', stlf c s cmp = some s' ∧ Inv c s' [] ∧ Le c s s' := by
  obtain ⟨a, h1, h2⟩ := stlfLoop_ok (c := c) (s0 := s) hc (min s.sq.count c.win) 0
    (a := { s := s, retry := [], pops := 0, stop := false })
    ⟨h, Le.refl s, rfl, rfl, Nat.le_refl _, fun _ => rfl, fun d hd => absurd hd (Nat.not_lt_zero _), Nat.le_refl _⟩
  unfold stlf
  rw [List.range_eq_range', h1]
  dsimp only
  have hp : a.pops ≤ a.s.sq.count := by have := h2.pops; rw [h2.count]; omega
  obtain ⟨k1, k2, k3⟩ := deqN_ok a.pops h2.inv.sq hp (by rw [h2.head]; exact h2.gone)
  have hi : Inv c { a.s with sq := deqN c.n a.pops a.s.sq } a.retry := by
    have e : ∀ j, (deqN c.n a.pops a.s.sq).Mem j ↔ a.s.sq.Mem j := fun j => by simp only [Q.Mem, k2]
    obtain ⟨a1, a2, a3, a4, b1, b2, b3, b4, b5, b6, b7, b8, b9, b10, b11⟩ := h2.inv
    refine ⟨a1, k1, a3, a4, b1, ?_, b3, b4, ?_, b6, b7, ?_, ?_, b10, b11⟩
    all_goals simp only [e]
    all_goals assumption
  obtain ⟨s', r1, r2, r3⟩ := requeue_ok a.retry hi (by
    dsimp only; rw [k3]; have := h2.len; have := h2.inv.sq.count; omega)
  exact ⟨s', r1, r2, h2.le.trans ⟨r3.e, r3.al, r3.cnt, r3.nr⟩⟩

end Verif.LsuList

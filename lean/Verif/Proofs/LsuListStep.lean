import Verif.Proofs.LsuList

/-
Waiting lists of the load/store unit: every step of a cycle keeps the invariant.
-/
namespace Verif.LsuList

open Verif.Ring

attribute [local grind] okWm okSq okWd okFin flying

theorem moveWd_ok {c : Cfg} {s : LS} (h : Inv c s []) (i : Nat) :
    Inv c (moveWd c s i) [] ∧ Le c s (moveWd c s i) ∧ (moveWd c s i).st = s.st := by
  unfold moveWd
  dsimp only
  split
  · exact ⟨h, Le.refl s, rfl⟩
  · next l hl =>
    split
    · next hc =>
      have hm : s.wd.Mem l := ⟨_, hl⟩
      have hnf := h.d2 l hm
      have e1 := Q.enq_mem h.fin hc.2 l
      have e2 := Q.kill_mem h.wd hl
      have w1 := Q.enq_wf h.fin hc.2 hnf
      have w2 := Q.kill_wf h.wd ((s.wd.head + i) % c.n)
      refine ⟨?_, ⟨fun _ => Iff.rfl, fun _ => Iff.rfl, Nat.le_refl _, fun _ h => h⟩, rfl⟩
      obtain ⟨a1, a2, a3, a4, b1, b2, b3, b4, b5, b6, b7, b8, b9, b10, b11⟩ := h
      refine ⟨a1, a2, w2, w1, b1, b2, ?_, ?_, b5, b6, b7, ?_, b9, ?_, b11⟩
      all_goals dsimp only
      all_goals grind
    · exact ⟨h, Le.refl s, rfl⟩


/-- A load that is in no list changes its state without touching any list. -/
theorem set_same {c : Cfg} {s : LS} (h : Inv c s []) {l : Nat} {x : LSt}
    (k1 : okWm (s.st l) = true → okWm x = true) (k2 : okSq (s.st l) = true → okSq x = true)
    (k3 : okWd (s.st l) = true → okWd x = true) (k4 : okFin (s.st l) = true → okFin x = true)
    (k5 : s.st l ≠ .waitMmioResp) (k6 : flying (s.st l) = true) (k7 : x ≠ .allocated) : Inv c (s.set l x) [] := by
  obtain ⟨a1, a2, a3, a4, b1, b2, b3, b4, b5, b6, b7, b8, b9, b10, b11⟩ := h
  unfold LS.set
  refine ⟨a1, a2, a3, a4, ?_, ?_, ?_, ?_, by simp, b6, ?_, ?_, b9, b10, ?_⟩
  all_goals dsimp only
  all_goals grind

theorem mmioIn_ok {c : Cfg} {s : LS} (h : Inv c s []) (r : Bool) :
    Inv c (mmioIn c s r) [] ∧ Le c s (mmioIn c s r) ∧ (mmioIn c s r).wd = s.wd ∧ (mmioIn c s r).gen = s.gen ∧
      ∀ l, s.st l = .waitDcacheResp → (mmioIn c s r).st l = .waitDcacheResp := by
  unfold mmioIn
  split
  · exact ⟨h, Le.refl s, rfl, rfl, fun _ h => h⟩
  · split
    · exact ⟨h, Le.refl s, rfl, rfl, fun _ h => h⟩
    · next hu =>
      refine ⟨?_, ⟨fun _ => Iff.rfl, fun _ => Iff.rfl, Nat.le_refl _, fun _ h => h⟩, rfl, rfl, fun _ h => h⟩
      obtain ⟨a1, a2, a3, a4, b1, b2, b3, b4, b5, b6, b7, b8, b9, b10, b11⟩ := h
      refine ⟨a1, a2, a3, a4, b1, b2, b3, b4, b5, b6, ?_, ?_, b9, b10, b11⟩
      all_goals dsimp only
      all_goals grind
    · next l hu =>
      split
      · next hc =>
        have hst := h.munc l hu
        rw [if_pos hst]
        have hnf : ¬ s.fin.Mem l := by intro hm; have := h.mfin l hm; rw [hst] at this; exact absurd this (by decide)
        have hnd : ¬ s.wd.Mem l := by intro hm; have := h.mwd l hm; rw [hst] at this; exact absurd this (by decide)
        have e1 := Q.enq_mem h.fin hc l
        have w1 := Q.enq_wf h.fin hc hnf
        obtain ⟨a1, a2, a3, a4, b1, b2, b3, b4, b5, b6, b7, b8, b9, b10, b11⟩ := h
        refine ⟨⟨a1, a2, a3, w1, ?_, ?_, ?_, ?_, ?_, b6, ?_, ?_, b9, ?_, ?_⟩, ⟨?_, ?_, Nat.le_refl _, ?_⟩, rfl, rfl, ?_⟩
        all_goals dsimp only
        all_goals grind
      · exact ⟨h, Le.refl s, rfl, rfl, fun _ h => h⟩

theorem pop_wd {c : Cfg} {s : LS} {ex : List Nat} (h : Inv c s ex) (k : Nat) : Inv c { s with wd := s.wd.pop c.n k } ex := by
  have e := fun l => Q.pop_mem (n := c.n) (k := k) (q := s.wd) l
  have w := Q.pop_wf k h.wd
  obtain ⟨a1, a2, a3, a4, b1, b2, b3, b4, b5, b6, b7, b8, b9, b10, b11⟩ := h
  refine ⟨a1, a2, w, a4, b1, b2, ?_, b4, b5, b6, b7, ?_, b9, ?_, b11⟩
  all_goals simp only [e]
  all_goals assumption

theorem pop_fin {c : Cfg} {s : LS} {ex : List Nat} (h : Inv c s ex) (k : Nat) : Inv c { s with fin := s.fin.pop c.n k } ex := by
  have e := fun l => Q.pop_mem (n := c.n) (k := k) (q := s.fin) l
  have w := Q.pop_wf k h.fin
  obtain ⟨a1, a2, a3, a4, b1, b2, b3, b4, b5, b6, b7, b8, b9, b10, b11⟩ := h
  refine ⟨a1, a2, a3, w, b1, b2, b3, ?_, b5, b6, b7, ?_, b9, ?_, b11⟩
  all_goals simp only [e]
  all_goals assumption

theorem pop_wm {c : Cfg} {s : LS} {ex : List Nat} (h : Inv c s ex) (k : Nat) : Inv c { s with wm := s.wm.pop c.n k } ex := by
  have e := fun l => Q.pop_mem (n := c.n) (k := k) (q := s.wm) l
  have w := Q.pop_wf k h.wm
  obtain ⟨a1, a2, a3, a4, b1, b2, b3, b4, b5, b6, b7, b8, b9, b10, b11⟩ := h
  refine ⟨w, a2, a3, a4, ?_, b2, b3, b4, b5, b6, b7, ?_, ?_, b10, b11⟩
  all_goals simp only [e]
  all_goals assumption

/-! ### Answers of the cache -/

/-- The requests of the last cycle. -/
structure PendOk (c : Cfg) (s : LS) (pend : List (Nat × Nat)) : Prop where
  ent : ∀ q ∈ pend, q.1 < 2 ^ 31 ∧ s.wd.slot (idSlot c q.1) = some q.2 ∧ s.gen (idSlot c q.1) = idGen c q.1 ∧
    s.st q.2 = .waitDcacheResp
  nodup : (pend.map (·.2)).Nodup
  all : ∀ l, s.st l = .waitDcacheResp → ∃ id, (id, l) ∈ pend

theorem answer_ok {c : Cfg} {s : LS} (h : Inv c s []) {q : Nat × Nat} {pend : List (Nat × Nat)} (hp : PendOk c s (q :: pend))
    {r : Resp} (hr : r.id = q.1) :
    ∃ s', answer c s r = some s' ∧ Inv c s' [] ∧ Le c s s' ∧ PendOk c s' pend ∧ (r.hit = true → s'.st q.2 = .readyToWb) := by
  obtain ⟨i1, i2, i3, i4⟩ := hp.ent q (by simp)
  have hnd := hp.nodup
  simp only [List.map_cons, List.nodup_cons] at hnd
  unfold answer
  rw [if_neg (by rw [hr]; omega), hr, i2]
  dsimp only
  rw [if_neg (by rw [i3]; simp), if_pos i4]
  have rest : ∀ x, x ≠ LSt.waitDcacheResp → PendOk c (s.set q.2 x) pend := by
    intro x hx
    refine ⟨?_, hnd.2, ?_⟩
    · intro q' hq'
      have := hp.ent q' (by simp [hq'])
      refine ⟨this.1, this.2.1, this.2.2.1, ?_⟩
      have hne : q'.2 ≠ q.2 := fun e => hnd.1 (List.mem_map.mpr ⟨q', hq', e⟩)
      simp only [LS.set, upd_apply]
      rw [if_neg hne]; exact this.2.2.2
    · intro l hl
      simp only [LS.set, upd_apply] at hl
      split at hl
      · exact absurd hl hx
      · next hne =>
        obtain ⟨id, hid⟩ := hp.all l hl
        simp only [List.mem_cons] at hid
        rcases hid with e | hid
        · exact absurd (by rw [← e]) hne
        · exact ⟨id, hid⟩
  have le : ∀ x, x ≠ LSt.waitDcacheResp → x ≠ .allocated → x ≠ .empty → Le c s (s.set q.2 x) := by
    intro x hx hx' hx''
    refine ⟨?_, ?_, Nat.le_refl _, ?_⟩
    all_goals
      intro l
      simp only [LS.set, upd_apply]
      grind
  have inv : ∀ x, x = LSt.readyToWb ∨ x = .readyToIssue → Inv c (s.set q.2 x) [] := by
    intro x hx
    apply set_same h
    all_goals try rw [i4]
    all_goals rcases hx with rfl | rfl
    all_goals simp [okWm, okSq, okWd, okFin, flying]
  cases r.hit with
  | true =>
    refine ⟨_, rfl, inv _ (.inl rfl), le _ (by decide) (by decide) (by decide), rest _ (by decide), fun _ => ?_⟩
    simp [LS.set, upd_apply]
  | false =>
    refine ⟨_, rfl, ?_, ?_, ?_, fun h => by simp at h⟩
    · have := inv _ (.inr rfl)
      obtain ⟨a1, a2, a3, a4, b1, b2, b3, b4, b5, b6, b7, b8, b9, b10, b11⟩ := this
      exact ⟨a1, a2, a3, a4, b1, b2, b3, b4, b5, b6, b7, b8, b9, b10, b11⟩
    · have := le .readyToIssue (by decide) (by decide) (by decide)
      exact ⟨this.e, this.al, this.cnt, this.nr⟩
    · have := rest .readyToIssue (by decide)
      exact ⟨this.ent, this.nodup, this.all⟩

theorem PendOk.perm {c : Cfg} {s : LS} {p p' : List (Nat × Nat)} (h : PendOk c s p) (hp : p.Perm p') : PendOk c s p' :=
  ⟨fun q hq => h.ent q (hp.mem_iff.mpr hq), (hp.map _).nodup_iff.mp h.nodup,
    fun l hl => let ⟨id, hid⟩ := h.all l hl; ⟨id, hp.mem_iff.mp hid⟩⟩

theorem answers_ok {c : Cfg} : ∀ (rs : List Resp) {s : LS} {pend : List (Nat × Nat)}, Inv c s [] → PendOk c s pend →
    (rs.map (·.id)).Perm (pend.map (·.1)) →
    ∃ s', answers c s rs = some s' ∧ Inv c s' [] ∧ Le c s s' ∧ ∀ l, s'.st l ≠ .waitDcacheResp
  | [], s, pend, h, hp, hperm => by
    simp only [List.map_nil, List.nil_perm, List.map_eq_nil_iff] at hperm
    subst hperm
    exact ⟨s, rfl, h, Le.refl s, fun l hl => by obtain ⟨id, hid⟩ := hp.all l hl; simp at hid⟩
  | r :: rs, s, pend, h, hp, hperm => by
    have hm : r.id ∈ pend.map (·.1) := hperm.mem_iff.mp (by simp)
    obtain ⟨q, hq, he⟩ := List.mem_map.mp hm
    obtain ⟨s1, h1, h2, h3, h4, -⟩ := answer_ok h (hp.perm (List.perm_cons_erase hq)) he.symm
    have hperm' : (rs.map (·.id)).Perm ((pend.erase q).map (·.1)) := by
      have := hperm.trans ((List.perm_cons_erase hq).map (·.1))
      simp only [List.map_cons] at this
      rw [he] at this
      exact this.cons_inv
    obtain ⟨s2, k1, k2, k3, k4⟩ := answers_ok rs h2 h4 hperm'
    refine ⟨s2, ?_, k2, h3.trans k3, k4⟩
    rw [answers, h1]; exact k1

theorem dcacheIn_ok {c : Cfg} {s : LS} {pend : List (Nat × Nat)} (h : Inv c s []) (hp : PendOk c s pend) {rs : List Resp}
    (hperm : (rs.map (·.id)).Perm (pend.map (·.1))) (w : Nat → Bool) :
    ∃ s', dcacheIn c s rs w = some s' ∧ Inv c s' [] ∧ Le c s s' ∧ ∀ l, s'.st l ≠ .waitDcacheResp := by
  obtain ⟨s1, h1, h2, h3, h4⟩ := answers_ok rs h hp hperm
  unfold dcacheIn
  rw [h1]
  dsimp only
  refine ⟨_, rfl, ?_⟩
  have hw : Inv c (wake s1 w) [] := by
    obtain ⟨a1, a2, a3, a4, b1, b2, b3, b4, b5, b6, b7, b8, b9, b10, b11⟩ := h2
    exact ⟨a1, a2, a3, a4, b1, b2, b3, b4, b5, b6, b7, b8, b9, b10, b11⟩
  have := foldl_inv (f := moveWd c) (P := fun b => Inv c b [] ∧ Le c s1 b ∧ b.st = s1.st)
    (fun b i ⟨a1, a2, a3⟩ => let h := moveWd_ok a1 i; ⟨h.1, a2.trans h.2.1, h.2.2.trans a3⟩)
    (List.range (min (wake s1 w).wd.count c.win)) (wake s1 w)
    ⟨hw, ⟨fun _ => Iff.rfl, fun _ => Iff.rfl, Nat.le_refl _, fun _ h => h⟩, rfl⟩
  obtain ⟨a1, a2, a3⟩ := this
  refine ⟨pop_wd a1 _, ?_, ?_⟩
  · exact h3.trans ⟨a2.e, a2.al, a2.cnt, a2.nr⟩
  · intro l
    dsimp only
    rw [a3]; exact h4 l


/-! ### Reports -/

structure ReportInv (c : Cfg) (s0 : LS) (a : LS × List Nat × Nat) : Prop where
  inv : Inv c a.1 []
  al : ∀ l, a.1.st l = .allocated ↔ s0.st l = .allocated
  cnt : a.1.wm.count ≤ s0.wm.count
  nr : ∀ l, a.1.st l = .waitDcacheResp → s0.st l = .waitDcacheResp
  wb : ∀ l, l ∈ a.2.1 ↔ (s0.st l ≠ a.1.st l)
  was : ∀ l, l ∈ a.2.1 → (s0.st l = .readyToWb ∨ s0.st l = .pageFault) ∧ a.1.st l = .empty
  nodup : a.2.1.Nodup

theorem reportOne_ok {c : Cfg} {s0 : LS} {a : LS × List Nat × Nat} (h : ReportInv c s0 a) (i : Nat) :
    ReportInv c s0 (reportOne c a i) := by
  obtain ⟨s, wb, used⟩ := a
  unfold reportOne
  dsimp only
  split
  · exact h
  · split
    · exact h
    · next l hl =>
      split
      · next hst =>
        obtain ⟨hi, l2, l3, l4, hwb, hwas, hnd⟩ := h
        dsimp only at hi l2 l3 l4 hwb hwas hnd
        have hm : s.fin.Mem l := ⟨_, hl⟩
        have hnd2 : ¬ s.wd.Mem l := fun hw => hi.d2 l hw hm
        have e2 := Q.kill_mem hi.fin hl
        have w2 := Q.kill_wf hi.fin ((s.fin.head + i) % c.n)
        have hnot : l ∉ wb := by intro hin; have := (hwas l hin).2; rw [this] at hst; simp at hst
        have heq : s0.st l = s.st l := by
          cases Classical.em (s0.st l = s.st l) with
          | inl h => exact h
          | inr h => exact absurd ((hwb l).mpr h) hnot
        obtain ⟨a1, a2, a3, a4, b1, b2, b3, b4, b5, b6, b7, b8, b9, b10, b11⟩ := hi
        refine ⟨⟨a1, a2, a3, w2, ?_, ?_, ?_, ?_, by simp, b6, ?_, ?_, b9, ?_, ?_⟩, ?_, ?_, ?_, ?_, ?_, ?_⟩
        all_goals dsimp only [LS.set]
        case refine_12 =>
          intro j
          rw [List.mem_append, List.mem_singleton, hwb j]
          grind
        case refine_13 =>
          intro j hj
          rw [List.mem_append, List.mem_singleton] at hj
          grind
        case refine_14 =>
          rw [List.nodup_append]
          refine ⟨hnd, by simp, ?_⟩
          intro a ha b hb
          simp only [List.mem_singleton] at hb
          subst hb; exact fun e => hnot (e ▸ ha)
        all_goals grind
      · exact h

theorem report_ok {c : Cfg} {s : LS} (h : Inv c s []) (used : Nat) :
    ReportInv c s ((report c s used).1, (report c s used).2, used) := by
  have h0 : ReportInv c s (s, [], used) :=
    ⟨h, fun _ => Iff.rfl, Nat.le_refl _, fun _ h => h, fun l => by simp, fun l hl => by simp at hl, by simp⟩
  have := foldl_inv (f := reportOne c) (P := ReportInv c s) (fun b i hb => reportOne_ok hb i)
    (List.range (min s.fin.count c.win)) _ h0
  unfold report
  dsimp only
  obtain ⟨a, b1, b2, b3, d, e, f⟩ := this
  exact ⟨pop_fin a _, b1, b2, b3, d, e, f⟩

/-! ### Hand-over of loads -/

theorem countP_flip {p p' : Nat → Bool} {l : Nat} (hp : p l = true) (hp' : p' l = false) (h : ∀ j, j ≠ l → p' j = p j) :
    ∀ n, (List.range n).countP p' + (if l < n then 1 else 0) = (List.range n).countP p
  | 0 => by simp
  | n + 1 => by
    have ih := countP_flip hp hp' h n
    rw [List.range_succ, List.countP_append, List.countP_append, ← ih]
    simp only [List.countP_cons, List.countP_nil]
    by_cases e : n = l
    · subst e
      rw [hp, hp']
      simp
    · rw [h n e]
      have : (l < n + 1) = (l < n) := by simp only [eq_iff_iff]; omega
      simp only [this]
      omega

theorem loadReq_ok {c : Cfg} {s : LS} (h : Inv c s []) (hc : s.nAlloc c + s.wm.count ≤ c.n) {l : Nat} (hl : s.st l = .allocated) :
    Inv c (loadReq c s l) [] ∧ (loadReq c s l).nAlloc c + (loadReq c s l).wm.count = s.nAlloc c + s.wm.count ∧
      (∀ j, (loadReq c s l).st j = if j = l then .waitTlb else s.st j) := by
  have hln : l < c.n := h.dom l (by rw [hl]; decide)
  have hcnt : (loadReq c s l).nAlloc c + 1 = s.nAlloc c := by
    have := countP_flip (p := fun j => decide (s.st j = .allocated)) (p' := fun j => decide ((loadReq c s l).st j = .allocated)) (l := l)
      (by simp [hl]) (by simp [loadReq, LS.set, upd_apply]) (by intro j hj; simp [loadReq, LS.set, upd_apply, hj]) c.n
    rw [if_pos hln] at this
    exact this
  have hlt : s.wm.count < c.n := by omega
  have hnm : ¬ s.wm.Mem l := by intro hm; have := h.mwm l hm; rw [hl] at this; exact absurd this (by decide)
  have e1 := Q.enq_mem h.wm hlt l
  have w1 := Q.enq_wf h.wm hlt hnm
  refine ⟨?_, ?_, fun j => rfl⟩
  · obtain ⟨a1, a2, a3, a4, b1, b2, b3, b4, b5, b6, b7, b8, b9, b10, b11⟩ := h
    refine ⟨w1, a2, a3, a4, ?_, ?_, ?_, ?_, by simp, b6, ?_, ?_, ?_, b10, ?_⟩
    all_goals dsimp only [loadReq, LS.set]
    all_goals grind
  · rw [show (loadReq c s l).wm.count = s.wm.count + 1 from rfl]; omega

theorem loadReqs_ok {c : Cfg} : ∀ (ls : List Nat) {s : LS}, Inv c s [] → s.nAlloc c + s.wm.count ≤ c.n → ls.Nodup →
    (∀ l ∈ ls, s.st l = .allocated) →
    Inv c (ls.foldl (loadReq c) s) [] ∧
      (ls.foldl (loadReq c) s).nAlloc c + (ls.foldl (loadReq c) s).wm.count = s.nAlloc c + s.wm.count ∧
      ∀ j, (ls.foldl (loadReq c) s).st j = if j ∈ ls then .waitTlb else s.st j
  | [], s, h, _, _, _ => ⟨h, rfl, fun j => by simp⟩
  | l :: ls, s, h, hc, hn, ha => by
    obtain ⟨k1, k2, k3⟩ := loadReq_ok h hc (ha l (by simp))
    rw [List.nodup_cons] at hn
    obtain ⟨m1, m2, m3⟩ := loadReqs_ok ls k1 (by omega) hn.2 (by
      intro j hj
      rw [k3, if_neg (by rintro rfl; exact hn.1 hj)]
      exact ha j (by simp [hj]))
    rw [List.foldl_cons]
    refine ⟨m1, by omega, fun j => ?_⟩
    rw [m3, k3]
    by_cases h1 : j ∈ ls
    · simp [h1]
    · by_cases h2 : j = l <;> simp [h1, h2]

end Verif.LsuList

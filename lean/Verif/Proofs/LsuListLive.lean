import Verif.Proofs.LsuListCycle

/-
Waiting lists of the load/store unit: a finished load moves towards the front of the report list in every cycle.
-/
namespace Verif.LsuList

open Verif.Ring

attribute [local grind] okWm okSq okWd okFin flying

/-- The report list only gains entries. -/
structure Grow (s s' : LS) : Prop where
  head : s'.fin.head = s.fin.head
  slot : ∀ p l, s.fin.slot p = some l → s'.fin.slot p = some l

theorem Grow.refl (s : LS) : Grow s s := ⟨rfl, fun _ _ h => h⟩
theorem Grow.trans {a b d : LS} (h : Grow a b) (h' : Grow b d) : Grow a d :=
  ⟨h'.head.trans h.head, fun p l hp => h'.slot p l (h.slot p l hp)⟩
theorem Grow.of_fin {s s' : LS} (h : s'.fin = s.fin) : Grow s s' := ⟨by rw [h], fun p l hp => by rw [h]; exact hp⟩
theorem Grow.of_enq {n : Nat} {s s' : LS} (hw : s.fin.WF n) (hc : s.fin.count < n) {l : Nat} (h : s'.fin = s.fin.enq n l) : Grow s s' := by
  refine ⟨by rw [h]; rfl, fun p j hp => ?_⟩
  rw [h]
  simp only [Q.enq, upd_apply]
  split
  · next e => rw [e, Q.tail_free hw hc] at hp; exact absurd hp (by simp)
  · exact hp

theorem mmioIn_grow {c : Cfg} {s : LS} (h : Inv c s []) (r : Bool) : Grow s (mmioIn c s r) := by
  unfold mmioIn
  split
  · exact Grow.refl s
  · split
    · exact Grow.refl s
    · exact Grow.of_fin rfl
    · split
      · next hc =>
        split
        · exact Grow.of_enq h.fin hc rfl
        · exact Grow.of_fin rfl
      · exact Grow.refl s

theorem answer_fin {c : Cfg} {s s' : LS} {r : Resp} (h : answer c s r = some s') : s'.fin = s.fin := by
  unfold answer at h
  split at h
  · simp at h
  · split at h
    · cases h; rfl
    · split at h
      · simp at h
      · split at h
        · split at h <;> (cases h; rfl)
        · cases h; rfl

theorem answers_fin {c : Cfg} : ∀ (rs : List Resp) {s s' : LS}, answers c s rs = some s' → s'.fin = s.fin
  | [], s, s', h => by cases h; rfl
  | r :: rs, s, s', h => by
    rw [answers] at h
    split at h
    · simp at h
    · next s1 h1 => exact (answers_fin rs h).trans (answer_fin h1)

theorem moveWd_grow {c : Cfg} {s : LS} (h : Inv c s []) (i : Nat) : Grow s (moveWd c s i) := by
  unfold moveWd
  dsimp only
  split
  · exact Grow.refl s
  · split
    · next hc => exact Grow.of_enq h.fin hc.2 rfl
    · exact Grow.refl s

theorem dcacheIn_grow {c : Cfg} {s s' : LS} {pend : List (Nat × Nat)} (h : Inv c s []) (hp : PendOk c s pend) {rs : List Resp}
    (hperm : (rs.map (·.id)).Perm (pend.map (·.1))) {w : Nat → Bool} (hs : dcacheIn c s rs w = some s') : Grow s s' := by
  obtain ⟨s1, h1, h2, -, -⟩ := answers_ok rs h hp hperm
  unfold dcacheIn at hs
  rw [h1] at hs
  cases hs
  have hw : Inv c (wake s1 w) [] := by
    obtain ⟨a1, a2, a3, a4, b1, b2, b3, b4, b5, b6, b7, b8, b9, b10, b11⟩ := h2
    exact ⟨a1, a2, a3, a4, b1, b2, b3, b4, b5, b6, b7, b8, b9, b10, b11⟩
  have := foldl_inv (f := moveWd c) (P := fun b => Inv c b [] ∧ Grow s1 b)
    (fun b i ⟨a1, a2⟩ => ⟨(moveWd_ok a1 i).1, a2.trans (moveWd_grow a1 i)⟩)
    (List.range (min (wake s1 w).wd.count c.win)) (wake s1 w) ⟨hw, Grow.of_fin rfl⟩
  exact (Grow.of_fin (answers_fin rs h1)).trans (this.2.trans (Grow.of_fin rfl))

theorem loadReqs_fin {c : Cfg} : ∀ (ls : List Nat) (s : LS), (ls.foldl (loadReq c) s).fin = s.fin
  | [], _ => rfl
  | l :: ls, s => (loadReqs_fin ls (loadReq c s l)).trans rfl

theorem tlbAns_fin (ans : Nat → Option Tlb) (s : LS) (r : Nat × Nat) : (tlbAns ans s r).fin = s.fin := by
  unfold tlbAns
  split
  · rfl
  · split
    · rfl
    · split
      · rfl
      · split <;> rfl

theorem window_grow {c : Cfg} {a : LS × Nat × Nat} (h : Inv c a.1 []) (i : Nat) : Grow a.1 (window c a i).1 := by
  obtain ⟨s, si, fi⟩ := a
  dsimp only at h
  unfold window
  dsimp only
  split
  · exact Grow.refl s
  · split
    · split
      · exact Grow.of_fin rfl
      · exact Grow.refl s
    · split
      · split
        · next hc => exact Grow.of_enq h.fin hc.2 rfl
        · exact Grow.refl s
      · split
        · exact Grow.of_fin rfl
        · exact Grow.refl s

theorem tlbIn_grow {c : Cfg} {s : LS} (h : Inv c s []) (ans : Nat → Option Tlb) : Grow s (tlbIn c s (tlbOut c s) ans) := by
  obtain ⟨k, ho⟩ := tlbOut_ok (c := c) h.wm
  obtain ⟨i1, -⟩ := tlbAns_ok (c := c) ans (tlbOut c s) h (fun q hq => let t := ho.ent q hq; ⟨t.1, t.2.1⟩) ho.nodup
  have e1 : ((tlbOut c s).foldl (tlbAns ans) s).fin = s.fin :=
    foldl_inv (f := tlbAns ans) (P := fun b => b.fin = s.fin) (fun b r hb => (tlbAns_fin ans b r).trans hb) _ _ rfl
  unfold tlbIn
  dsimp only
  generalize (tlbOut c s).foldl (tlbAns ans) s = s1 at i1 e1
  have := foldl_inv (f := window c) (P := fun b => Inv c b.1 [] ∧ Grow s1 b.1)
    (fun b i ⟨a1, a2⟩ => ⟨(window_ok a1 i).1, a2.trans (window_grow a1 i)⟩)
    (List.range (min s1.wm.count c.win)) (s1, 0, 0) ⟨i1, Grow.refl s1⟩
  exact (Grow.of_fin e1).trans (this.2.trans (Grow.of_fin rfl))

theorem afterStlf_grow {c : Cfg} {a : Scan} (h : a.s.fin.WF c.n) (p l : Nat) (x : Option LSt) : Grow a.s (afterStlf c a p l x).s := by
  unfold afterStlf
  split
  · exact Grow.of_fin rfl
  · split <;> exact Grow.of_fin rfl
  · split
    · next hc => exact Grow.of_enq h hc rfl
    · exact Grow.of_fin rfl
  all_goals exact Grow.of_fin rfl

theorem stlfOne_grow {c : Cfg} {cmp : Nat → Cmp} {a a' : Scan} (h : a.s.fin.WF c.n) {j : Nat} (he : stlfOne c cmp a j = some a') :
    Grow a.s a'.s := by
  unfold stlfOne at he
  split at he
  · cases he; exact Grow.refl _
  · dsimp only at he
    split at he
    · cases he; exact Grow.refl _
    · split at he
      · simp only [Option.map_eq_some_iff] at he
        obtain ⟨d, -, rfl⟩ := he
        have g := afterStlf_grow (c := c) (a := { a with s := { a.s with unc := d.2 } }) h
        exact ⟨(g _ _ _).head, (g _ _ _).slot⟩
      · cases he
        exact afterStlf_grow h _ _ _

theorem stlfLoop_grow {c : Cfg} {s0 : LS} {cmp : Nat → Cmp} (hc : ∀ l, cmp l ≠ .bad) : ∀ (m j : Nat) {a a' : Scan}, ScanInv c s0 j a →
    stlfLoop c cmp a (List.range' j m) = some a' → Grow a.s a'.s
  | 0, j, a, a', h, he => by cases he; exact Grow.refl _
  | m + 1, j, a, a', h, he => by
    obtain ⟨a1, h1, h2⟩ := stlfOne_ok h hc
    rw [List.range'_succ, stlfLoop, h1] at he
    exact (stlfOne_grow h.inv.fin h1).trans (stlfLoop_grow hc m (j + 1) h2 he)

theorem requeue_fin {c : Cfg} : ∀ (ls : List Nat) {s s' : LS}, requeue c s ls = some s' → s'.fin = s.fin
  | [], s, s', h => by cases h; rfl
  | l :: ls, s, s', h => by
    rw [requeue] at h
    split at h
    · exact (requeue_fin ls h).trans rfl
    · simp at h

theorem stlf_grow {c : Cfg} {s s' : LS} (h : Inv c s []) {cmp : Nat → Cmp} (hc : ∀ l, cmp l ≠ .bad) (hs : stlf c s cmp = some s') :
    Grow s s' := by
  have h0 : ScanInv c s 0 { s := s, retry := [], pops := 0, stop := false } :=
    ⟨h, Le.refl s, rfl, rfl, Nat.le_refl _, fun _ => rfl, fun d hd => absurd hd (Nat.not_lt_zero _), Nat.le_refl _⟩
  obtain ⟨a, h1, -⟩ := stlfLoop_ok (c := c) (s0 := s) hc (min s.sq.count c.win) 0 h0
  unfold stlf at hs
  rw [List.range_eq_range', h1] at hs
  exact (stlfLoop_grow hc _ _ h0 h1).trans (Grow.of_fin ((requeue_fin (c := c) a.retry hs).trans rfl))

theorem allocs_fin : ∀ (ls : List Nat) {s s' : LS}, allocs s ls = some s' → s'.fin = s.fin
  | [], s, s', h => by cases h; rfl
  | l :: ls, s, s', h => by
    rw [allocs] at h
    split at h
    · exact (allocs_fin ls h).trans rfl
    · simp at h

theorem issue_fin {c : Cfg} (s : LS) : (issue c s).1.fin = s.fin :=
  foldl_inv (f := issueOne c) (P := fun b => b.1.fin = s.fin) (fun b i hb => by
    refine Eq.trans ?_ hb
    obtain ⟨b, out⟩ := b
    unfold issueOne
    dsimp only
    split
    · rfl
    · split
      · rfl
      · split
        · rfl
        · split <;> rfl) _ _ rfl

/-! ### Who the answers go to -/

theorem PendOk.fn {c : Cfg} {s : LS} {pend : List (Nat × Nat)} (h : PendOk c s pend) {q q' : Nat × Nat} (hq : q ∈ pend) (hq' : q' ∈ pend)
    (e : q.1 = q'.1) : q = q' := by
  have h1 := (h.ent q hq).2.1
  have h2 := (h.ent q' hq').2.1
  rw [e, h2] at h1
  exact Prod.ext e (Option.some.inj h1).symm

theorem pend_ids_nodup {c : Cfg} {s : LS} {pend : List (Nat × Nat)} (h : PendOk c s pend) : (pend.map (·.1)).Nodup := by
  have hn : pend.Nodup := List.Pairwise.imp (fun hne e => hne (by rw [e])) (List.pairwise_map.mp h.nodup)
  unfold List.Nodup at hn ⊢
  rw [List.pairwise_map]
  exact List.Pairwise.imp_of_mem (fun ha hb hne e => hne (h.fn ha hb e)) hn

theorem mmio_pend {c : Cfg} {s : LS} (h : Inv c s []) {pend : List (Nat × Nat)} (hp : PendOk c s pend) (r : Bool) :
    Inv c (mmioIn c s r) [] ∧ PendOk c (mmioIn c s r) pend := by
  obtain ⟨m1, m2, m3, m4, m5⟩ := mmioIn_ok h r
  refine ⟨m1, ?_, hp.nodup, ?_⟩
  · intro q hq
    obtain ⟨i1, i2, i3, i4⟩ := hp.ent q hq
    rw [m3, m4]
    exact ⟨i1, i2, i3, m5 _ i4⟩
  · intro l hl; exact hp.all l (m2.nr l hl)

theorem answer_st {c : Cfg} {s s' : LS} {q : Nat × Nat} {pend : List (Nat × Nat)} (hp : PendOk c s (q :: pend))
    {r : Resp} (hr : r.id = q.1) (h : answer c s r = some s') :
    s'.st = upd s.st q.2 (if r.hit then .readyToWb else .readyToIssue) := by
  obtain ⟨i1, i2, i3, i4⟩ := hp.ent q (by simp)
  unfold answer at h
  rw [if_neg (by rw [hr]; omega), hr, i2] at h
  dsimp only at h
  rw [if_neg (by rw [i3]; simp), if_pos i4] at h
  split at h
  · next hh => cases h; rw [if_pos hh]; rfl
  · next hh => cases h; rw [if_neg hh]; rfl

theorem answers_st {c : Cfg} : ∀ (rs : List Resp) {s : LS} {pend : List (Nat × Nat)}, Inv c s [] → PendOk c s pend →
    (rs.map (·.id)).Perm (pend.map (·.1)) →
    ∃ s', answers c s rs = some s' ∧
      (∀ r ∈ rs, ∀ l, (r.id, l) ∈ pend → s'.st l = if r.hit then .readyToWb else .readyToIssue) ∧
      ∀ l, l ∉ pend.map (·.2) → s'.st l = s.st l
  | [], s, pend, h, hp, hperm => ⟨s, rfl, fun r hr => by simp at hr, fun _ _ => rfl⟩
  | r :: rs, s, pend, h, hp, hperm => by
    have hm : r.id ∈ pend.map (·.1) := hperm.mem_iff.mp (by simp)
    obtain ⟨q, hq, he⟩ := List.mem_map.mp hm
    have hpp := hp.perm (List.perm_cons_erase hq)
    obtain ⟨s1, h1, h2, h3, h4, -⟩ := answer_ok h hpp he.symm
    have hst := answer_st hpp he.symm h1
    have hperm' : (rs.map (·.id)).Perm ((pend.erase q).map (·.1)) := by
      have := hperm.trans ((List.perm_cons_erase hq).map (·.1))
      simp only [List.map_cons, he] at this
      exact this.cons_inv
    obtain ⟨s', e1, e2, e3⟩ := answers_st rs h2 h4 hperm'
    have hq2 : q.2 ∉ (pend.erase q).map (·.2) := by
      have := hpp.nodup
      simp only [List.map_cons, List.nodup_cons] at this
      exact this.1
    refine ⟨s', by rw [answers, h1]; exact e1, ?_, ?_⟩
    · intro r' hr' l hl
      cases Classical.em ((r'.id, l) = q) with
      | inl e =>
        simp only [List.mem_cons] at hr'
        rcases hr' with rfl | hr'
        · have : l = q.2 := by rw [← e]
          rw [this, e3 _ hq2, hst, upd_apply, if_pos rfl]
        · exfalso
          have hx : r'.id ∈ (pend.erase q).map (·.1) := hperm'.mem_iff.mp (List.mem_map.mpr ⟨r', hr', rfl⟩)
          have := pend_ids_nodup hpp
          simp only [List.map_cons, List.nodup_cons] at this
          rw [show r'.id = q.1 by rw [← e]] at hx
          exact this.1 hx
      | inr e =>
        simp only [List.mem_cons] at hr'
        rcases hr' with rfl | hr'
        · exact absurd (hp.fn hl hq (by simp [he])) e
        · exact e2 r' hr' l ((List.mem_erase_of_ne e).mpr hl)
    · intro l hl
      have hne : l ≠ q.2 := fun e => hl (List.mem_map.mpr ⟨q, hq, e.symm⟩)
      have hl' : l ∉ (pend.erase q).map (·.2) := by
        intro hx
        obtain ⟨z, hz, e⟩ := List.mem_map.mp hx
        exact hl (List.mem_map.mpr ⟨z, List.mem_of_mem_erase hz, e⟩)
      rw [e3 l hl', hst, upd_apply, if_neg hne]

/-! ### The report step -/

/-- Dropping invalid entries stops in front of a valid one. -/
theorem pop_pos {n : Nat} : ∀ (k : Nat) {q : Q} {d l : Nat}, q.WF n → q.slot ((q.head + d) % n) = some l →
    ∃ j, j ≤ d ∧ (q.pop n k).head = (q.head + j) % n ∧ (q.slot q.head = none → 0 < k → 0 < j)
  | 0, q, d, l, h, _ => ⟨0, Nat.zero_le _, by rw [Nat.add_zero, Nat.mod_eq_of_lt h.head]; rfl, fun _ h => absurd h (by omega)⟩
  | k + 1, q, d, l, h, hl => by
    rw [Q.pop]
    split
    · next he =>
      have hd : d ≠ 0 := by
        rintro rfl
        rw [Nat.add_zero, Nat.mod_eq_of_lt h.head, he] at hl
        exact absurd hl (by simp)
      obtain ⟨j, h1, h2, -⟩ := pop_pos k (d := d - 1) (l := l) (Q.deq_wf h he) (by
        rw [Q.deq_slot he]
        simp only [Q.deq]
        rw [Nat.mod_add_mod, show q.head + 1 + (d - 1) = q.head + d by omega]
        exact hl)
      refine ⟨j + 1, by omega, ?_, fun _ _ => Nat.succ_pos _⟩
      rw [h2]
      simp only [Q.deq]
      rw [Nat.mod_add_mod]; congr 1; omega
    · next he => exact ⟨0, Nat.zero_le _, by rw [Nat.add_zero, Nat.mod_eq_of_lt h.head], fun h => absurd h he⟩

theorem reportOne_slots {c : Cfg} (a : LS × List Nat × Nat) (i : Nat) :
    (reportOne c a i).1.fin.head = a.1.fin.head ∧
      (∀ p, (reportOne c a i).1.fin.slot p = a.1.fin.slot p ∨
        (reportOne c a i).1.fin.slot p = none ∧ ∃ l, a.1.fin.slot p = some l ∧ l ∈ (reportOne c a i).2.1) ∧
      ∀ l ∈ a.2.1, l ∈ (reportOne c a i).2.1 := by
  obtain ⟨s, wb, used⟩ := a
  unfold reportOne
  dsimp only
  split
  · exact ⟨rfl, fun _ => .inl rfl, fun _ h => h⟩
  · split
    · exact ⟨rfl, fun _ => .inl rfl, fun _ h => h⟩
    · next l hl =>
      split
      · refine ⟨rfl, fun p => ?_, fun j hj => by simp [hj]⟩
        simp only [Q.kill, upd_apply]
        by_cases e : p = (s.fin.head + i) % c.n
        · rw [if_pos e]
          exact .inr ⟨rfl, l, e ▸ hl, by simp⟩
        · rw [if_neg e]; exact .inl rfl
      · exact ⟨rfl, fun _ => .inl rfl, fun _ h => h⟩

theorem report_head {c : Cfg} {s : LS} (h : Inv c s []) {used : Nat} (hu : used < c.ldu) :
    (reportOne c (s, [], used) 0).1.fin.slot s.fin.head = none := by
  unfold reportOne
  dsimp only
  rw [if_neg (by omega), Nat.add_zero, Nat.mod_eq_of_lt h.fin.head]
  cases e : s.fin.slot s.fin.head with
  | none => exact e
  | some l =>
    dsimp only
    have := h.mfin l ⟨_, e⟩
    rw [if_pos (by cases e : s.st l <;> simp_all [okFin])]
    simp [Q.kill, upd_apply]

theorem report_live {c : Cfg} (hw : 0 < c.win) {s : LS} (h : Inv c s []) {used : Nat} (hu : used < c.ldu) {d l : Nat}
    (hd : d < s.fin.count) (hl : s.fin.slot ((s.fin.head + d) % c.n) = some l) :
    l ∈ (report c s used).2 ∨
      ∃ d', d' < d ∧ (report c s used).1.fin.slot (((report c s used).1.fin.head + d') % c.n) = some l := by
  have hk : ∃ k, min s.fin.count c.win = k + 1 := ⟨min s.fin.count c.win - 1, by omega⟩
  obtain ⟨k, hk⟩ := hk
  have ri := foldl_inv (f := reportOne c) (P := ReportInv c s) (fun b i hb => reportOne_ok hb i)
    (List.range (min s.fin.count c.win)) (s, [], used)
    ⟨h, fun _ => Iff.rfl, Nat.le_refl _, fun _ h => h, fun l => by simp, fun l hl => by simp at hl, by simp⟩
  have hs := foldl_inv (f := reportOne c)
    (P := fun a => a.1.fin.head = s.fin.head ∧
      (∀ p, a.1.fin.slot p = s.fin.slot p ∨ a.1.fin.slot p = none ∧ ∃ l, s.fin.slot p = some l ∧ l ∈ a.2.1))
    (fun a i ⟨a1, a2⟩ => by
      obtain ⟨b1, b2, b3⟩ := reportOne_slots (c := c) a i
      refine ⟨b1.trans a1, fun p => ?_⟩
      rcases b2 p with e | ⟨e, l, e1, e2⟩
      · rcases a2 p with f | ⟨f, l, f1, f2⟩
        · exact .inl (e.trans f)
        · exact .inr ⟨e.trans f, l, f1, b3 l f2⟩
      · rcases a2 p with f | ⟨f, l', f1, f2⟩
        · exact .inr ⟨e, l, f ▸ e1, e2⟩
        · rw [f] at e1; exact absurd e1 (by simp))
    (List.range (min s.fin.count c.win)) (s, [], used) ⟨rfl, fun _ => .inl rfl⟩
  have hh : ((List.range (min s.fin.count c.win)).foldl (reportOne c) (s, [], used)).1.fin.slot s.fin.head = none := by
    rw [hk, List.range_succ_eq_map, List.foldl_cons]
    have h0 := report_head h hu
    generalize reportOne c (s, [], used) 0 = a at h0 ⊢
    refine foldl_inv (f := reportOne c) (P := fun b => b.1.fin.slot s.fin.head = none) (fun b i hb => ?_) _ _ h0
    rcases (reportOne_slots (c := c) b i).2.1 s.fin.head with e | ⟨e, -⟩
    · exact e.trans hb
    · exact e
  unfold report
  dsimp only
  generalize (List.range (min s.fin.count c.win)).foldl (reportOne c) (s, [], used) = a at ri hs hh
  rcases hs.2 ((s.fin.head + d) % c.n) with e | ⟨-, j, e1, e2⟩
  · right
    rw [hl] at e
    rw [← hs.1] at e hh
    obtain ⟨j, j1, j2, j3⟩ := pop_pos (min s.fin.count c.win) ri.inv.fin e
    have := j3 hh (by omega)
    refine ⟨d - j, by omega, ?_⟩
    rw [Q.pop_slot, j2, Nat.mod_add_mod, show a.1.fin.head + j + (d - j) = a.1.fin.head + d by omega]
    exact e
  · left
    rw [hl] at e1
    exact (Option.some.inj e1) ▸ e2

/-- Over a cycle: reported, squashed, or closer to the front. -/
theorem cycle_live {c : Cfg} (hc : c.Ok) (hw : 0 < c.win) {width : Nat} {y y' : Sys} (h : SysInv c y) {x : In}
    (hv : Valid c width y x) (hs : y.cycle c x = some y') (hu : x.scPorts < c.ldu) {d l : Nat}
    (hl : y.s.fin.slot ((y.s.fin.head + d) % c.n) = some l) (hd : d < c.n) :
    l ∈ y'.wb ∨ squashed c x l ∨ ∃ d', d' < d ∧ y'.s.fin.slot ((y'.s.fin.head + d') % c.n) = some l := by
  have hn : c.n < 2 ^ 32 := Nat.lt_of_le_of_lt hc.fits (Nat.pow_lt_pow_right (by omega) (by have := hc.w; omega))
  obtain ⟨m1, m2, m3, m4, m5⟩ := mmioIn_ok h.inv x.mmio
  have pp : PendOk c (mmioIn c y.s x.mmio) y.pend := by
    refine ⟨?_, h.pend.nodup, ?_⟩
    · intro q hq
      obtain ⟨i1, i2, i3, i4⟩ := h.pend.ent q hq
      rw [m3, m4]
      exact ⟨i1, i2, i3, m5 _ i4⟩
    · intro l hl; exact h.pend.all l (m2.nr l hl)
  obtain ⟨s1, d1, d2, d3, d4⟩ := dcacheIn_ok m1 pp hv.resp x.wake
  have g1 := (mmioIn_grow h.inv x.mmio).trans (dcacheIn_grow m1 pp hv.resp d1)
  have hl1 : s1.fin.slot ((s1.fin.head + d) % c.n) = some l := by rw [g1.head]; exact g1.slot _ _ hl
  have hd1 : d < s1.fin.count := by
    obtain ⟨e, he, he'⟩ := d2.fin.inR _ _ hl1
    have := mod_inj d2.fin.head hd (show e < c.n by have := d2.fin.count; omega) he'
    omega
  have rr := report_ok d2 x.scPorts
  have rl := report_live hw d2 hu hd1 hl1
  have l01 := m2.trans d3
  obtain ⟨r1, r2, r3, r4, r5, r6, r7⟩ := rr
  dsimp only at r1 r2 r3 r4 r5 r6 r7
  have al0 : ∀ l, (report c s1 x.scPorts).1.st l = .allocated ↔ y.s.st l = .allocated := fun l => (r2 l).trans (l01.al l)
  have cr0 : (report c s1 x.scPorts).1.nAlloc c + (report c s1 x.scPorts).1.wm.count ≤ y.s.nAlloc c + y.s.wm.count := by
    have := nAlloc_congr (c := c) al0
    have := l01.cnt
    omega
  obtain ⟨q1, q2, q3⟩ := loadReqs_ok x.reqs r1 (by have := h.credit; omega) hv.reqs.1 (fun l hl => (al0 l).mpr (hv.reqs.2 l hl))
  obtain ⟨t1, t2⟩ := tlbIn_ok q1 x.tlb
  obtain ⟨s3, u1, u2, u3⟩ := stlf_ok t1 hv.cmp
  obtain ⟨r, f1, f2, f3, -⟩ := front_ok hn h hv
  have fe := f1
  unfold front at f1
  rw [d1] at f1
  dsimp only at f1
  rw [u1] at f1
  dsimp only at f1
  rw [Option.map_eq_some_iff] at f1
  obtain ⟨s4, v1, rfl⟩ := f1
  unfold Sys.cycle at hs
  rw [fe] at hs
  cases hs
  dsimp only
  rcases rl with hw | ⟨d', hd', hl'⟩
  · exact .inl hw
  · refine .inr ?_
    cases Classical.em (squashed c x l) with
    | inl hq => exact .inl hq
    | inr hq =>
      refine .inr ⟨d', hd', ?_⟩
      have g2 : Grow (report c s1 x.scPorts).1 s4 :=
        (Grow.of_fin (loadReqs_fin x.reqs _)).trans ((tlbIn_grow q1 x.tlb).trans ((stlf_grow t1 hv.cmp u1).trans (Grow.of_fin (allocs_fin _ v1))))
      have hl4 : s4.fin.slot ((s4.fin.head + d') % c.n) = some l := by rw [g2.head]; exact g2.slot _ _ hl'
      dsimp only at f2
      have e5 : (recover c s4 x).fin.head = s4.fin.head ∧ (recover c s4 x).fin.slot ((s4.fin.head + d') % c.n) = some l := by
        have hst : s4.st l ≠ .empty := by
          intro e; have := f2.mfin l ⟨_, hl4⟩; rw [e] at this; exact absurd this (by decide)
        have hrs := (recover_st s4 x l).2 hq
        unfold recover at hrs ⊢
        have hfl : x.flush = none := by
          cases e : x.flush with
          | none => rfl
          | some k => exact absurd (.inl (by simp [e])) hq
        rw [hfl] at hrs ⊢
        dsimp only at hrs ⊢
        cases hk : x.kill with
        | none => exact ⟨rfl, hl4⟩
        | some k =>
          rw [hk] at hrs
          dsimp only at hrs ⊢
          simp only [mispred, pruneAll] at hrs ⊢
          refine ⟨rfl, (Q.prune_slot f2.fin _ _ _).mpr ⟨hl4, ?_⟩⟩
          rw [hrs]; exact hst
      have e6 : (storeTakes (issue c (recover c s4 x)).1 x.storeGo).fin = (recover c s4 x).fin := by
        refine Eq.trans ?_ (issue_fin (c := c) (recover c s4 x))
        unfold storeTakes; split <;> rfl
      rw [e6, e5.1]
      exact e5.2

end Verif.LsuList

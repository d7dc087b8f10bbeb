import Verif.Proofs.LsuStqPlay

/-
A store whose entry in the first list has been overwritten is never looked at again.
-/
namespace Verif.LsuStq

open Verif.Ring
open Verif.LsuList (Q Tlb foldl_inv)

/-- The store waits for its translation and no list knows it. -/
structure Stk (n j h k : Nat) (s : SS) : Prop where
  hd : s.head = h
  ct : s.count = k
  com : s.com ≤ off n h j
  st : (s.ent j).st = .waitTlb
  wm : ∀ p, p < n → s.wm.slot p ≠ some j
  md : ∀ p, p < n → s.md.slot p ≠ some j

theorem enq_ne {N n : Nat} {q : Q} {x j : Nat} (h : ∀ p, p < N → q.slot p ≠ some j) (hx : x ≠ j) : ∀ p, p < N → (q.enq n x).slot p ≠ some j := by
  intro p hp
  simp only [Q.enq, upd]
  split
  · simpa using hx
  · exact h p hp

theorem kill_ne {q : Q} {N i j : Nat} (h : ∀ p, p < N → q.slot p ≠ some j) : ∀ p, p < N → (q.kill i).slot p ≠ some j :=
  fun p hp e => h p hp (LsuList.Q.kill_sub e)

theorem pop_ne {N n k : Nat} {q : Q} {j : Nat} (h : ∀ p, p < N → q.slot p ≠ some j) : ∀ p, p < N → (q.pop n k).slot p ≠ some j := by
  rw [LsuList.Q.pop_slot]; exact h

theorem Stk.put {c : Cfg} {j h k : Nat} {s : SS} (hs : Stk c.n j h k s) {x : Nat} {e : E} (hx : x ≠ j) : Stk c.n j h k (s.put x e) :=
  ⟨hs.hd, hs.ct, hs.com, by simp only [SS.put, upd]; rw [if_neg (Ne.symm hx)]; exact hs.st, hs.wm, hs.md⟩

theorem commitN_stk {c : Cfg} {j h k : Nat} (hh : h < c.n) (hj : j < c.n) : ∀ (m : Nat) {s s' : SS}, Stk c.n j h k s → commitN c m s = some s' → Stk c.n j h k s'
  | 0, _, _, hs, e => by cases e; exact hs
  | m + 1, s, s', hs, e => by
    rw [commitN] at e
    split at e
    · next hw =>
      have hne : s.at c s.com ≠ j := by rintro rfl; rw [hs.st] at hw; cases hw
      have h1 := hs.put (x := s.at c s.com) (e := { s.ent (s.at c s.com) with st := .gone }) hne
      have hcm : s.com + 1 ≤ off c.n h j := by
        have h2 := hs.com
        have h3 : s.com ≠ off c.n h j := by
          intro e
          refine hne ?_
          unfold SS.at
          rw [hs.hd, e]
          exact at_off hh hj
        omega
      exact commitN_stk hh hj m (s := { s.setSt (s.at c s.com) .gone with com := s.com + 1 }) ⟨h1.hd, h1.ct, hcm, h1.st, h1.wm, h1.md⟩ e
    · cases e

theorem report_stk {c : Cfg} (hn : 0 < c.n) {j h k : Nat} {s : SS} (hs : Stk c.n j h k s) : Stk c.n j h k (report c s).1 ∧ j ∉ (report c s).2 := by
  have key := foldl_inv (f := reportOne c) (P := fun r : Rep => Stk c.n j h k r.s ∧ j ∉ r.out) (by
    rintro r i ⟨h1, h2⟩
    unfold reportOne
    dsimp only
    split
    · exact ⟨h1, h2⟩
    · next x hx =>
      have hne : x ≠ j := by rintro rfl; exact h1.md _ (Nat.mod_lt _ hn) hx
      have hp := h1.put (x := x) (e := { r.s.ent x with st := .waitCommit }) hne
      have ho : j ∉ r.out ++ [x] := by simp [h2, Ne.symm hne]
      repeat' split
      all_goals first
        | exact ⟨h1, h2⟩
        | exact ⟨⟨hp.hd, hp.ct, hp.com, hp.st, hp.wm, kill_ne h1.md⟩, ho⟩) (List.range (min s.md.count c.win))
    { s := s, out := [], st := 0, ld := 0 } ⟨hs, by simp⟩
  obtain ⟨h1, h2⟩ := key
  exact ⟨⟨h1.hd, h1.ct, h1.com, h1.st, h1.wm, pop_ne h1.md⟩, h2⟩

theorem dataIn_stk {c : Cfg} {j h k : Nat} {s : SS} (hs : Stk c.n j h k s) (x : Nat) : Stk c.n j h k (dataIn c s x) := by
  by_cases hx : x = j
  · subst hx
    unfold dataIn
    rw [if_neg (by rw [hs.st]; simp)]
    exact ⟨hs.hd, hs.ct, hs.com, by simp only [SS.put, upd]; simpa using hs.st, hs.wm, hs.md⟩
  · have hp := fun e => hs.put (x := x) (e := e) hx
    unfold dataIn
    split
    · exact ⟨hs.hd, hs.ct, hs.com, (hp _).st, hs.wm, enq_ne hs.md hx⟩
    · exact hp _

theorem addrIn_stk {c : Cfg} {j h k : Nat} {s : SS} (hs : Stk c.n j h k s) {a : Nat × Bool} (ha : a.1 ≠ j) : Stk c.n j h k (addrIn c s a) :=
  ⟨hs.hd, hs.ct, hs.com, (hs.put (e := { s.ent a.1 with st := .waitTlb, sc := a.2 }) ha).st, enq_ne hs.wm ha, hs.md⟩

theorem tlbAns_stk {c : Cfg} {j h k : Nat} {s : SS} (hs : Stk c.n j h k s) (ans : Nat → Option Tlb) {r : Nat × Nat} (hr : r.1 < c.n) : Stk c.n j h k (tlbAns ans s r) := by
  unfold tlbAns
  split
  · exact hs
  · split
    · exact hs
    · next h1 =>
      have hne : r.2 ≠ j := by
        intro e
        have := Classical.not_not.mp h1
        exact hs.wm _ hr (e ▸ this)
      repeat' split
      all_goals first
        | exact hs
        | exact hs.put hne

theorem window_stk {c : Cfg} (hn : 0 < c.n) {j h k : Nat} {s : SS} (hs : Stk c.n j h k s) (i : Nat) : Stk c.n j h k (window c s i) := by
  unfold window
  dsimp only
  split
  · exact hs
  · next x hx =>
    have hne : x ≠ j := by rintro rfl; exact hs.wm _ (Nat.mod_lt _ hn) hx
    split
    · exact ⟨hs.hd, hs.ct, hs.com, (hs.put (x := x) hne).st, kill_ne hs.wm, enq_ne hs.md hne⟩
    · exact ⟨hs.hd, hs.ct, hs.com, hs.st, kill_ne hs.wm, hs.md⟩
    · exact hs.put hne
    · exact hs

theorem tlbOut_lt {c : Cfg} (hn : 0 < c.n) (s : SS) : ∀ r ∈ tlbOut c s, r.1 < c.n := by
  unfold tlbOut
  refine foldl_inv (P := fun rs : List (Nat × Nat) => ∀ r ∈ rs, r.1 < c.n) ?_ _ [] (by simp)
  intro rs i hr
  dsimp only
  have hm := Nat.mod_lt (s.wm.head + i) hn
  repeat' split
  all_goals first
    | exact hr
    | (intro r hmem
       rcases List.mem_append.mp hmem with h | h
       · exact hr r h
       · rw [List.mem_singleton.mp h]; exact hm)

theorem front_stk {c : Cfg} {j h k : Nat} (hh : h < c.n) (hj : j < c.n) {s : SS} (hs : Stk c.n j h k s) {x : In} (ha : ∀ a ∈ x.addr, a.1 ≠ j) {r : SS × List Nat}
    (e : front c s x = some r) : Stk c.n j h k r.1 ∧ j ∉ r.2 := by
  have hn : 0 < c.n := by omega
  unfold front at e
  rw [Option.map_eq_some_iff] at e
  obtain ⟨s0, e0, rfl⟩ := e
  obtain ⟨h1, h2⟩ := report_stk (c := c) hn (commitN_stk hh hj _ hs e0)
  refine ⟨?_, h2⟩
  have h3 := foldl_inv (f := dataIn c) (P := Stk c.n j h k) (fun s i hs => dataIn_stk hs i) x.data _ h1
  have h4 : Stk c.n j h k (x.addr.foldl (addrIn c) (x.data.foldl (dataIn c) (report c s0).1)) := by
    generalize x.data.foldl (dataIn c) (report c s0).1 = s1 at h3 ⊢
    generalize x.addr = l at ha ⊢
    induction l generalizing s1 with
    | nil => exact h3
    | cons a l ih =>
      exact ih _ (addrIn_stk h3 (ha a (List.mem_cons_self ..))) (fun b hb => ha b (List.mem_cons_of_mem _ hb))
  dsimp only
  generalize x.addr.foldl (addrIn c) (x.data.foldl (dataIn c) (report c s0).1) = s2 at h4 ⊢
  unfold tlbIn
  have h5 : Stk c.n j h k ((tlbOut c s2).foldl (tlbAns x.tlb) s2) := by
    have hr := tlbOut_lt hn s2
    generalize tlbOut c s2 = l at hr ⊢
    induction l generalizing s2 with
    | nil => exact h4
    | cons a l ih => exact ih _ (tlbAns_stk h4 _ (hr a (List.mem_cons_self ..))) (fun b hb => hr b (List.mem_cons_of_mem _ hb))
  have h6 := foldl_inv (f := window c) (P := Stk c.n j h k) (fun s i hs => window_stk hn hs i)
    (List.range (min (List.foldl (tlbAns x.tlb) s2 (tlbOut c s2)).wm.count c.win)) _ h5
  exact ⟨h6.hd, h6.ct, h6.com, h6.st, pop_ne h6.wm, h6.md⟩

theorem allocN_stk {c : Cfg} {j h k : Nat} (hh : h < c.n) (hj : off c.n h j < k) (hjn : j < c.n) : ∀ (m : Nat) {i : Nat} {s s' : SS}, Stk c.n j h (k + i) s →
    allocN c m s = some s' → ∃ k', k ≤ k' ∧ Stk c.n j h k' s'
  | 0, i, _, _, hs, e => by cases e; exact ⟨_, Nat.le_add_right _ _, hs⟩
  | m + 1, i, s, s', hs, e => by
    rw [allocN] at e
    split at e
    · cases e
    · next hc =>
      have hne : s.at c s.count ≠ j := by
        intro e
        have h1 := off_at (n := c.n) (h := h) (i := s.count) hh (by omega)
        have h2 : (h + s.count) % c.n = j := by rw [← hs.hd]; exact e
        rw [h2, hs.ct] at h1
        omega
      have h1 := hs.put (x := s.at c s.count) (e := { st := .allocated, dv := false, pf := false, sc := false }) hne
      exact allocN_stk hh hj hjn m (i := i + 1)
        (s := { s.put (s.at c s.count) { st := .allocated, dv := false, pf := false, sc := false } with count := s.count + 1 })
        ⟨h1.hd, by show s.count + 1 = _; rw [hs.ct]; rfl, h1.com, h1.st, h1.wm, h1.md⟩ e

/-- A lost store: in the queue, waiting for its translation, in no slot of either list. -/
structure Lost (c : Cfg) (s : SS) (j : Nat) : Prop where
  hd : s.head < c.n
  live : s.live c j = true
  com : s.com ≤ off c.n s.head j
  st : (s.ent j).st = .waitTlb
  wm : ∀ p, p < c.n → s.wm.slot p ≠ some j
  md : ∀ p, p < c.n → s.md.slot p ≠ some j

theorem lost_cycle {c : Cfg} {W : Nat} {y y' : Sys} {x : In} {j : Nat} (hl : Lost c y.s j) (hv : Valid c W y x) (e : y.cycle c x = some y') :
    j ∉ y'.out ∧ (x.flush = false → x.keep = none → Lost c y'.s j) := by
  unfold Sys.cycle at e
  split at e
  · cases e
  · next r hr =>
    rw [Option.map_eq_some_iff] at e
    obtain ⟨s1, e1, rfl⟩ := e
    have lv := live_iff.mp hl.live
    have ha : ∀ a ∈ x.addr, a.1 ≠ j := by
      rintro a ha rfl
      have := (hv.addr.2 a ha).2
      rw [hl.st] at this
      cases this
    obtain ⟨h1, h2⟩ := front_stk (j := j) (h := y.s.head) (k := y.s.count) hl.hd lv.1 ⟨rfl, rfl, hl.com, hl.st, hl.wm, hl.md⟩ ha hr
    obtain ⟨k', hk', h3⟩ := allocN_stk (i := 0) hl.hd lv.2 lv.1 _ h1 e1
    refine ⟨h2, fun hf hk => ?_⟩
    have hrec : recover c s1 x = s1 := by unfold recover; rw [hf, hk]; rfl
    dsimp only
    rw [hrec]
    have h4 := h3.com
    have h5 := off_lt (x := j) hl.hd
    have hm : min x.retire (min s1.com s1.count) ≤ off c.n y.s.head j := by
      generalize off c.n y.s.head j = o at *; omega
    have hmv := (off_move hl.hd (k := min x.retire (min s1.com s1.count)) (by omega) lv.1).1 hm
    have e2 : off c.n (retire c s1 x.retire).head j = off c.n y.s.head j - min x.retire (min s1.com s1.count) := by
      rw [← hmv, ← h3.hd]; rfl
    refine ⟨Nat.mod_lt _ (by omega), ?_, ?_, h3.st, h3.wm, h3.md⟩
    · refine live_iff.mpr ⟨lv.1, ?_⟩
      rw [e2]
      show _ < s1.count - min x.retire (min s1.com s1.count)
      have := h3.ct
      omega
    · rw [e2]
      show s1.com - min x.retire (min s1.com s1.count) ≤ _
      omega

end Verif.LsuStq

import Verif.Proofs.LsuStqStep

/-
Store side of the load/store unit: report, translation, dispatch, recovery, retirement.
-/
namespace Verif.LsuStq

open Verif.Ring
open Verif.LsuList (Q Tlb foldl_inv upd_apply)

/-! ### Report -/

structure RepOk (c : Cfg) (A B : Nat) (s0 : SS) (i : Nat) (a : Rep) : Prop where
  core : Core c A B a.s
  clean : Clean a.s
  hd : a.s.head = s0.head
  cnt : a.s.count = s0.count
  com : a.s.com = s0.com
  wm : a.s.wm = s0.wm
  mh : a.s.md.head = s0.md.head
  mc : a.s.md.count = s0.md.count
  ms : ∀ p x, a.s.md.slot p = some x → s0.md.slot p = some x
  po : a.st ≤ i ∧ a.ld ≤ i
  lim : a.st ≤ c.sta ∧ a.ld ≤ c.ldu
  done : ∀ j, j < i → j < c.sta → j < c.ldu → a.s.md.slot ((s0.md.head + j) % c.n) = none
  ent : ∀ x, (x ∈ a.out ∧ s0.live c x = true ∧ ((s0.ent x).st = .ready ∨ (s0.ent x).st = .pageFault) ∧
      a.s.ent x = { s0.ent x with st := .waitCommit }) ∨ (x ∉ a.out ∧ a.s.ent x = s0.ent x)
  nodup : a.out.Nodup
  sc : (a.out.filter fun x => (s0.ent x).sc).length = a.ld
  nsc : (a.out.filter fun x => !(s0.ent x).sc).length = a.st

theorem reportOne_ok {c : Cfg} {A B : Nat} {s0 : SS} {i : Nat} {a : Rep} (h : RepOk c A B s0 i a) :
    RepOk c A B s0 (i + 1) (reportOne c a i) := by
  have keep : (a.s.md.slot ((s0.md.head + i) % c.n) = none ∨ ¬ (i < c.sta ∧ i < c.ldu)) → RepOk c A B s0 (i + 1) a := by
    intro hn
    refine { h with po := ⟨by have := h.po; omega, by have := h.po; omega⟩, done := ?_ }
    intro j hj h1 h2
    by_cases e : j = i
    · subst e
      rcases hn with hn | hn
      · exact hn
      · exact absurd ⟨h1, h2⟩ hn
    · exact h.done j (by omega) h1 h2
  unfold reportOne
  dsimp only
  rw [h.mh]
  split
  · next hn => exact keep (.inl hn)
  · next x hx =>
    have hm : a.s.md.Mem x := ⟨_, hx⟩
    have hl := h.core.mdL x hm
    have hst := (h.core.ok x hl).m1 hm
    have hl0 : s0.live c x = true := by rw [← live_congr h.hd h.cnt]; exact hl
    have hxo : x ∉ a.out ∧ a.s.ent x = s0.ent x := by
      rcases h.ent x with ⟨-, -, -, e⟩ | e
      · rw [e] at hst; simp at hst
      · exact e
    have go : ∀ (st' ld' : Nat), st' ≤ i + 1 ∧ ld' ≤ i + 1 → st' ≤ c.sta ∧ ld' ≤ c.ldu →
        ((a.out ++ [x]).filter fun x => (s0.ent x).sc).length = ld' → ((a.out ++ [x]).filter fun x => !(s0.ent x).sc).length = st' →
        RepOk c A B s0 (i + 1) { s := { a.s.setSt x .waitCommit with md := a.s.md.kill ((s0.md.head + i) % c.n) }, out := a.out ++ [x], st := st', ld := ld' } := by
      intro st' ld' hp hlim hsc hnsc
      have em := LsuList.Q.kill_mem h.core.mdW hx
      have ok := h.core.ok x hl
      have hnw : ¬ a.s.wm.Mem x := by
        intro w
        have := ok.w1 w
        rcases hst with e | e <;> rw [e] at this <;> simp at this
      refine ⟨h.core.upd hl rfl rfl rfl (fun j e => ?_) h.core.wmW (LsuList.Q.kill_wf h.core.mdW _) (fun j e => Iff.rfl) (fun j e => ?_) ?_ ?_ ?_ ?_,
        ?_, h.hd, h.cnt, h.com, h.wm, h.mh, h.mc, ?_, hp, hlim, ?_, ?_, ?_, hsc, hnsc⟩
      · simp [SS.setSt, SS.put, upd_apply, e]
      · show (a.s.md.kill _).Mem j ↔ _; rw [em]; simp [e]
      · simp only [SS.setSt, SS.put, upd_apply, if_pos]
        refine ⟨fun w => absurd w hnw, by simp, fun w => absurd rfl ((em x).mp w).2, by simp, by simp, by simp, fun _ => ?_, by simp, by simp⟩
        rcases hst with e | e
        · exact .inl (ok.d2 e)
        · exact .inr (ok.p1 e)
      · rcases hst with e | e <;> simp [SS.setSt, SS.put, upd_apply, e]
      · rcases hst with e | e <;> simp [SS.setSt, SS.put, upd_apply, e, isAlloc]
      · rcases hst with e | e <;> simp [SS.setSt, SS.put, upd_apply, e, pend, Q.kill]
      · intro j hj
        have : j ≠ x := fun e => hnw (e ▸ hj)
        simp only [SS.setSt, SS.put, upd_apply, if_neg this]
        exact h.clean j hj
      · intro p y hp
        exact h.ms p y (LsuList.Q.kill_sub hp)
      · intro j hj h1 h2
        show upd a.s.md.slot _ none _ = none
        rw [upd_apply]
        split
        · rfl
        · next e =>
          refine h.done j ?_ h1 h2
          have : j ≠ i := fun e' => e (by rw [e'])
          omega
      · intro j
        by_cases e : j = x
        · subst e
          refine .inl ⟨by simp, hl0, by rw [← hxo.2]; exact hst, ?_⟩
          simp [SS.setSt, SS.put, upd_apply, hxo.2]
        · have : ({ a.s.setSt x .waitCommit with md := a.s.md.kill ((s0.md.head + i) % c.n) } : SS).ent j = a.s.ent j := by
            simp [SS.setSt, SS.put, upd_apply, e]
          rcases h.ent j with ⟨b1, b2, b3, b4⟩ | ⟨b1, b2⟩
          · exact .inl ⟨by simp [b1], b2, b3, this.trans b4⟩
          · exact .inr ⟨by simp [b1, e], this.trans b2⟩
      · show (a.out ++ [x]).Nodup
        rw [List.nodup_append]
        refine ⟨h.nodup, by simp, ?_⟩
        intro y hy z hz
        rw [List.mem_singleton] at hz
        subst hz
        exact fun e => hxo.1 (e ▸ hy)
    rw [if_pos hst]
    obtain ⟨p1, p2⟩ := h.po
    obtain ⟨l1, l2⟩ := h.lim
    have hs := h.sc
    have hns := h.nsc
    rw [hxo.2]
    split
    · next hsc =>
      split
      · exact keep (.inr (by omega))
      · exact go _ _ ⟨by omega, by omega⟩ ⟨by omega, by omega⟩ (by simp [List.filter_append, hsc, hs]) (by simp [List.filter_append, hsc, hns])
    · next hsc =>
      have hsc : (s0.ent x).sc = false := by cases e : (s0.ent x).sc <;> simp_all
      split
      · exact keep (.inr (by omega))
      · exact go _ _ ⟨by omega, by omega⟩ ⟨by omega, by omega⟩ (by simp [List.filter_append, hsc, hs]) (by simp [List.filter_append, hsc, hns])

theorem pop_many {n : Nat} : ∀ (m k : Nat) {q : Q}, q.WF n → m ≤ k → m ≤ q.count → (∀ j, j < m → q.slot ((q.head + j) % n) = none) →
    (q.pop n k).count + m ≤ q.count
  | 0, k, q, _, _, _, _ => by have := LsuList.Q.pop_count (n := n) k q; omega
  | m + 1, k, q, h, hk, hc, hs => by
    obtain ⟨k, rfl⟩ : ∃ k', k = k' + 1 := ⟨k - 1, by omega⟩
    have h0 : q.slot q.head = none := by
      have := hs 0 (by omega)
      rwa [Nat.add_zero, Nat.mod_eq_of_lt h.head] at this
    rw [Q.pop, if_pos h0]
    have := pop_many m k (q := q.deq n) (LsuList.Q.deq_wf h h0) (by omega) (by simp only [Q.deq]; omega) (by
      intro j hj
      rw [LsuList.Q.deq_slot h0]
      show q.slot (((q.head + 1) % n + j) % n) = none
      rw [Nat.mod_add_mod, Nat.add_assoc, Nat.add_comm 1 j]
      exact hs (j + 1) (by omega))
    have hd : (q.deq n).count = q.count - 1 := rfl
    omega

/-- The report: the stores in `out` become reported, the rest stays; the list gets shorter by the number of ports,
or empty if it was shorter. -/
theorem report_ok {c : Cfg} {A B : Nat} {s : SS} (h : Core c A B s) (hk : Clean s) :
    ∃ a, RepOk c A B s (min s.md.count c.win) a ∧
      report c s = ({ a.s with md := a.s.md.pop c.n (min a.s.md.count c.win) }, a.out) := by
  refine ⟨_, ?_, rfl⟩
  generalize min s.md.count c.win = k
  induction k with
  | zero =>
    exact ⟨h, hk, rfl, rfl, rfl, rfl, rfl, rfl, fun _ _ h => h, ⟨Nat.le_refl _, Nat.le_refl _⟩, ⟨Nat.zero_le _, Nat.zero_le _⟩,
      fun j hj => absurd hj (by omega), fun x => .inr ⟨by simp, rfl⟩, by simp, rfl, rfl⟩
  | succ k ih =>
    rw [List.range_succ, List.foldl_append, List.foldl_cons, List.foldl_nil]
    exact reportOne_ok ih

theorem core_md {c : Cfg} {A B B' : Nat} {s : SS} {q : Q} (h : Core c A B s) (hw : q.WF c.n) (hm : ∀ x, q.Mem x ↔ s.md.Mem x)
    (hb : q.count + cnt c s pend ≤ B') : Core c A B' { s with md := q } :=
  ⟨h.wmW, hw, h.hd, h.cl, h.cm, h.wmL, fun x hx => h.mdL x ((hm x).mp hx), fun x hx =>
    let t := h.ok x hx
    ⟨t.w1, t.w2, fun w => t.m1 ((hm x).mp w), fun w => (hm x).mpr (t.m2 w), t.d1, t.d2, t.d3, t.p1, t.p2⟩, h.go, h.cA, hb⟩

theorem core_wm {c : Cfg} {A B A' : Nat} {s : SS} {q : Q} (h : Core c A B s) (hw : q.WF c.n) (hm : ∀ x, q.Mem x ↔ s.wm.Mem x)
    (ha : cnt c s isAlloc + q.count ≤ A') : Core c A' B { s with wm := q } :=
  ⟨hw, h.mdW, h.hd, h.cl, h.cm, fun x hx => h.wmL x ((hm x).mp hx), h.mdL, fun x hx =>
    let t := h.ok x hx
    ⟨fun w => t.w1 ((hm x).mp w), fun w => (hm x).mpr (t.w2 w), t.m1, t.m2, t.d1, t.d2, t.d3, t.p1, t.p2⟩, h.go, ha, h.cB⟩

/-- The list of stores to be reported has room for what dispatch may bring, or everything in it is in the queue. -/
theorem report_core {c : Cfg} {A W : Nat} {s : SS} (h : Core c A c.n s) (hk : Clean s) (h1 : W ≤ c.sta) (h2 : W ≤ c.ldu) (h3 : W ≤ c.win) :
    Core c A (max (c.n - W) s.count) (report c s).1 ∧ Clean (report c s).1 := by
  obtain ⟨a, ha, e⟩ := report_ok h hk
  rw [e]
  refine ⟨core_md ha.core (LsuList.Q.pop_wf _ ha.core.mdW) (fun x => LsuList.Q.pop_mem x) ?_, ha.clean⟩
  have hb := ha.core.cB
  have hp := pop_many (n := c.n) (min W a.s.md.count) (min a.s.md.count c.win) ha.core.mdW (by omega) (by omega) (by
    intro j hj
    rw [ha.mh]
    rw [ha.mc] at hj
    exact ha.done j (by omega) (by omega) (by omega))
  have hcnt := cnt_le ha.core.hd ha.core.cl pend
  rw [ha.cnt] at hcnt
  generalize (a.s.md.pop c.n (min a.s.md.count c.win)).count = pc at hp ⊢
  generalize hm : min W a.s.md.count = m at hp
  have : m = W ∨ m = a.s.md.count := by omega
  generalize cnt c a.s pend = k at *
  omega

/-! ### Translation -/

structure OutOk (c : Cfg) (s : SS) (rs : List (Nat × Nat)) : Prop where
  ent : ∀ q ∈ rs, s.wm.slot q.1 = some q.2 ∧ (s.ent q.2).st = .waitTlb ∧ ∃ d, d < min s.wm.count c.win ∧ q.1 = (s.wm.head + d) % c.n
  len : rs.length ≤ c.sta

theorem tlbOut_ok (c : Cfg) (s : SS) : OutOk c s (tlbOut c s) := by
  unfold tlbOut
  suffices h : ∀ k, k ≤ min s.wm.count c.win → OutOk c s ((List.range k).foldl (fun (rs : List (Nat × Nat)) i =>
    if rs.length ≥ c.sta then rs
    else
      let p := (s.wm.head + i) % c.n
      match s.wm.slot p with
      | none => rs
      | some x => if (s.ent x).st = .waitTlb then rs ++ [(p, x)] else rs) []) from h _ (Nat.le_refl _)
  intro k hk
  induction k with
  | zero => exact ⟨fun q hq => by simp at hq, Nat.zero_le _⟩
  | succ k ih =>
    have ih := ih (by omega)
    rw [List.range_succ, List.foldl_append, List.foldl_cons, List.foldl_nil]
    generalize List.foldl _ _ (List.range k) = rs at ih ⊢
    split
    · exact ih
    · dsimp only
      split
      · exact ih
      · next l hl =>
        split
        · next hst =>
          refine ⟨?_, ?_⟩
          · intro q hq
            rw [List.mem_append, List.mem_singleton] at hq
            rcases hq with hq | rfl
            · exact ih.ent q hq
            · exact ⟨hl, hst, k, by omega, rfl⟩
          · rw [List.length_append, List.length_singleton]; omega
        · exact ih

/-- Half-way stores of the first list are in the part of the window from `i` on. -/
def Half (c : Cfg) (s : SS) (i K : Nat) : Prop :=
  ∀ p x, s.wm.slot p = some x → (s.ent x).st = .waitTlb ∨ ∃ d, i ≤ d ∧ d < K ∧ p = (s.wm.head + d) % c.n

/-- What translation does to a store. -/
structure TFr (s s' : SS) : Prop extends Fr s s' where
  al : ∀ x, (s'.ent x).st = .allocated ↔ (s.ent x).st = .allocated
  dv' : ∀ x, (s'.ent x).dv = (s.ent x).dv

theorem TFr.refl (s : SS) : TFr s s := ⟨Fr.refl s, fun _ => Iff.rfl, fun _ => rfl⟩

theorem TFr.trans {a b d : SS} (h : TFr a b) (h' : TFr b d) : TFr a d :=
  ⟨h.toFr.trans h'.toFr, fun x => (h'.al x).trans (h.al x), fun x => (h'.dv' x).trans (h.dv' x)⟩

theorem tlbAns_ok {c : Cfg} {A B K : Nat} (ans : Nat → Option Tlb) {s : SS} {q : Nat × Nat} (h : Core c A B s) (hh : Half c s 0 K)
    (hq : ∃ d, d < K ∧ q.1 = (s.wm.head + d) % c.n) :
    Core c A B (tlbAns ans s q) ∧ Half c (tlbAns ans s q) 0 K ∧ TFr s (tlbAns ans s q) ∧ (tlbAns ans s q).wm = s.wm := by
  have id : Core c A B s ∧ Half c s 0 K ∧ TFr s s ∧ s.wm = s.wm := ⟨h, hh, TFr.refl s, rfl⟩
  unfold tlbAns
  split
  · exact id
  · next t ht =>
    split
    · exact id
    · next e =>
      have e : s.wm.slot q.1 = some q.2 := Classical.not_not.mp e
      split
      · exact id
      · next hst =>
        have hst : (s.ent q.2).st = .waitTlb := Classical.not_not.mp hst
        have hm : s.wm.Mem q.2 := ⟨_, e⟩
        have hl := h.wmL _ hm
        have ok := h.ok _ hl
        have hnm : ¬ s.md.Mem q.2 := fun w => by have := ok.m1 w; rw [hst] at this; simp at this
        have hpf : (s.ent q.2).pf = false := by
          cases e : (s.ent q.2).pf with
          | false => rfl
          | true => have := ok.p2 e; rw [hst] at this; simp at this
        have key : ∀ (st : SSt) (pf : Bool), (st = .waitDone ∧ ((s.ent q.2).dv = true ∨ pf = true)) ∨ (st = .waitData ∧ (s.ent q.2).dv = false ∧ pf = false) ∨
            (st = .retry ∧ pf = false) →
            Core c A B (s.put q.2 { s.ent q.2 with st := st, pf := pf }) ∧ Half c (s.put q.2 { s.ent q.2 with st := st, pf := pf }) 0 K ∧
            TFr s (s.put q.2 { s.ent q.2 with st := st, pf := pf }) ∧ (s.put q.2 { s.ent q.2 with st := st, pf := pf }).wm = s.wm := by
          intro st pf hx
          refine ⟨h.upd hl rfl rfl rfl (fun j e => ?_) h.wmW h.mdW (fun j e => Iff.rfl) (fun j e => Iff.rfl) ?_ ?_ ?_ ?_, ?_, ⟨⟨rfl, rfl, rfl, ?_, ?_, ?_, rfl, fun _ _ h => h⟩, ?_, ?_⟩, rfl⟩
          · simp [SS.put, upd_apply, e]
          · simp only [SS.put, upd_apply, if_pos]
            rcases hx with ⟨rfl, hx⟩ | ⟨rfl, hx⟩ | ⟨rfl, hx⟩
            · exact ⟨by simp, fun _ => hm, fun w => absurd w hnm, by simp, by simp, by simp, fun _ => hx, by simp, by simp⟩
            · exact ⟨by simp, fun _ => hm, fun w => absurd w hnm, by simp, fun _ => hx.1, by simp, by simp, by simp, by simp [hx.2]⟩
            · exact ⟨by simp, fun _ => hm, fun w => absurd w hnm, by simp, by simp, by simp, by simp, by simp, by simp [hx]⟩
          · rcases hx with ⟨rfl, hx⟩ | ⟨rfl, hx⟩ | ⟨rfl, hx⟩ <;> simp [SS.put, upd_apply, hst]
          · rcases hx with ⟨rfl, hx⟩ | ⟨rfl, hx⟩ | ⟨rfl, hx⟩ <;> simp [SS.put, upd_apply, hst, isAlloc]
          · rcases hx with ⟨rfl, hx⟩ | ⟨rfl, hx⟩ | ⟨rfl, hx⟩ <;> simp [SS.put, upd_apply, hst, pend]
          · intro p x hp
            by_cases ex : x = q.2
            · subst ex
              obtain ⟨d, hd, e'⟩ := hq
              exact .inr ⟨d, Nat.zero_le _, hd, (h.wmW.uniq _ _ _ hp e).trans e'⟩
            · have := hh p x hp
              simpa [SS.put, upd_apply, ex] using this
          · intro j
            by_cases e : j = q.2
            · rcases hx with ⟨rfl, hx⟩ | ⟨rfl, hx⟩ | ⟨rfl, hx⟩ <;> simp [SS.put, upd_apply, e, hst, rep]
            · simp [SS.put, upd_apply, e]
          · intro j; by_cases e : j = q.2 <;> simp [SS.put, upd_apply, e]
          · intro j; by_cases e : j = q.2 <;> simp [SS.put, upd_apply, e, hst]
          · intro j
            by_cases e : j = q.2
            · rcases hx with ⟨rfl, hx⟩ | ⟨rfl, hx⟩ | ⟨rfl, hx⟩ <;> simp [SS.put, upd_apply, e, hst]
            · simp [SS.put, upd_apply, e]
          · intro j; by_cases e : j = q.2 <;> simp [SS.put, upd_apply, e]
        have key' : ∀ st : SSt, s.setSt q.2 st = s.put q.2 { s.ent q.2 with st := st, pf := false } := by
          intro st; rw [← hpf]; rfl
        cases t with
        | hit =>
          dsimp only
          rw [key']
          cases hd : (s.ent q.2).dv
          · exact key .waitData false (.inr (.inl ⟨rfl, hd, rfl⟩))
          · exact key .waitDone false (.inl ⟨rfl, .inl hd⟩)
        | fault => exact key .waitDone true (.inl ⟨rfl, .inr rfl⟩)
        | miss => dsimp only; rw [key']; exact key .retry false (.inr (.inr ⟨rfl, rfl⟩))

theorem tlbAnsAll_ok {c : Cfg} {A B K : Nat} (ans : Nat → Option Tlb) : ∀ (rs : List (Nat × Nat)) {s : SS}, Core c A B s → Half c s 0 K →
    (∀ q ∈ rs, ∃ d, d < K ∧ q.1 = (s.wm.head + d) % c.n) →
    Core c A B (rs.foldl (tlbAns ans) s) ∧ Half c (rs.foldl (tlbAns ans) s) 0 K ∧ TFr s (rs.foldl (tlbAns ans) s) ∧
      (rs.foldl (tlbAns ans) s).wm = s.wm
  | [], s, h, hh, _ => ⟨h, hh, TFr.refl s, rfl⟩
  | q :: rs, s, h, hh, hq => by
    rw [List.foldl_cons]
    obtain ⟨a1, a2, a3, a4⟩ := tlbAns_ok ans h hh (hq q (by simp))
    obtain ⟨b1, b2, b3, b4⟩ := tlbAnsAll_ok ans rs a1 a2 (fun r hr => by rw [a4]; exact hq r (by simp [hr]))
    exact ⟨b1, b2, a3.trans b3, b4.trans a4⟩

theorem window_ok {c : Cfg} {A B K i : Nat} (hB : B ≤ c.n) {s : SS} (h : Core c A B s) (hh : Half c s i K) :
    Core c A B (window c s i) ∧ Half c (window c s i) (i + 1) K ∧ TFr s (window c s i) ∧
      (window c s i).wm.head = s.wm.head ∧ (window c s i).wm.count = s.wm.count := by
  -- a store that is not at slot `i`, or is translated, is not concerned
  have skip : (∀ x, s.wm.slot ((s.wm.head + i) % c.n) = some x → (s.ent x).st = .waitTlb) → Half c s (i + 1) K := by
    intro hn p x hp
    rcases hh p x hp with e | ⟨d, d1, d2, e⟩
    · exact .inl e
    · by_cases di : d = i
      · subst di; exact .inl (hn x (e ▸ hp))
      · exact .inr ⟨d, by omega, d2, e⟩
  unfold window
  dsimp only
  split
  · next hn => exact ⟨h, skip (by simp [hn]), TFr.refl s, rfl, rfl⟩
  · next x hx =>
    have hm : s.wm.Mem x := ⟨_, hx⟩
    have hl := h.wmL _ hm
    have ok := h.ok _ hl
    have em := LsuList.Q.kill_mem h.wmW hx
    have kw := LsuList.Q.kill_wf h.wmW ((s.wm.head + i) % c.n)
    have half : ∀ s' : SS, (∀ p y, s'.wm.slot p = some y → s.wm.slot p = some y) → s'.wm.head = s.wm.head →
        (s'.wm.slot ((s.wm.head + i) % c.n) = none ∨ (s'.ent x).st = .waitTlb) → (∀ j, j ≠ x → s'.ent j = s.ent j) → Half c s' (i + 1) K := by
      intro s' a1 a2 a3 a4 p y hp
      have hp0 := a1 p y hp
      by_cases e : y = x
      · subst e
        rcases a3 with a3 | a3
        · rw [h.wmW.uniq _ _ _ hp0 hx, a3] at hp; simp at hp
        · exact .inl a3
      · rw [a4 y e, a2]
        rcases hh p y hp0 with e' | ⟨d, d1, d2, e'⟩
        · exact .inl e'
        · refine .inr ⟨d, ?_, d2, e'⟩
          have : d ≠ i := by
            rintro rfl
            rw [e', hx] at hp0
            exact e (Option.some.inj hp0).symm
          omega
    split
    · next hst =>
      have hnm : ¬ s.md.Mem x := fun w => by have := ok.m1 w; rw [hst] at this; simp at this
      have hp : 0 < cnt c s pend := cnt_pos pend hl (by rw [hst]; rfl)
      have hcn : s.md.count < c.n := by have := h.cB; omega
      have en := LsuList.Q.enq_mem h.mdW hcn x
      have hpf := ok.d3 (.inl hst)
      refine ⟨h.upd hl rfl rfl rfl (fun j e => ?_) kw (LsuList.Q.enq_wf h.mdW hcn hnm) (fun j e => ?_) (fun j e => ?_) ?_ ?_ ?_ ?_,
        half _ (fun p y hp => LsuList.Q.kill_sub hp) rfl (.inl ?_) (fun j e => ?_), ⟨⟨rfl, rfl, rfl, ?_, ?_, ?_, rfl, fun p j hp => enq_slot h.mdW hcn x hp⟩, ?_, ?_⟩, rfl, rfl⟩
      · simp [SS.setSt, SS.put, upd_apply, e]
      · show (s.wm.kill _).Mem j ↔ _; rw [em]; simp [e]
      · show (s.md.enq c.n x).Mem j ↔ _; rw [en]; simp [e]
      · simp only [SS.setSt, SS.put, upd_apply, if_pos]
        cases hp : (s.ent x).pf
        · rw [hp] at hpf
          exact ⟨fun w => absurd rfl ((em x).mp w).2, by simp, by simp, fun _ => (en x).mpr (.inr rfl), by simp, fun _ => by simpa using hpf, by simp, by simp, by simp⟩
        · exact ⟨fun w => absurd rfl ((em x).mp w).2, by simp, by simp, fun _ => (en x).mpr (.inr rfl), by simp, by simp, by simp, by simp, by simp⟩
      · cases hp : (s.ent x).pf <;> simp [SS.setSt, SS.put, upd_apply, hst, hp]
      · cases hp : (s.ent x).pf <;> simp [SS.setSt, SS.put, upd_apply, hst, hp, isAlloc, Q.kill]
      · cases hp : (s.ent x).pf <;> simp [SS.setSt, SS.put, upd_apply, hst, hp, pend, Q.enq]
      · simp [Q.kill, upd_apply]
      · simp [SS.setSt, SS.put, upd_apply, e]
      · intro j
        by_cases e : j = x
        · cases hp : (s.ent x).pf <;> simp [SS.setSt, SS.put, upd_apply, e, hst, hp, rep]
        · simp [SS.setSt, SS.put, upd_apply, e]
      · intro j; by_cases e : j = x <;> simp [SS.setSt, SS.put, upd_apply, e]
      · intro j; by_cases e : j = x <;> simp [SS.setSt, SS.put, upd_apply, e, hst]
      · intro j
        by_cases e : j = x
        · cases hp : (s.ent x).pf <;> simp [SS.setSt, SS.put, upd_apply, e, hst, hp]
        · simp [SS.setSt, SS.put, upd_apply, e]
      · intro j; by_cases e : j = x <;> simp [SS.setSt, SS.put, upd_apply, e]
    · next hst =>
      refine ⟨h.upd hl rfl rfl rfl (fun j e => rfl) kw h.mdW (fun j e => ?_) (fun j e => Iff.rfl) ?_ Iff.rfl (Nat.le_refl _) (Nat.le_refl _),
        half _ (fun p y hp => LsuList.Q.kill_sub hp) rfl (.inl ?_) (fun j e => rfl), ⟨⟨rfl, rfl, rfl, fun _ => rfl, fun _ h => h, fun _ _ => rfl, rfl, fun _ _ h => h⟩, fun _ => Iff.rfl, fun _ => rfl⟩, rfl, rfl⟩
      · show (s.wm.kill _).Mem j ↔ _; rw [em]; simp [e]
      · exact ⟨fun w => absurd rfl ((em x).mp w).2, by simp [hst], ok.m1, ok.m2, ok.d1, ok.d2, ok.d3, ok.p1, ok.p2⟩
      · simp [Q.kill, upd_apply]
    · next hst =>
      have hnm : ¬ s.md.Mem x := fun w => by have := ok.m1 w; rw [hst] at this; simp at this
      have hpf : (s.ent x).pf = false := by
        cases e : (s.ent x).pf with
        | false => rfl
        | true => have := ok.p2 e; rw [hst] at this; simp at this
      refine ⟨h.upd hl rfl rfl rfl (fun j e => ?_) h.wmW h.mdW (fun j e => Iff.rfl) (fun j e => Iff.rfl) ?_ ?_ ?_ ?_,
        half _ (fun p y hp => hp) rfl (.inr ?_) (fun j e => ?_), ⟨⟨rfl, rfl, rfl, ?_, ?_, ?_, rfl, fun _ _ h => h⟩, ?_, ?_⟩, rfl, rfl⟩
      · simp [SS.setSt, SS.put, upd_apply, e]
      · simp only [SS.setSt, SS.put, upd_apply, if_pos]
        exact ⟨by simp, fun _ => hm, fun w => absurd w hnm, by simp, by simp, by simp, by simp, by simp, by simp [hpf]⟩
      · simp [SS.setSt, SS.put, upd_apply, hst]
      · simp [SS.setSt, SS.put, upd_apply, hst, isAlloc]
      · simp [SS.setSt, SS.put, upd_apply, hst, pend]
      · simp [SS.setSt, SS.put, upd_apply]
      · simp [SS.setSt, SS.put, upd_apply, e]
      · intro j; by_cases e : j = x <;> simp [SS.setSt, SS.put, upd_apply, e, hst, rep]
      · intro j; by_cases e : j = x <;> simp [SS.setSt, SS.put, upd_apply, e]
      · intro j; by_cases e : j = x <;> simp [SS.setSt, SS.put, upd_apply, e, hst]
      · intro j; by_cases e : j = x <;> simp [SS.setSt, SS.put, upd_apply, e, hst]
      · intro j; by_cases e : j = x <;> simp [SS.setSt, SS.put, upd_apply, e]
    · next h1 h2 h3 =>
      refine ⟨h, skip ?_, TFr.refl s, rfl, rfl⟩
      intro y hy
      rw [hx] at hy
      cases hy
      rcases ok.w1 hm with e | e | e | e
      · exact e
      · exact absurd e h3
      · exact absurd e h1
      · exact absurd e h2

theorem tlbIn_ok {c : Cfg} {A B : Nat} (hB : B ≤ c.n) {s : SS} (h : Core c A B s) (hk : Clean s) (ans : Nat → Option Tlb) :
    Core c A B (tlbIn c s (tlbOut c s) ans) ∧ Clean (tlbIn c s (tlbOut c s) ans) ∧ TFr s (tlbIn c s (tlbOut c s) ans) := by
  have ho := tlbOut_ok c s
  obtain ⟨a1, a2, a3, a4⟩ := tlbAnsAll_ok (K := min s.wm.count c.win) ans (tlbOut c s) h (fun p x hp => .inl (hk x ⟨p, hp⟩))
    (fun q hq => (ho.ent q hq).2.2)
  unfold tlbIn
  dsimp only
  generalize (tlbOut c s).foldl (tlbAns ans) s = s1 at a1 a2 a3 a4
  rw [show s.wm.count = s1.wm.count by rw [a4]] at a2
  have hw : ∀ k, k ≤ min s1.wm.count c.win →
      Core c A B ((List.range k).foldl (window c) s1) ∧ Half c ((List.range k).foldl (window c) s1) k (min s1.wm.count c.win) ∧
      TFr s1 ((List.range k).foldl (window c) s1) ∧
      ((List.range k).foldl (window c) s1).wm.head = s1.wm.head ∧ ((List.range k).foldl (window c) s1).wm.count = s1.wm.count := by
    intro k hk
    induction k with
    | zero => exact ⟨a1, a2, TFr.refl _, rfl, rfl⟩
    | succ k ih =>
      obtain ⟨b1, b2, b3, b4, b5⟩ := ih (by omega)
      rw [List.range_succ, List.foldl_append, List.foldl_cons, List.foldl_nil]
      obtain ⟨d1, d2, d3, d4, d5⟩ := window_ok hB b1 b2
      exact ⟨d1, d2, b3.trans d3, d4.trans b4, d5.trans b5⟩
  obtain ⟨b1, b2, b3, b4, b5⟩ := hw _ (Nat.le_refl _)
  generalize (List.range (min s1.wm.count c.win)).foldl (window c) s1 = s2 at *
  refine ⟨core_wm b1 (LsuList.Q.pop_wf _ b1.wmW) (fun x => LsuList.Q.pop_mem x) ?_, ?_, a3.trans ⟨⟨b3.hd, b3.cnt, b3.com, b3.rep, b3.dv, b3.rdy, b3.mh, b3.mg⟩, b3.al, b3.dv'⟩⟩
  · have := LsuList.Q.pop_count (n := c.n) (min s2.wm.count c.win) s2.wm
    have := b1.cA
    omega
  · intro x hx
    have hx : (s2.wm.pop c.n (min s2.wm.count c.win)).Mem x := hx
    rw [LsuList.Q.pop_mem] at hx
    obtain ⟨p, hp⟩ := hx
    rcases b2 p x hp with e | ⟨d, e1, e2, -⟩
    · exact e
    · omega

end Verif.LsuStq

import Verif.Proofs.LsuStq

/-
Store side of the load/store unit: the steps of a cycle keep the invariant.
-/
namespace Verif.LsuStq

open Verif.Ring
open Verif.LsuList (Q Tlb foldl_inv upd_apply)

/-- Reported to the reorder buffer. -/
def rep : SSt → Bool
  | .waitCommit | .gone => true
  | _ => false

/-- What the steps after the report leave alone. -/
structure Fr (s s' : SS) : Prop where
  hd : s'.head = s.head
  cnt : s'.count = s.count
  com : s'.com = s.com
  rep : ∀ x, rep (s'.ent x).st = rep (s.ent x).st
  dv : ∀ x, (s.ent x).dv = true → (s'.ent x).dv = true
  rdy : ∀ x, (s.ent x).st = .ready ∨ (s.ent x).st = .pageFault → (s'.ent x).st = (s.ent x).st
  mh : s'.md.head = s.md.head
  mg : ∀ p j, s.md.slot p = some j → s'.md.slot p = some j

theorem Fr.refl (s : SS) : Fr s s := ⟨rfl, rfl, rfl, fun _ => rfl, fun _ h => h, fun _ _ => rfl, rfl, fun _ _ h => h⟩

theorem Fr.trans {a b d : SS} (h : Fr a b) (h' : Fr b d) : Fr a d :=
  ⟨h'.hd.trans h.hd, h'.cnt.trans h.cnt, h'.com.trans h.com, fun x => (h'.rep x).trans (h.rep x), fun x w => h'.dv x (h.dv x w),
    fun x w => (h'.rdy x (by rw [h.rdy x w]; exact w)).trans (h.rdy x w),
    h'.mh.trans h.mh, fun p j w => h'.mg p j (h.mg p j w)⟩

theorem Fr.live {c : Cfg} {s s' : SS} (h : Fr s s') (x : Nat) : s'.live c x = s.live c x := live_congr h.hd h.cnt x

theorem enq_slot {n : Nat} {q : Q} (h : q.WF n) (hc : q.count < n) (x : Nat) {p j : Nat} (hp : q.slot p = some j) : (q.enq n x).slot p = some j := by
  show upd q.slot _ _ p = _
  rw [upd_apply, if_neg]
  · exact hp
  · rintro rfl
    rw [LsuList.Q.tail_free h hc] at hp
    simp at hp

/-! ### Commit -/

theorem commitN_ok {c : Cfg} {A B : Nat} : ∀ (k : Nat) {s : SS}, Core c A B s → Clean s →
    (∀ i, i < k → s.com + i < s.count ∧ (s.ent (s.at c (s.com + i))).st = .waitCommit) →
    ∃ s', commitN c k s = some s' ∧ Core c A B s' ∧ Clean s' ∧ s'.head = s.head ∧ s'.count = s.count ∧ s'.com = s.com + k ∧
      s'.wm = s.wm ∧ s'.md = s.md ∧
      ∀ x, (s'.ent x = s.ent x ∧ (s.live c x = true → ¬ (s.com ≤ off c.n s.head x ∧ off c.n s.head x < s.com + k))) ∨
        (s.live c x = true ∧ s.com ≤ off c.n s.head x ∧ off c.n s.head x < s.com + k ∧
          (s.ent x).st = .waitCommit ∧ s'.ent x = { s.ent x with st := .gone })
  | 0, s, h, hk, _ => ⟨s, rfl, h, hk, rfl, rfl, rfl, rfl, rfl, fun x => .inl ⟨rfl, fun _ => by omega⟩⟩
  | k + 1, s, h, hk, hv => by
    obtain ⟨v1, v2⟩ := hv 0 (by omega)
    rw [Nat.add_zero] at v1 v2
    have hcl := h.cl
    have hx : s.at c s.com < c.n := Nat.mod_lt _ (by have := h.hd; omega)
    have hox : off c.n s.head (s.at c s.com) = s.com := off_at h.hd (by omega)
    have hl : s.live c (s.at c s.com) = true := live_iff.mpr ⟨hx, by rw [hox]; exact v1⟩
    rw [commitN, if_pos v2]
    generalize s.at c s.com = x at *
    have hnw : ¬ s.wm.Mem x := fun w => by have := (h.ok x hl).w1 w; rw [v2] at this; simp at this
    have hnm : ¬ s.md.Mem x := fun w => by have := (h.ok x hl).m1 w; rw [v2] at this; simp at this
    have lv : ∀ j, ({ s.setSt x .gone with com := s.com + 1 } : SS).live c j = s.live c j := fun j => live_congr rfl rfl j
    have ea := cnt_upd (c := c) (s := s) (s' := { s.setSt x .gone with com := s.com + 1 }) isAlloc rfl rfl hl
      (fun j e => by simp [SS.setSt, SS.put, upd_apply, e])
    have eb := cnt_upd (c := c) (s := s) (s' := { s.setSt x .gone with com := s.com + 1 }) pend rfl rfl hl
      (fun j e => by simp [SS.setSt, SS.put, upd_apply, e])
    have ent1 : ∀ j, ({ s.setSt x .gone with com := s.com + 1 } : SS).ent j = if j = x then { s.ent x with st := .gone } else s.ent j :=
      fun j => rfl
    have c1 : Core c A B { s.setSt x .gone with com := s.com + 1 } := by
      refine ⟨h.wmW, h.mdW, h.hd, h.cl, v1, fun j hj => (lv j).trans (h.wmL j hj), fun j hj => (lv j).trans (h.mdL j hj), ?_, ?_, ?_, ?_⟩
      · intro j hj
        rw [lv] at hj
        rw [ent1]
        by_cases e : j = x
        · subst e
          rw [if_pos rfl]
          exact ⟨fun w => absurd w hnw, by simp, fun w => absurd w hnm, by simp, by simp, by simp, by simp, by simp, by simp⟩
        · rw [if_neg e]; exact h.ok j hj
      · intro j hj
        rw [lv] at hj
        rw [ent1]
        have g := h.go j hj
        show _ ↔ off c.n s.head j < s.com + 1
        by_cases e : j = x
        · subst e; rw [if_pos rfl, hox]; simp
        · rw [if_neg e, g]
          have : off c.n s.head j ≠ s.com := fun e' => e (by
            rw [← at_off h.hd (live_iff.mp hj).1, e', ← at_off h.hd hx, hox])
          omega
      · rw [v2, ent1, if_pos rfl] at ea
        have := h.cA
        simp [isAlloc] at ea
        exact Nat.le_trans (Nat.le_of_eq (by rw [ea]; rfl)) this
      · rw [v2, ent1, if_pos rfl] at eb
        have := h.cB
        simp [pend] at eb
        exact Nat.le_trans (Nat.le_of_eq (by rw [eb]; rfl)) this
    have k1 : Clean { s.setSt x .gone with com := s.com + 1 } := by
      intro j hj
      have : j ≠ x := fun e => hnw (e ▸ hj)
      rw [ent1, if_neg this]
      exact hk j hj
    obtain ⟨s', r1, r2, r3, r4, r5, r6, r7, r8, r9⟩ := commitN_ok k c1 k1 (by
      intro i hi
      obtain ⟨w1, w2⟩ := hv (i + 1) (by omega)
      have e1 : s.com + 1 + i = s.com + (i + 1) := by omega
      refine ⟨show s.com + 1 + i < s.count by omega, ?_⟩
      show (({ s.setSt x .gone with com := s.com + 1 } : SS).ent ((s.head + (s.com + 1 + i)) % c.n)).st = _
      rw [ent1, if_neg, e1]
      · exact w2
      · intro e
        have := off_at h.hd (show s.com + 1 + i < c.n by omega)
        rw [e, hox] at this
        omega)
    refine ⟨s', r1, r2, r3, r4, r5, r6.trans (by show s.com + 1 + k = _; omega), r7, r8, ?_⟩
    intro j
    have r9 := r9 j
    rw [lv, ent1] at r9
    by_cases e : j = x
    · subst e
      rw [if_pos rfl] at r9
      have hh : ({ s.setSt j .gone with com := s.com + 1 } : SS).head = s.head := rfl
      have hcm : ({ s.setSt j .gone with com := s.com + 1 } : SS).com = s.com + 1 := rfl
      rw [hh, hcm, hox] at r9
      refine .inr ⟨hl, by omega, by omega, v2, ?_⟩
      rcases r9 with r | r
      · exact r.1
      · omega
    · rw [if_neg e] at r9
      have hh : ({ s.setSt x .gone with com := s.com + 1 } : SS).head = s.head := rfl
      have hcm : ({ s.setSt x .gone with com := s.com + 1 } : SS).com = s.com + 1 := rfl
      rw [hh, hcm] at r9
      rcases r9 with ⟨a1, a2⟩ | ⟨a1, a2, a3, a4⟩
      · refine .inl ⟨a1, fun hj => ?_⟩
        have : off c.n s.head j ≠ s.com := fun e' => e (by
            rw [← at_off h.hd (live_iff.mp hj).1, e', ← at_off h.hd hx, hox])
        have := a2 hj
        omega
      · exact .inr ⟨a1, by omega, by omega, a4⟩

/-! ### Data and addresses -/

theorem dataIn_ok {c : Cfg} {A B : Nat} (hB : B ≤ c.n) {s : SS} {x : Nat} (h : Core c A B s) (hk : Clean s) (hl : s.live c x = true) :
    Core c A B (dataIn c s x) ∧ Clean (dataIn c s x) ∧ Fr s (dataIn c s x) ∧ (∀ j, j ≠ x → (dataIn c s x).ent j = s.ent j) ∧
      ((dataIn c s x).ent x).dv = true ∧
      ∀ j, ((dataIn c s x).ent j).st = .allocated ↔ (s.ent j).st = .allocated := by
  have ok := h.ok x hl
  unfold dataIn
  split
  · next hst =>
    have hnw : ¬ s.wm.Mem x := fun w => by have := hk x w; rw [hst] at this; simp at this
    have hnm : ¬ s.md.Mem x := fun w => by have := ok.m1 w; rw [hst] at this; simp at this
    have hp : 0 < cnt c s pend := cnt_pos pend hl (by rw [hst]; rfl)
    have hcn : s.md.count < c.n := by have := h.cB; omega
    have em := LsuList.Q.enq_mem h.mdW hcn x
    have hpf : (s.ent x).pf = false := by
      cases e : (s.ent x).pf with
      | false => rfl
      | true => have := ok.p2 e; rw [hst] at this; simp at this
    refine ⟨h.upd hl rfl rfl rfl (fun j e => ?_) h.wmW (LsuList.Q.enq_wf h.mdW hcn hnm) (fun j e => Iff.rfl) (fun j e => ?_) ?_ ?_ ?_ ?_,
      ?_, ⟨rfl, rfl, rfl, ?_, ?_, ?_, rfl, fun p j hp => enq_slot h.mdW hcn x hp⟩, ?_, ?_, ?_⟩
    · simp [SS.put, upd_apply, e]
    · show (s.md.enq c.n x).Mem j ↔ _; rw [em]; simp [e]
    · simp only [SS.put, upd_apply, if_pos]
      exact ⟨fun w => absurd w hnw, by simp, by simp, fun _ => (em x).mpr (.inr rfl), by simp, by simp, by simp, by simp, by simp [hpf]⟩
    · simp [SS.put, upd_apply, hst]
    · simp [SS.put, upd_apply, hst, isAlloc]
    · simp [SS.put, upd_apply, hst, pend, Q.enq]
    · intro j hj
      have : j ≠ x := fun e => hnw (e ▸ hj)
      simp only [SS.put, upd_apply, if_neg this]
      exact hk j hj
    · intro j; by_cases e : j = x <;> simp [SS.put, upd_apply, e, hst, rep]
    · intro j; by_cases e : j = x <;> simp [SS.put, upd_apply, e]
    · intro j; by_cases e : j = x <;> simp [SS.put, upd_apply, e, hst]
    · intro j e; simp [SS.put, upd_apply, e]
    · simp [SS.put, upd_apply]
    · intro j; by_cases e : j = x <;> simp [SS.put, upd_apply, e, hst]
  · next hst =>
    refine ⟨h.upd hl rfl rfl rfl (fun j e => ?_) h.wmW h.mdW (fun j e => Iff.rfl) (fun j e => Iff.rfl) ?_ ?_ ?_ ?_,
      ?_, ⟨rfl, rfl, rfl, ?_, ?_, ?_, rfl, fun _ _ h => h⟩, ?_, ?_, ?_⟩
    · simp [SS.put, upd_apply, e]
    · simp only [SS.put, upd_apply, if_pos]
      exact ⟨ok.w1, ok.w2, ok.m1, ok.m2, fun e => absurd e hst, by simp, by simp, ok.p1, ok.p2⟩
    · simp [SS.put, upd_apply]
    · simp [SS.put, upd_apply]
    · simp [SS.put, upd_apply]
    · intro j hj
      have := hk j hj
      by_cases e : j = x
      · subst e; simpa [SS.put, upd_apply] using this
      · simpa [SS.put, upd_apply, e] using this
    · intro j; by_cases e : j = x <;> simp [SS.put, upd_apply, e]
    · intro j; by_cases e : j = x <;> simp [SS.put, upd_apply, e]
    · intro j; by_cases e : j = x <;> simp [SS.put, upd_apply, e]
    · intro j e; simp [SS.put, upd_apply, e]
    · simp [SS.put, upd_apply]
    · intro j; by_cases e : j = x <;> simp [SS.put, upd_apply, e]

theorem dataAll_ok {c : Cfg} {A B : Nat} (hB : B ≤ c.n) : ∀ (xs : List Nat) {s : SS}, Core c A B s → Clean s → (∀ x ∈ xs, s.live c x = true) →
    Core c A B (xs.foldl (dataIn c) s) ∧ Clean (xs.foldl (dataIn c) s) ∧ Fr s (xs.foldl (dataIn c) s) ∧
      (∀ j, j ∉ xs → (xs.foldl (dataIn c) s).ent j = s.ent j) ∧ (∀ j ∈ xs, ((xs.foldl (dataIn c) s).ent j).dv = true) ∧
      ∀ j, ((xs.foldl (dataIn c) s).ent j).st = .allocated ↔ (s.ent j).st = .allocated
  | [], s, h, hk, _ => ⟨h, hk, Fr.refl s, fun _ _ => rfl, by simp, fun _ => Iff.rfl⟩
  | x :: xs, s, h, hk, hl => by
    rw [List.foldl_cons]
    obtain ⟨a1, a2, a3, a4, a5, a6⟩ := dataIn_ok hB h hk (hl x (by simp))
    obtain ⟨b1, b2, b3, b4, b5, b6⟩ := dataAll_ok hB xs a1 a2 (fun j hj => (a3.live j).trans (hl j (by simp [hj])))
    refine ⟨b1, b2, a3.trans b3, ?_, ?_, fun j => (b6 j).trans (a6 j)⟩
    · intro j hj
      rw [List.mem_cons, not_or] at hj
      exact (b4 j hj.2).trans (a4 j hj.1)
    · intro j hj
      rcases List.mem_cons.mp hj with rfl | hj
      · exact b3.dv _ a5
      · exact b5 j hj

theorem addrIn_ok {c : Cfg} {A B : Nat} (hA : A ≤ c.n) {s : SS} {a : Nat × Bool} (h : Core c A B s) (hk : Clean s)
    (hl : s.live c a.1 = true) (hst : (s.ent a.1).st = .allocated) :
    Core c A B (addrIn c s a) ∧ Clean (addrIn c s a) ∧ Fr s (addrIn c s a) ∧ (∀ j, j ≠ a.1 → (addrIn c s a).ent j = s.ent j) ∧
      (addrIn c s a).ent a.1 = { s.ent a.1 with st := .waitTlb, sc := a.2 } := by
  have ok := h.ok a.1 hl
  obtain ⟨x, b⟩ := a
  dsimp only at *
  unfold addrIn
  dsimp only
  have hnw : ¬ s.wm.Mem x := fun w => by have := ok.w1 w; rw [hst] at this; simp at this
  have hnm : ¬ s.md.Mem x := fun w => by have := ok.m1 w; rw [hst] at this; simp at this
  have hp : 0 < cnt c s isAlloc := cnt_pos isAlloc hl (by rw [hst]; rfl)
  have hcn : s.wm.count < c.n := by have := h.cA; omega
  have em := LsuList.Q.enq_mem h.wmW hcn x
  have hpf : (s.ent x).pf = false := by
    cases e : (s.ent x).pf with
    | false => rfl
    | true => have := ok.p2 e; rw [hst] at this; simp at this
  refine ⟨h.upd hl rfl rfl rfl (fun j e => ?_) (LsuList.Q.enq_wf h.wmW hcn hnw) h.mdW (fun j e => ?_) (fun j e => Iff.rfl) ?_ ?_ ?_ ?_,
    ?_, ⟨rfl, rfl, rfl, ?_, ?_, ?_, rfl, fun _ _ h => h⟩, ?_, ?_⟩
  · simp [SS.put, upd_apply, e]
  · show (s.wm.enq c.n x).Mem j ↔ _; rw [em]; simp [e]
  · simp only [SS.put, upd_apply, if_pos]
    exact ⟨by simp, fun _ => (em x).mpr (.inr rfl), fun w => absurd w hnm, by simp, by simp, by simp, by simp, by simp, by simp [hpf]⟩
  · simp [SS.put, upd_apply, hst]
  · simp [SS.put, upd_apply, hst, isAlloc, Q.enq]
  · simp [SS.put, upd_apply, hst, pend]
  · intro j hj
    by_cases e : j = x
    · simp [SS.put, upd_apply, e]
    · simp only [SS.put, upd_apply, if_neg e]
      exact hk j (((em j).mp hj).resolve_right e)
  · intro j; by_cases e : j = x <;> simp [SS.put, upd_apply, e, hst, rep]
  · intro j; by_cases e : j = x <;> simp [SS.put, upd_apply, e]
  · intro j; by_cases e : j = x <;> simp [SS.put, upd_apply, e, hst]
  · intro j e; simp [SS.put, upd_apply, e]
  · simp [SS.put, upd_apply]

theorem addrAll_ok {c : Cfg} {A B : Nat} (hA : A ≤ c.n) : ∀ (xs : List (Nat × Bool)) {s : SS}, Core c A B s → Clean s →
    (xs.map (·.1)).Nodup → (∀ a ∈ xs, s.live c a.1 = true ∧ (s.ent a.1).st = .allocated) →
    Core c A B (xs.foldl (addrIn c) s) ∧ Clean (xs.foldl (addrIn c) s) ∧ Fr s (xs.foldl (addrIn c) s) ∧
      (∀ j, j ∉ xs.map (·.1) → (xs.foldl (addrIn c) s).ent j = s.ent j) ∧
      (∀ a ∈ xs, (xs.foldl (addrIn c) s).ent a.1 = { s.ent a.1 with st := .waitTlb, sc := a.2 })
  | [], s, h, hk, _, _ => ⟨h, hk, Fr.refl s, fun _ _ => rfl, by simp⟩
  | a :: xs, s, h, hk, hn, hl => by
    rw [List.foldl_cons]
    rw [List.map_cons, List.nodup_cons] at hn
    have hne : ∀ b ∈ xs, b.1 ≠ a.1 := fun b hb e => hn.1 (List.mem_map.mpr ⟨b, hb, e⟩)
    obtain ⟨a1, a2, a3, a4, a5⟩ := addrIn_ok hA h hk (hl a (by simp)).1 (hl a (by simp)).2
    obtain ⟨b1, b2, b3, b4, b5⟩ := addrAll_ok hA xs a1 a2 hn.2 (fun b hb =>
      ⟨(a3.live b.1).trans (hl b (by simp [hb])).1, by rw [a4 _ (hne b hb)]; exact (hl b (by simp [hb])).2⟩)
    refine ⟨b1, b2, a3.trans b3, ?_, ?_⟩
    · intro j hj
      rw [List.map_cons, List.mem_cons, not_or] at hj
      exact (b4 j hj.2).trans (a4 j hj.1)
    · intro b hb
      rcases List.mem_cons.mp hb with rfl | hb
      · rw [b4 _ hn.1]; exact a5
      · rw [b5 b hb, a4 _ (hne b hb)]

end Verif.LsuStq

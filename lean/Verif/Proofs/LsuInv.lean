import Verif.Proofs.Lsu

namespace Verif.Lsu

open Verif.Ring Verif.Lane Verif.Spec.ByteMem Verif.Spec.MemOrder

/-! ## Stores before commit -/

/-- An entry may replace another one without disturbing loads. -/
structure Fit (sl sl' : Slot) (e e' : StqEntry) : Prop where
  base : Base sl' e'
  pend : Pend sl' e'
  mono : ∀ o, sl'.allows o → sl.allows o
  stab : e.paddrValid = true → e'.paddrValid = true ∧ e'.paddr = e.paddr ∧ e'.func3 = e.func3

theorem Inv.fit {n : Nat} {m : Mem} {s s' : Sys} (h : Inv n m s) {k : Nat} (hlive : s.live k) {e : StqEntry} {sl : Slot}
    (hq : s'.lsu.stq = upd s.lsu.stq (tagIdx n k) e) (hhead : s'.lsu.head = s.lsu.head)
    (hhf : s'.lsu.headFlag = s.lsu.headFlag) (hcnt : s'.lsu.count = s.lsu.count) (hcom : s'.lsu.commit = s.lsu.commit)
    (hcc : s'.lsu.commitCount = s.lsu.commitCount) (hld : s'.lsu.ldq = s.lsu.ldq)
    (hsl : s'.prog.slots = upd s.prog.slots k sl) (hlen : s'.prog.len = s.prog.len)
    (hcmt : s'.prog.committed = s.prog.committed) (hloads : s'.prog.loads = s.prog.loads) (hmem : s'.mem = s.mem)
    (hret : s'.retired = s.retired) (hold : s'.old = s.old) (hpend : s'.pend = s.pend) (hsamp : s'.samp = s.samp)
    (hbad : s'.badFwd = s.badFwd) (hF : Base (s.prog.slots k) (s.ent n k) → Pend (s.prog.slots k) (s.ent n k) →
      Fit (s.prog.slots k) sl (s.ent n k) e) : Inv n m s' := by
  have hk := h.slot k hlive.2
  have f := hF hk.base (hk.pend hlive.1)
  exact h.pendUpdate hlive hq hhead hhf hcnt hcom hcc hld hsl hlen hcmt hloads hmem hret hold hpend hsamp hbad
    f.base f.pend f.mono f.stab

theorem live_ent {n : Nat} {m : Mem} {s : Sys} (h : Inv n m s) {k : Nat} (hl : s.live k) :
    s.ent n k = s.lsu.stq (tagIdx n k) :=
  ent_window s (Nat.le_trans h.ring.retired_le hl.1)

theorem upd_self {α : Type} (f : Nat → α) (i : Nat) : upd f i (f i) = f := by
  funext j; unfold upd; split
  · next h => rw [h]
  · rfl

theorem fit_data {sl : Slot} {e : StqEntry} (hd : sl.data = none) (v : BitVec 32) (B : Base sl e) (P : Pend sl e) :
    Fit sl { sl with data := some v } e
      (if e.paddrValid = true ∧ e.st = .waitData then { e with data := v, dataValid := true, st := .ready }
        else { e with data := v, dataValid := true }) := by
  obtain ⟨b1, b2, b3, b4⟩ := B
  obtain ⟨p1, p2, p3, p4, p5, p6, p7, p8⟩ := P
  have mono : ∀ o, ({ sl with data := some v } : Slot).allows o → sl.allows o := by
    intro o ho
    cases o with
    | none =>
      rcases ho with h | h | h | h
      · exact Or.inl h
      · exact Or.inr (Or.inl h)
      · cases h
      · exact Or.inr (Or.inr (Or.inr h))
    | some op =>
      obtain ⟨h1, h2, h3, h4⟩ := ho
      exact ⟨h1, h2, h3, fun d hd' => by rw [hd] at hd'; cases hd'⟩
  split
  · next hc =>
    obtain ⟨hpv, hst⟩ := hc
    unfold stage at p8
    rw [hst] at p2 p4 p8
    simp only [hst] at p6 p7
    refine ⟨⟨b1, b2, rfl, b4⟩, ⟨p1, p2, p3, ?_, p5, ?_, ?_, ?_⟩, mono, ?_⟩
    · simpa using p4
    · intro hs; simpa using (p6 hs).2.2
    · intro hs; simp at hs
    · exact ⟨p8.2, p8.1, rfl⟩
    · intro _; exact ⟨hpv, rfl, rfl⟩
  · next hc =>
    refine ⟨⟨b1, b2, rfl, b4⟩, ⟨p1, p2, p3, p4, p5, p6, p7, ?_⟩, mono, fun h => ⟨h, rfl, rfl⟩⟩
    unfold stage at p8 ⊢
    cases hst : e.st <;> simp only [hst] at p8 ⊢ <;> simp_all

theorem fit_addr {sl : Slot} {e : StqEntry} (hd : sl.sta = false) (B : Base sl e) (P : Pend sl e) :
    Fit sl { sl with sta := true } e
      { e with paddrValid := false, paddr := 0#32, func3 := sl.size.code, st := .waitTlb, lrsc := sl.isSc } := by
  obtain ⟨b1, b2, b3, b4⟩ := B
  obtain ⟨p1, p2, p3, p4, p5, p6, p7, p8⟩ := P
  rw [hd] at p2
  have hst : e.st = .allocated := by simpa using p2
  unfold stage at p8
  rw [hst] at p4 p8
  simp only [hst] at p6 p7
  refine ⟨⟨rfl, ?_, b3, ?_⟩, ⟨p1, ?_, fun _ => rfl, ?_, p5, ?_, ?_, ?_⟩, ?_, ?_⟩
  · rw [b2, p8.1]; rfl
  · intro h; cases h
  · simp
  · simpa using p4
  · intro hs; simpa using (p6 hs).2.2
  · intro hs; simp at hs
  · exact ⟨rfl, p8.2⟩
  · intro o ho; cases o <;> exact ho
  · intro h; rw [p8.1] at h; cases h

theorem fit_hit {sl : Slot} {e : StqEntry} (hst : e.st = .waitTlb) (pa : BitVec 32) (hok : okAddr sl.size pa) (B : Base sl e)
    (P : Pend sl e) : Fit sl { sl with addr := some pa } e
      { e with paddrValid := true, paddr := pa, mmio := mmioAddr pa, st := if e.dataValid then .waitDone else .waitData } := by
  obtain ⟨b1, b2, b3, b4⟩ := B
  obtain ⟨p1, p2, p3, p4, p5, p6, p7, p8⟩ := P
  unfold stage at p8
  rw [hst] at p2 p4 p8
  simp only [hst] at p6 p7
  have hsup : e.suppress = false := by
    cases hs : e.suppress with
    | false => rfl
    | true => have := (p6 hs).2.2; simp at this
  have hnone : sl.addr = none := by rw [b2, p8.1]; rfl
  have hnw : ∀ b : Bool, (if b then StoreState.waitDone else .waitData) ≠ .waitCommit := by decide
  have hna : ∀ b : Bool, (if b then StoreState.waitDone else .waitData) ≠ .allocated := by decide
  refine ⟨⟨b1, rfl, b3, fun _ => ⟨hok, rfl⟩⟩, ⟨p1, ?_, p3, ?_, p5, ?_, ?_, ?_⟩, ?_, ?_⟩
  · rw [p2]; simp [hna]
  · rw [p4]; simp [hnw]
  · intro hs; rw [hsup] at hs; cases hs
  · intro hs; exact absurd hs (hnw _)
  · unfold stage
    cases hdv : e.dataValid <;> simp [p8]
  · intro o ho
    cases o with
    | none =>
      rcases ho with h | h | h | h
      · exact Or.inl h
      · cases h
      · exact Or.inr (Or.inr (Or.inl h))
      · exact Or.inr (Or.inr (Or.inr h))
    | some op =>
      obtain ⟨h1, h2, h3, h4⟩ := ho
      exact ⟨h1, h2, (fun a ha => by rw [hnone] at ha; cases ha), h4⟩
  · intro h; rw [p8.1] at h; cases h

theorem fit_fault {sl : Slot} {e : StqEntry} (hst : e.st = .waitTlb) (B : Base sl e) (P : Pend sl e) :
    Fit sl { sl with fault := true } e { e with fault := true, st := .waitDone } := by
  obtain ⟨b1, b2, b3, b4⟩ := B
  obtain ⟨p1, p2, p3, p4, p5, p6, p7, p8⟩ := P
  unfold stage at p8
  rw [hst] at p2 p4 p8
  simp only [hst] at p6 p7
  refine ⟨⟨b1, b2, b3, b4⟩, ⟨rfl, ?_, p3, ?_, p5, ?_, ?_, ?_⟩, ?_, ?_⟩
  · rw [p2]; simp
  · rw [p4]; simp
  · intro hs; have := (p6 hs).2.2; simp at this
  · intro hs; simp at hs
  · left; exact ⟨rfl, p8.1⟩
  · intro o ho; cases o <;> exact ho
  · intro h; exact ⟨h, rfl, rfl⟩

/-- A change of state only. -/
theorem fit_st {sl : Slot} {e : StqEntry} (x : StoreState) (hx : x ≠ .allocated) (hx2 : x ≠ .waitCommit)
    (he : e.st ≠ .allocated) (he2 : e.st ≠ .waitCommit) (hs : stage { e with st := x }) (B : Base sl e) (P : Pend sl e) :
    Fit sl sl e { e with st := x } := by
  obtain ⟨b1, b2, b3, b4⟩ := B
  obtain ⟨p1, p2, p3, p4, p5, p6, p7, p8⟩ := P
  refine ⟨⟨b1, b2, b3, b4⟩, ⟨p1, ?_, p3, ?_, p5, ?_, ?_, hs⟩, fun o ho => ho, fun h => ⟨h, rfl, rfl⟩⟩
  · rw [p2]; simp [hx, he]
  · rw [p4]; simp [hx2, he2]
  · intro h; exact absurd (p6 h).2.2 he2
  · intro h; exact absurd h hx2

theorem fit_wb {sl : Slot} {e : StqEntry} (hst : e.st = .ready ∨ e.st = .pageFault) (pass : Bool) (B : Base sl e) (P : Pend sl e) :
    Fit sl { sl with reported := true, dead := e.lrsc && !e.fault && !pass } e
      (if e.lrsc = true ∧ e.fault = false then { e with scPass := pass, suppress := !pass, st := .waitCommit }
        else { e with st := .waitCommit }) := by
  obtain ⟨b1, b2, b3, b4⟩ := B
  obtain ⟨p1, p2, p3, p4, p5, p6, p7, p8⟩ := P
  have he2 : e.st ≠ .waitCommit := by rcases hst with h | h <;> rw [h] <;> decide
  have he1 : e.st ≠ .allocated := by rcases hst with h | h <;> rw [h] <;> decide
  have hsup : e.suppress = false := by
    cases hs : e.suppress with
    | false => rfl
    | true => exact absurd (p6 hs).2.2 he2
  have hsta : sl.sta = true := by rw [p2]; simp [he1]
  have hrep : sl.reported = false := by rw [p4]; simp [he2]
  have hdead : sl.dead = false := by rw [p5, hsup]
  have hlr := p3 hsta
  have hstage : ∀ (e' : StqEntry), e'.st = .waitCommit → e'.fault = e.fault → e'.paddrValid = e.paddrValid →
      e'.dataValid = e.dataValid → stage e' := by
    intro e' h1 h2 h3 h4
    unfold stage at p8 ⊢
    rw [h1]
    rcases hst with h | h
    · rw [h] at p8
      right
      rw [h2, h3, h4]
      exact p8
    · rw [h] at p8
      left
      rw [h2, h3]
      exact p8
  have mono : ∀ o, ({ sl with reported := true, dead := e.lrsc && !e.fault && !pass } : Slot).allows o → sl.allows o := by
    intro o ho
    cases o with
    | none =>
      rcases ho with h | h | h | h
      · simp only [Bool.and_eq_true] at h
        exact Or.inr (Or.inr (Or.inr ⟨by rw [← hlr]; exact h.1.1, hrep⟩))
      · exact Or.inr (Or.inl h)
      · exact Or.inr (Or.inr (Or.inl h))
      · simp at h
    | some op => exact ⟨hdead, ho.2⟩
  split
  · next hc =>
    refine ⟨⟨b1, b2, b3, b4⟩, ⟨p1, ?_, p3, ?_, ?_, ?_, ?_, hstage _ rfl rfl rfl rfl⟩, mono, fun h => ⟨h, rfl, rfl⟩⟩
    · show sl.sta = _; rw [hsta]; simp
    · simp
    · simp [hc.1, hc.2]
    · intro h; exact ⟨hc.1, by simpa using h, rfl⟩
    · intro _ _ _; rfl
  · next hc =>
    refine ⟨⟨b1, b2, b3, b4⟩, ⟨p1, ?_, p3, ?_, ?_, ?_, ?_, hstage _ rfl rfl rfl rfl⟩, mono, fun h => ⟨h, rfl, rfl⟩⟩
    · show sl.sta = _; rw [hsta]; simp
    · simp
    · show (e.lrsc && !e.fault && !pass) = e.suppress
      rw [hsup]
      cases h1 : e.lrsc <;> cases h2 : e.fault <;> simp_all
    · intro h; rw [hsup] at h; cases h
    · intro _ h1 h2; exact absurd ⟨h1, h2⟩ hc

theorem inv_stData {n : Nat} {m : Mem} {s s' : Sys} (h : Inv n m s) {k : Nat} {v : BitVec 32} (hv : s.Valid n (.stData k v))
    (hs : s.step n (.stData k v) = some s') : Inv n m s' := by
  cases hs
  obtain ⟨hl, hd⟩ := hv
  exact h.fit hl rfl rfl rfl rfl rfl rfl rfl rfl rfl rfl rfl rfl rfl rfl rfl rfl rfl
    (fun B P => by rw [live_ent h hl] at *; exact fit_data hd v B P)

theorem inv_stAddr {n : Nat} {m : Mem} {s s' : Sys} (h : Inv n m s) {k : Nat} (hv : s.Valid n (.stAddr k))
    (hs : s.step n (.stAddr k) = some s') : Inv n m s' := by
  cases hs
  obtain ⟨hl, hd⟩ := hv
  exact h.fit hl rfl rfl rfl rfl rfl rfl rfl rfl rfl rfl rfl rfl rfl rfl rfl rfl rfl
    (fun B P => by rw [live_ent h hl] at *; exact fit_addr hd B P)

theorem inv_stTlb {n : Nat} {m : Mem} {s s' : Sys} (h : Inv n m s) {k : Nat} {r : Tlb} (hv : s.Valid n (.stTlb k r))
    (hs : s.step n (.stTlb k r) = some s') : Inv n m s' := by
  obtain ⟨hl, hst, hok⟩ := hv
  injection hs with hs
  subst hs
  unfold tlbStore
  dsimp only
  rw [if_neg (by simpa using hst)]
  cases r with
  | hit pa =>
    exact h.fit hl rfl rfl rfl rfl rfl rfl rfl rfl rfl rfl rfl rfl rfl rfl rfl rfl rfl
      (fun B P => by rw [live_ent h hl] at *; exact fit_hit hst pa hok B P)
  | fault =>
    exact h.fit hl rfl rfl rfl rfl rfl rfl rfl rfl rfl rfl rfl rfl rfl rfl rfl rfl rfl
      (fun B P => by rw [live_ent h hl] at *; exact fit_fault hst B P)
  | miss =>
    refine h.fit hl rfl rfl rfl rfl rfl rfl rfl (upd_self _ k).symm rfl rfl rfl rfl rfl rfl rfl rfl rfl
      (fun B P => ?_)
    rw [live_ent h hl] at *
    have hp := P.stage
    unfold stage at hp
    rw [hst] at hp
    exact fit_st _ (by decide) (by decide) (by rw [hst]; decide) (by rw [hst]; decide) hp B P

theorem inv_stWin {n : Nat} {m : Mem} {s s' : Sys} (h : Inv n m s) {k : Nat} (hv : s.Valid n (.stWin k))
    (hs : s.step n (.stWin k) = some s') : Inv n m s' := by
  injection hs with hs
  subst hs
  have hl : s.live k := hv
  have hP := (h.slot k hl.2).pend hl.1
  rw [live_ent h hl] at hP
  have hp := hP.stage
  unfold windowStore
  dsimp only
  split
  · next hst =>
    refine h.fit hl rfl rfl rfl rfl rfl rfl rfl (upd_self _ k).symm rfl rfl rfl rfl rfl rfl rfl rfl rfl (fun B P => ?_)
    rw [live_ent h hl] at *
    unfold stage at hp
    rw [hst] at hp
    refine fit_st _ ?_ ?_ (by rw [hst]; decide) (by rw [hst]; decide) ?_ B P
    · split <;> decide
    · split <;> decide
    · unfold stage
      rcases hp with h1 | h1
      · simp [h1]
      · simp [h1]
  · next hst =>
    refine h.fit hl rfl rfl rfl rfl rfl rfl rfl (upd_self _ k).symm rfl rfl rfl rfl rfl rfl rfl rfl rfl (fun B P => ?_)
    rw [live_ent h hl] at *
    unfold stage at hp
    rw [hst] at hp
    exact fit_st _ (by decide) (by decide) (by rw [hst]; decide) (by rw [hst]; decide) hp B P
  · exact h

theorem inv_stWb {n : Nat} {m : Mem} {s s' : Sys} (h : Inv n m s) {k : Nat} (hv : s.Valid n (.stWb k))
    (hs : s.step n (.stWb k) = some s') : Inv n m s' := by
  injection hs with hs
  subst hs
  have hl : s.live k := hv
  unfold wbStore
  dsimp only
  by_cases hst : (s.lsu.stq (tagIdx n k)).st = .ready ∨ (s.lsu.stq (tagIdx n k)).st = .pageFault
  · rw [if_neg (by rcases hst with h1 | h1 <;> rw [h1] <;> decide), if_pos hst]
    have key := fun B P => fit_wb (sl := s.prog.slots k) (e := s.lsu.stq (tagIdx n k)) hst (scPass s.lsu (tagIdx n k)) B P
    split
    · next hc =>
      rw [if_pos hc] at key
      exact h.fit hl rfl rfl rfl rfl rfl rfl rfl rfl rfl rfl rfl rfl rfl rfl rfl rfl rfl
        (fun B P => by rw [live_ent h hl] at *; exact key B P)
    · next hc =>
      rw [if_neg hc] at key
      exact h.fit hl rfl rfl rfl rfl rfl rfl rfl rfl rfl rfl rfl rfl rfl rfl rfl rfl rfl
        (fun B P => by rw [live_ent h hl] at *; exact key B P)
  · rw [if_pos ⟨fun e => hst (Or.inl e), fun e => hst (Or.inr e)⟩, if_neg hst]
    exact h

end Verif.Lsu

import Verif.Proofs.LsuInv

namespace Verif.Lsu

open Verif.Ring Verif.Lane Verif.Spec.ByteMem Verif.Spec.MemOrder

/-! ## Changes of one load -/

theorem Inv.loadUpdate {n : Nat} {m : Mem} {s s' : Sys} (h : Inv n m s) (i : Nat)
    (hq : s'.lsu.stq = s.lsu.stq) (hhead : s'.lsu.head = s.lsu.head)
    (hhf : s'.lsu.headFlag = s.lsu.headFlag) (hcnt : s'.lsu.count = s.lsu.count) (hcom : s'.lsu.commit = s.lsu.commit)
    (hcc : s'.lsu.commitCount = s.lsu.commitCount)
    (hsl : s'.prog.slots = s.prog.slots) (hlen : s'.prog.len = s.prog.len)
    (hcmt : s'.prog.committed = s.prog.committed) (hmem : s'.mem = s.mem)
    (hret : s'.retired = s.retired) (hold : s'.old = s.old) (hpend : s'.pend = s.pend)
    (hld : ∀ j, j ≠ i → s'.lsu.ldq j = s.lsu.ldq j) (hloads : ∀ j, j ≠ i → s'.prog.loads j = s.prog.loads j)
    (hsamp : ∀ j, j ≠ i → s'.samp j = s.samp j) (hbad : ∀ j, j ≠ i → s'.badFwd j = s.badFwd j)
    (hi : LoadOk n m s' i) : Inv n m s' := by
  have hent : ∀ j, s'.ent n j = s.ent n j := by
    intro j; unfold Sys.ent; rw [hret, hold, hq]
  have hperf : perf n s' = perf n s := by
    funext j; unfold perf performed; rw [hent j, hsl, hpend]
  refine ⟨?_, ?_, ?_, ?_, ?_, ?_, ?_⟩
  · constructor
    · rw [hhead, hret]; exact h.ring.head
    · rw [hhf, hret]; exact h.ring.headFlag
    · rw [hret, hcnt, hlen]; exact h.ring.count
    · rw [hret, hcc, hcmt]; exact h.ring.cc
    · rw [hcom, hcmt]; exact h.ring.commit
    · rw [hcmt, hlen]; exact h.ring.le1
    · rw [hlen, hret]; exact h.ring.le2
  · intro j hj
    rw [hlen] at hj
    have hj' := h.slot j hj
    constructor
    · rw [hent j, hsl]; exact hj'.base
    · rw [hent j, hsl, hcmt]; exact hj'.comm
    · rw [hent j, hsl, hcmt]; exact hj'.pend
    · rw [hent j, hret]; exact hj'.ret
  · intro j hj1 hj2
    rw [hret] at hj1 hj2
    rw [hent j, hpend, hcmt]
    exact h.pend j hj1 hj2
  · rw [hpend]; exact h.out
  · rw [hmem, h.mem, hcmt, hperf]
  · intro a b
    rw [hret, hcmt, hent a, hent b]
    exact h.iss a b
  · intro j
    by_cases hji : j = i
    · rw [hji]; exact hi
    · have hj := h.load j
      apply hj.frame (hld j hji) (hloads j hji) (hsamp j hji) (hbad j hji)
      · rw [hcmt, hlen]; exact hj.older
      · rw [hret]; exact Nat.le_refl _
      · intro _ k _ _ hpv; rw [hent k]; exact ⟨hpv, rfl, rfl⟩
      · intro _ k _ o; rw [hsl]; exact id

/-! ## What the forwarding scan establishes -/

theorem scan_cache {ent : Nat → StqEntry} {l : BitVec 32} {lf : BitVec 3} {older : Nat} (h : scan ent l lf older = .cache) :
    ∀ j < older, (ent j).paddrValid = true ∧ checkStlf l lf (ent j).paddr (ent j).func3 = .disjoint := by
  induction older with
  | zero => intro j hj; omega
  | succ o ih =>
    unfold scan at h
    dsimp only at h
    split at h
    · cases h
    · split at h
      · cases h
      · next h1 h2 =>
        split at h
        · split at h <;> cases h
        · cases h
        · next h3 =>
          intro j hj
          by_cases hjo : j = o
          · subst hjo; exact ⟨by simpa using h2, h3⟩
          · exact ih h j (by omega)

theorem scan_forward {ent : Nat → StqEntry} {l : BitVec 32} {lf : BitVec 3} {older j : Nat} {v : BitVec 32}
    (h : scan ent l lf older = .forward j v) :
    j < older ∧ (ent j).st ≠ .allocated ∧ (ent j).paddrValid = true ∧ (ent j).dataValid = true ∧
      checkStlf l lf (ent j).paddr (ent j).func3 = .overlap ∧ v = extractData (ent j).data (l - (ent j).paddr) lf ∧
      ∀ k, j < k → k < older → (ent k).paddrValid = true ∧ checkStlf l lf (ent k).paddr (ent k).func3 = .disjoint := by
  induction older with
  | zero => cases h
  | succ o ih =>
    unfold scan at h
    dsimp only at h
    split at h
    · cases h
    · split at h
      · cases h
      · next h1 h2 =>
        split at h
        · next h3 =>
          split at h
          · cases h
          · next h4 =>
            injection h with h5 h6
            subst h5
            exact ⟨by omega, h1, by simpa using h2, by simpa using h4, h3, h6.symm, fun k hk1 hk2 => by omega⟩
        · cases h
        · next h3 =>
          obtain ⟨a1, a2, a3, a4, a5, a6, a7⟩ := ih h
          refine ⟨by omega, a2, a3, a4, a5, a6, fun k hk1 hk2 => ?_⟩
          by_cases hko : k = o
          · subst hko; exact ⟨by simpa using h2, h3⟩
          · exact a7 k hk1 (by omega)

/-- A store that does not meet the load may be skipped. -/
theorem effect_skip {sl : Slot} {o : Option Op} (ho : sl.allows o) {p l : BitVec 32} (hp : sl.addr = some p)
    {lsz : Size} {sg : Bool} (h1 : p.toNat + sl.size.bytes ≤ 2 ^ 32) (h2 : l.toNat + lsz.bytes ≤ 2 ^ 32)
    (ha : Apart l lsz.bytes p sl.size.bytes) (dev : BitVec 32 → Bool) (m : Mem) :
    Spec.ByteMem.load (effect dev m o) lsz sg l = Spec.ByteMem.load m lsz sg l := by
  cases o with
  | none => rfl
  | some op =>
    obtain ⟨_, e2, e3, _⟩ := ho
    have := e3 p hp
    unfold effect
    dsimp only
    split
    · rfl
    · rw [this, e2]
      exact load_store_apart _ _ _ _ _ _ _ h1 h2 ha

theorem replay_skip {slots : Nat → Slot} {ops : Nat → Option Op} {l : BitVec 32} {lsz : Size} {sg : Bool}
    (h2 : l.toNat + lsz.bytes ≤ 2 ^ 32) (dev : BitVec 32 → Bool) (m : Mem) (a : Nat) : ∀ b, a ≤ b →
    (∀ k, a ≤ k → k < b → ops k = none ∨ (slots k).allows (ops k)) →
    (∀ k, a ≤ k → k < b → ∃ p, (slots k).addr = some p ∧ p.toNat + (slots k).size.bytes ≤ 2 ^ 32 ∧
      Apart l lsz.bytes p (slots k).size.bytes) →
    Spec.ByteMem.load (replay dev m ops b) lsz sg l = Spec.ByteMem.load (replay dev m ops a) lsz sg l := by
  intro b
  induction b with
  | zero => intro hab _ _; have : a = 0 := by omega
            rw [this]
  | succ b ih =>
    intro hab ho hp
    by_cases hc : a = b + 1
    · rw [hc]
    · obtain ⟨p, e1, e2, e3⟩ := hp b (by omega) (by omega)
      simp only [replay]
      have : Spec.ByteMem.load (effect dev (replay dev m ops b) (ops b)) lsz sg l =
          Spec.ByteMem.load (replay dev m ops b) lsz sg l := by
        rcases ho b (by omega) (by omega) with e | e
        · rw [e]; rfl
        · exact effect_skip e e1 e2 h2 e3 dev _
      rw [this]
      exact ih (by omega) (fun k hk1 hk2 => ho k hk1 (by omega)) (fun k hk1 hk2 => hp k hk1 (by omega))

theorem slot_apart {n : Nat} {m : Mem} {s : Sys} (h : Inv n m s) {k : Nat} (hk : k < s.prog.len) {l : BitVec 32} {lf : BitVec 3}
    {lsz : Size} (hlw : memWidth lf = lsz.bytes) (hl : l.toNat + lsz.bytes < 2 ^ 32) (hpv : (s.ent n k).paddrValid = true)
    (hd : checkStlf l lf (s.ent n k).paddr (s.ent n k).func3 = .disjoint) :
    ∃ p, (s.prog.slots k).addr = some p ∧ p.toNat + (s.prog.slots k).size.bytes ≤ 2 ^ 32 ∧
      Apart l lsz.bytes p (s.prog.slots k).size.bytes := by
  have hb := (h.slot k hk).base
  have hok := (hb.ok hpv).1
  refine ⟨(s.ent n k).paddr, ?_, Nat.le_of_lt hok.2.1, ?_⟩
  · rw [hb.addr, hpv]; rfl
  · have := hb.func3
    rw [this] at hd
    exact (checkStlf_disjoint hlw (width_store _) hok.2.1 hl).mp hd

/-- A forwarded value is the right one. -/
theorem returns_forward {n : Nat} {m : Mem} {s : Sys} (h : Inv n m s) {i j : Nat} {v : BitVec 32}
    (hst : (s.lsu.ldq i).st = .checkStlf) (hmm : (s.lsu.ldq i).mmio = false)
    (hsc : scan (at' n s.lsu) (s.lsu.ldq i).paddr (s.lsu.ldq i).func3 ((s.prog.loads i).older - s.retired) = .forward j v)
    (hbad : ((at' n s.lsu j).lrsc && !(at' n s.lsu j).decided) = false ∧ (at' n s.lsu j).suppress = false) :
    Returns mmioAddr m s.prog (s.prog.loads i) (s.lsu.ldq i).paddr v := by
  have hL := h.load i
  obtain ⟨ho1, ho2⟩ := hL.older (by rw [hst]; decide)
  obtain ⟨_, _, hcode⟩ := hL.snap (by rw [hst]; decide) (by rw [hst]; decide)
  obtain ⟨_, hok, hmio⟩ := hL.loc (by rw [hst]; rfl)
  have hlw := width_load hcode
  have hrc := h.ring.retired_le
  obtain ⟨a1, a2, a3, a4, a5, a6, a7⟩ := scan_forward hsc
  rw [h.ring.at'] at a2 a3 a4 a5 a6 hbad
  simp only [h.ring.at'] at a7
  have hkl : s.retired + j < s.prog.len := by omega
  have hk := h.slot _ hkl
  have hb := hk.base
  have hokk := hb.ok a3
  have haddr : (s.prog.slots (s.retired + j)).addr = some (s.ent n (s.retired + j)).paddr := by rw [hb.addr, a3]; rfl
  have hdata : (s.prog.slots (s.retired + j)).data = some (s.ent n (s.retired + j)).data := by rw [hb.data, a4]; rfl
  rw [hb.func3] at a5
  obtain ⟨c1, c2⟩ := (checkStlf_overlap hlw (width_store _) hokk.1.2.1 hok.2.1).mp a5
  intro ops hops
  rw [replay_skip (slots := s.prog.slots) (Nat.le_of_lt hok.2.1) mmioAddr m (s.retired + j + 1) _ (by omega)
    (fun k _ hk2 => Or.inr (hops k hk2)) (fun k hk1 hk2 => by
      obtain ⟨b1, b2⟩ := a7 (k - s.retired) (by omega) (by omega)
      have e : s.retired + (k - s.retired) = k := by omega
      rw [e] at b1 b2
      exact slot_apart h (by omega) hlw hok.2.1 b1 b2)]
  simp only [replay]
  have hal := hops (s.retired + j) (by omega)
  have hdead : (s.prog.slots (s.retired + j)).dead = false := by
    by_cases hc : s.retired + j < s.prog.committed
    · rw [(hk.comm hc).dead]; exact hbad.2
    · rw [(hk.pend (by omega)).dead]; exact hbad.2
  cases hop : ops (s.retired + j) with
  | none =>
    rw [hop] at hal
    rcases hal with e | e | e | e
    · rw [hdead] at e; cases e
    · rw [haddr] at e; cases e
    · rw [hdata] at e; cases e
    · exfalso
      by_cases hc : s.retired + j < s.prog.committed
      · have := (hk.comm hc).reported
        rw [e.2] at this; cases this
      · have hp := hk.pend (by omega)
        have hsta : (s.prog.slots (s.retired + j)).sta = true := by rw [hp.sta]; simpa using a2
        have hlr := hp.lrsc hsta
        have hnw := hp.reported
        have hsg := hp.stage
        have hb1 := hbad.1
        rw [e.2] at hnw
        rw [e.1] at hlr
        rw [hlr] at hb1
        unfold stage at hsg
        unfold StqEntry.decided at hb1
        cases hst' : (s.ent n (s.retired + j)).st <;> rw [hst'] at hsg hb1 hnw <;> simp at hsg hb1 hnw
  | some op =>
    rw [hop] at hal
    obtain ⟨_, e2, e3, e4⟩ := hal
    unfold effect
    dsimp only
    rw [e3 _ haddr, e4 _ hdata, e2]
    have hnm : mmioAddr (s.ent n (s.retired + j)).paddr = false := by
      rw [← same_word hok hokk.1 c1 c2, ← hmio]; exact hmm
    rw [hnm]
    simp only [Bool.false_eq_true, if_false]
    rw [a6]
    exact load_store_cover _ _ _ _ _ hcode _ _ _ hokk.1.1 hok.1 (Nat.le_of_lt hokk.1.2.1) c1 c2

theorem replay_congr {dev : BitVec 32 → Bool} {m : Mem} {f g : Nat → Option Op} : ∀ b,
    (∀ k < b, ∀ x, effect dev x (f k) = effect dev x (g k)) → replay dev m f b = replay dev m g b := by
  intro b
  induction b with
  | zero => intro _; rfl
  | succ b ih =>
    intro h
    simp only [replay]
    rw [ih (fun k hk => h k (by omega)), h b (by omega)]

/-- A performed store is one its slot allows. -/
theorem perf_allows {n : Nat} {m : Mem} {s : Sys} (h : Inv n m s) {k : Nat} (hk : k < s.prog.committed) :
    perf n s k = none ∨ (s.prog.slots k).allows (perf n s k) := by
  have hk' := h.slot k (by have := h.ring.le1; omega)
  have hc := hk'.comm hk
  unfold perf
  split
  · next hp =>
    right
    unfold performed at hp
    simp only [Bool.and_eq_true, Bool.not_eq_true'] at hp
    obtain ⟨hp1, hp2⟩ := hc.nosup hp.1.1
    refine ⟨?_, rfl, ?_, ?_⟩
    · rw [hc.dead]; exact hp.1.1
    · intro a ha
      rw [hk'.base.addr, hp1] at ha
      exact Option.some.inj ha
    · intro a ha
      rw [hk'.base.data, hp2] at ha
      exact Option.some.inj ha
  · left; rfl

/-- For a store that is done, what was performed is what any allowed outcome does. -/
theorem perf_done {n : Nat} {m : Mem} {s : Sys} (h : Inv n m s) {k : Nat} (hk : k < s.prog.committed)
    (hd : (s.ent n k).st = .done) {o : Option Op} (ho : (s.prog.slots k).allows o) (x : Mem) :
    effect mmioAddr x (perf n s k) = effect mmioAddr x o := by
  have hk' := h.slot k (by have := h.ring.le1; omega)
  have hc := hk'.comm hk
  cases hs : (s.ent n k).suppress with
  | true =>
    have hp : perf n s k = none := by unfold perf performed; simp [hs]
    rw [hp]
    cases o with
    | none => rfl
    | some op =>
      have := ho.1
      rw [hc.dead, hs] at this; cases this
  | false =>
    obtain ⟨hp1, hp2⟩ := hc.nosup hs
    have haddr : (s.prog.slots k).addr = some (s.ent n k).paddr := by rw [hk'.base.addr, hp1]; rfl
    have hdata : (s.prog.slots k).data = some (s.ent n k).data := by rw [hk'.base.data, hp2]; rfl
    have hmio := (hk'.base.ok hp1).2
    cases o with
    | none =>
      exfalso
      rcases ho with e | e | e | e
      · rw [hc.dead, hs] at e; cases e
      · rw [haddr] at e; cases e
      · rw [hdata] at e; cases e
      · rw [hc.reported] at e; cases e.2
    | some op =>
      obtain ⟨_, e2, e3, e4⟩ := ho
      have e5 := e3 _ haddr
      have e6 := e4 _ hdata
      cases hm : (s.ent n k).mmio with
      | true =>
        have hp : perf n s k = none := by unfold perf performed; simp [hm]
        rw [hp]
        unfold effect
        dsimp only
        rw [e5, ← hmio, hm]; rfl
      | false =>
        have hp : perf n s k = some (opOf (s.prog.slots k) (s.ent n k)) := by
          unfold perf performed; simp [hm, hs, hd]
        rw [hp]
        unfold effect opOf
        dsimp only
        rw [e5, e6, e2]

/-- A word sampled from memory is the right one. -/
theorem returns_sample {n : Nat} {m : Mem} {s : Sys} (h : Inv n m s) {i : Nat} (hst : (s.lsu.ldq i).st = .waitDcacheResp) :
    Returns mmioAddr m s.prog (s.prog.loads i) (s.lsu.ldq i).paddr
      (extractData (word s.mem (s.lsu.ldq i).paddr) (s.lsu.ldq i).paddr (s.lsu.ldq i).func3) := by
  have hL := h.load i
  obtain ⟨ho1, ho2⟩ := hL.older (by rw [hst]; decide)
  obtain ⟨_, _, hcode⟩ := hL.snap (by rw [hst]; decide) (by rw [hst]; decide)
  obtain ⟨_, hok, hmio⟩ := hL.loc (by rw [hst]; rfl)
  obtain ⟨_, hcl⟩ := hL.clear (Or.inr hst)
  have hlw := width_load hcode
  have hrc := h.ring.retired_le
  have hap : ∀ k, s.retired ≤ k → k < (s.prog.loads i).older → ∃ p, (s.prog.slots k).addr = some p ∧
      p.toNat + (s.prog.slots k).size.bytes ≤ 2 ^ 32 ∧
      Apart (s.lsu.ldq i).paddr (s.prog.loads i).size.bytes p (s.prog.slots k).size.bytes := by
    intro k hk1 hk2
    obtain ⟨b1, b2⟩ := hcl k hk1 hk2
    exact slot_apart h (by omega) hlw hok.2.1 b1 b2
  intro ops hops
  rw [Verif.Props.C33_core_load _ _ _ _ hcode _ hok.1]
  rw [replay_skip (slots := s.prog.slots) (Nat.le_of_lt hok.2.1) mmioAddr m s.retired _ (by omega)
    (fun k _ hk2 => Or.inr (hops k hk2)) hap]
  rw [h.mem]
  rw [replay_skip (slots := s.prog.slots) (Nat.le_of_lt hok.2.1) mmioAddr m s.retired s.prog.committed hrc
    (fun k _ hk2 => perf_allows h hk2) (fun k hk1 hk2 => hap k hk1 (by omega))]
  rw [replay_congr s.retired (fun k hk x => perf_done h (by omega) ((h.slot k (by omega)).ret hk) (hops k (by omega)) x)]

/-! ## Events of loads -/

/-- The state after a change of load slot `i`, and of the bookkeeping of that load. -/
def ldSet (s : Sys) (i : Nat) (e : LdqEntry) (r : LoadRec) (w : Option (BitVec 32)) (b : Bool) (rsv : Reserve) (unc : Uncached) : Sys :=
  { s with
    lsu := { s.lsu with ldq := upd s.lsu.ldq i e, rsv := rsv, unc := unc }
    prog := { s.prog with loads := upd s.prog.loads i r }
    samp := upd s.samp i w
    badFwd := upd s.badFwd i b }

/-- `LoadOk` of the changed load, said of its parts. -/
structure LoadFit (n : Nat) (m : Mem) (s : Sys) (e : LdqEntry) (r : LoadRec) (w : Option (BitVec 32)) (b : Bool) : Prop where
  older : e.st ≠ .empty → s.prog.committed ≤ r.older ∧ r.older ≤ s.prog.len
  snap : e.st ≠ .empty → e.st ≠ .allocated →
    e.snapIdx = tagIdx n r.older ∧ e.snapFlag = tagFlag n r.older ∧ loadCode r.size r.signed = some e.func3
  early : e.st = .allocated ∨ e.st = .waitTlb ∨ e.st = .waitTlbRetry → e.fault = false
  loc : e.st.located = true → e.fault = false ∧ okAddr r.size e.paddr ∧ e.mmio = mmioAddr e.paddr
  clear : e.st = .readyToIssue ∨ e.st = .waitDcacheResp → e.mmio = false ∧
    ∀ k, s.retired ≤ k → k < r.older → (s.ent n k).paddrValid = true ∧
      checkStlf e.paddr e.func3 (s.ent n k).paddr (s.ent n k).func3 = .disjoint
  samp : e.st = .waitDcacheResp → ∀ x, w = some x → Returns mmioAddr m s.prog r e.paddr (extractData x e.paddr e.func3)
  val : e.st = .readyToWb → e.mmio = false → b = false → Returns mmioAddr m s.prog r e.paddr e.result
  mm : e.st = .waitMmioResp → e.mmio = true

theorem LoadOk.fit {n : Nat} {m : Mem} {s : Sys} {i : Nat} (h : LoadOk n m s i) :
    LoadFit n m s (s.lsu.ldq i) (s.prog.loads i) (s.samp i) (s.badFwd i) :=
  ⟨h.older, h.snap, h.early, h.loc, h.clear, h.samp, h.val, h.mm⟩

theorem Inv.ldSet {n : Nat} {m : Mem} {s : Sys} (h : Inv n m s) (i : Nat) {e : LdqEntry} {r : LoadRec}
    {w : Option (BitVec 32)} {b : Bool} (rsv : Reserve) (unc : Uncached) (hf : LoadFit n m s e r w b) :
    Inv n m (ldSet s i e r w b rsv unc) := by
  refine h.loadUpdate i rfl rfl rfl rfl rfl rfl rfl rfl rfl rfl rfl rfl rfl
    (fun j hj => upd_ne _ _ hj) (fun j hj => upd_ne _ _ hj) (fun j hj => upd_ne _ _ hj) (fun j hj => upd_ne _ _ hj) ?_
  have e1 : (Lsu.ldSet s i e r w b rsv unc).lsu.ldq i = e := upd_same _ _ _
  have e2 : (Lsu.ldSet s i e r w b rsv unc).prog.loads i = r := upd_same _ _ _
  have e3 : (Lsu.ldSet s i e r w b rsv unc).samp i = w := upd_same _ _ _
  have e4 : (Lsu.ldSet s i e r w b rsv unc).badFwd i = b := upd_same _ _ _
  constructor <;> rw [e1] <;> try rw [e2]
  · exact hf.older
  · exact hf.snap
  · exact hf.early
  · exact hf.loc
  · exact hf.clear
  · rw [e3]; exact hf.samp
  · rw [e4]; exact hf.val
  · exact hf.mm

theorem inv_allocLd {n : Nat} {m : Mem} {s s' : Sys} (h : Inv n m s) {i : Nat} {sz : Size} {sg lr : Bool} {mask : BitVec 16}
    (hs : s.step n (.allocLd i sz sg lr mask) = some s') : Inv n m s' := by
  simp only [Sys.step, allocLdq] at hs
  split at hs
  · cases hs
  · injection hs with hs
    subst hs
    have := h.ldSet i (e := { brMask := mask, st := .allocated })
      (r := { older := s.prog.len, size := sz, signed := sg, lr := lr }) (w := s.samp i) (b := s.badFwd i) s.lsu.rsv s.lsu.unc
      ⟨fun _ => ⟨h.ring.le1, Nat.le_refl _⟩, fun _ h2 => absurd rfl h2, fun _ => rfl, (fun h => by cases h),
        (fun h => by rcases h with h | h <;> cases h), (fun h => by cases h), (fun h => by cases h), (fun h => by cases h)⟩
    unfold Lsu.ldSet at this
    rw [upd_self, upd_self] at this
    exact this

/-- Only the entry of the load, the reservation and the uncached slot change. -/
theorem Inv.ldq {n : Nat} {m : Mem} {s : Sys} (h : Inv n m s) (i : Nat) {e : LdqEntry} (rsv : Reserve) (unc : Uncached)
    (hf : LoadFit n m s e (s.prog.loads i) (s.samp i) (s.badFwd i)) :
    Inv n m { s with lsu := { s.lsu with ldq := upd s.lsu.ldq i e, rsv := rsv, unc := unc } } := by
  have := h.ldSet i rsv unc hf
  unfold Lsu.ldSet at this
  rw [upd_self, upd_self, upd_self] at this
  exact this

theorem inv_ldReq {n : Nat} {m : Mem} {s s' : Sys} (h : Inv n m s) {i : Nat} {f3 : BitVec 3} (hv : s.Valid n (.ldReq i f3))
    (hs : s.step n (.ldReq i f3) = some s') : Inv n m s' := by
  injection hs with hs
  subst hs
  obtain ⟨hst, hc⟩ := hv
  have hi := h.load i
  exact h.ldq i s.lsu.rsv s.lsu.unc
    ⟨fun _ => hi.older (by rw [hst]; decide), fun _ _ => ⟨rfl, rfl, hc⟩, fun _ => hi.early (Or.inl hst), (fun h => by cases h),
      (fun h => by rcases h with h | h <;> cases h), (fun h => by cases h), (fun h => by cases h), (fun h => by cases h)⟩

theorem inv_ldTlb {n : Nat} {m : Mem} {s s' : Sys} (h : Inv n m s) {i : Nat} {r : Tlb} (hv : s.Valid n (.ldTlb i r))
    (hs : s.step n (.ldTlb i r) = some s') : Inv n m s' := by
  injection hs with hs
  subst hs
  obtain ⟨hst, hok⟩ := hv
  have hi := h.load i
  have h1 := hi.older (by rw [hst]; decide)
  have h2 := hi.snap (by rw [hst]; decide) (by rw [hst]; decide)
  have h3 := hi.early (Or.inr (Or.inl hst))
  unfold tlbLoad
  dsimp only
  rw [if_neg (by simpa using hst)]
  cases r with
  | hit pa =>
    exact h.ldq i s.lsu.rsv s.lsu.unc
      ⟨fun _ => h1, fun _ _ => h2, fun _ => h3, fun _ => ⟨h3, hok, rfl⟩,
        (fun h => by rcases h with h | h <;> cases h), (fun h => by cases h), (fun h => by cases h), (fun h => by cases h)⟩
  | fault =>
    exact h.ldq i _ s.lsu.unc
      ⟨fun _ => h1, fun _ _ => h2, (fun h => by rcases h with h | h | h <;> cases h), (fun h => by cases h),
        (fun h => by rcases h with h | h <;> cases h), (fun h => by cases h), (fun h => by cases h), (fun h => by cases h)⟩
  | miss =>
    exact h.ldq i s.lsu.rsv s.lsu.unc
      ⟨fun _ => h1, fun _ _ => h2, fun _ => h3, (fun h => by cases h),
        (fun h => by rcases h with h | h <;> cases h), (fun h => by cases h), (fun h => by cases h), (fun h => by cases h)⟩

theorem inv_ldWin {n : Nat} {m : Mem} {s s' : Sys} (h : Inv n m s) {i : Nat} (hs : s.step n (.ldWin i) = some s') :
    Inv n m s' := by
  injection hs with hs
  subst hs
  have hi := h.load i
  unfold windowLoad
  dsimp only
  split
  · next hst =>
    have h1 := hi.older (by rw [hst]; decide)
    have h2 := hi.snap (by rw [hst]; decide) (by rw [hst]; decide)
    have h3 := hi.loc (by rw [hst]; rfl)
    exact h.ldq i s.lsu.rsv s.lsu.unc
      ⟨fun _ => h1, fun _ _ => h2, fun _ => h3.1, fun _ => h3,
        (fun h => by rcases h with h | h <;> cases h), (fun h => by cases h), (fun h => by cases h), (fun h => by cases h)⟩
  · next hst =>
    have h1 := hi.older (by rw [hst]; decide)
    have h2 := hi.snap (by rw [hst]; decide) (by rw [hst]; decide)
    exact h.ldq i s.lsu.rsv s.lsu.unc
      ⟨fun _ => h1, fun _ _ => h2, (fun h => by rcases h with h | h | h <;> cases h), (fun h => by cases h),
        (fun h => by rcases h with h | h <;> cases h), (fun h => by cases h), (fun h => by cases h), (fun h => by cases h)⟩
  · next hst =>
    have h1 := hi.older (by rw [hst]; decide)
    have h2 := hi.snap (by rw [hst]; decide) (by rw [hst]; decide)
    have h3 := hi.early (Or.inr (Or.inr hst))
    exact h.ldq i s.lsu.rsv s.lsu.unc
      ⟨fun _ => h1, fun _ _ => h2, fun _ => h3, (fun h => by cases h),
        (fun h => by rcases h with h | h <;> cases h), (fun h => by cases h), (fun h => by cases h), (fun h => by cases h)⟩
  · exact h

/-- The boundary computed from the tags is the number of older stores still in the queue. -/
theorem Inv.distance {n : Nat} {m : Mem} {s : Sys} (h : Inv n m s) (hn : 0 < n) {i : Nat}
    (hst : (s.lsu.ldq i).st ≠ .empty) (hst2 : (s.lsu.ldq i).st ≠ .allocated) :
    Lsu.distance n s.lsu.head s.lsu.headFlag (s.lsu.ldq i).snapIdx (s.lsu.ldq i).snapFlag =
      (s.prog.loads i).older - s.retired := by
  obtain ⟨h1, h2⟩ := (h.load i).older hst
  obtain ⟨h3, h4, _⟩ := (h.load i).snap hst hst2
  have := h.ring.retired_le
  have := h.ring.le2
  rw [h.ring.head, h.ring.headFlag, h3, h4]
  exact distance_eq _ _ _ hn (by omega) (by omega)

theorem inv_ldStlf {n : Nat} {m : Mem} {s s' : Sys} (h : Inv n m s) (hn : 0 < n) {i : Nat} {o : Bool} (hv : s.Valid n (.ldStlf i o))
    (hs : s.step n (.ldStlf i o) = some s') : Inv n m s' := by
  have hst : (s.lsu.ldq i).st = .checkStlf := hv
  have hi := h.load i
  have h1 := hi.older (by rw [hst]; decide)
  have h2 := hi.snap (by rw [hst]; decide) (by rw [hst]; decide)
  have h3 := hi.loc (by rw [hst]; rfl)
  have hd := h.distance hn (i := i) (by rw [hst]; decide) (by rw [hst]; decide)
  have hrc := h.ring.retired_le
  have hcur : ∀ b, LoadFit n m s (s.lsu.ldq i) (s.prog.loads i) (s.samp i) b := fun b =>
    ⟨hi.older, hi.snap, hi.early, hi.loc, hi.clear, hi.samp, (fun e => by rw [hst] at e; cases e), hi.mm⟩
  have keep : ∀ b, Inv n m { s with badFwd := upd s.badFwd i b } := by
    intro b
    have := h.ldSet i s.lsu.rsv s.lsu.unc (hcur b)
    unfold Lsu.ldSet at this
    rw [upd_self, upd_self, upd_self] at this
    exact this
  have set : ∀ e b unc, LoadFit n m s e (s.prog.loads i) (s.samp i) b →
      Inv n m { s with lsu := { s.lsu with ldq := upd s.lsu.ldq i e, unc := unc }, badFwd := upd s.badFwd i b } := by
    intro e b unc hf
    have := h.ldSet i s.lsu.rsv unc hf
    unfold Lsu.ldSet at this
    rw [upd_self, upd_self] at this
    exact this
  obtain ⟨l, hl, hs⟩ := Option.map_eq_some_iff.mp hs
  subst hs
  unfold stlf at hl
  dsimp only at hl
  rw [hd] at hl
  split at hl
  · cases hl
  · split at hl
    · next hmm =>
      split at hl
      · injection hl with hl
        subst hl
        exact set _ _ _
          ⟨fun _ => h1, fun _ _ => h2, fun _ => h3.1, fun _ => h3,
            (fun h => by rcases h with h | h <;> cases h), (fun h => by cases h), (fun h => by cases h), fun _ => hmm⟩
      · injection hl with hl
        subst hl
        exact keep _
    · next hmm =>
      have hmm' : (s.lsu.ldq i).mmio = false := by simpa using hmm
      split at hl
      · next hsc =>
        injection hl with hl
        subst hl
        refine set _ _ s.lsu.unc
          ⟨fun _ => h1, fun _ _ => h2, fun _ => h3.1, fun _ => h3, fun _ => ⟨hmm', fun k hk1 hk2 => ?_⟩,
            (fun h => by cases h), (fun h => by cases h), (fun h => by cases h)⟩
        have := scan_cache hsc (k - s.retired) (by omega)
        rw [h.ring.at', show s.retired + (k - s.retired) = k by omega] at this
        exact this
      · next j v hsc =>
        injection hl with hl
        subst hl
        refine set _ _ s.lsu.unc
          ⟨fun _ => h1, fun _ _ => h2, fun _ => h3.1, fun _ => h3,
            (fun h => by rcases h with h | h <;> cases h), (fun h => by cases h), (fun _ _ hb => ?_), (fun h => by cases h)⟩
        unfold badScan at hb
        dsimp only at hb
        rw [hd, hsc] at hb
        simp only [Bool.or_eq_false_iff] at hb
        exact returns_forward h hst hmm' hsc hb
      · injection hl with hl
        subst hl
        exact keep _

theorem inv_ldIssue {n : Nat} {m : Mem} {s s' : Sys} (h : Inv n m s) {i : Nat} (hs : s.step n (.ldIssue i) = some s') :
    Inv n m s' := by
  injection hs with hs
  subst hs
  have hi := h.load i
  unfold issueLoad
  split
  · next hst =>
    have := h.ldSet i (e := s.lsu.ldq i) (r := s.prog.loads i) (w := none) (b := s.badFwd i) s.lsu.rsv s.lsu.unc
      ⟨hi.older, hi.snap, hi.early, hi.loc, hi.clear, (fun _ x hx => by cases hx), hi.val, hi.mm⟩
    unfold Lsu.ldSet at this
    rw [upd_self, upd_self, upd_self] at this
    exact this
  · next hst =>
    have hst' : (s.lsu.ldq i).st = .readyToIssue := by simpa using hst
    have h1 := hi.older (by rw [hst']; decide)
    have h2 := hi.snap (by rw [hst']; decide) (by rw [hst']; decide)
    have h3 := hi.loc (by rw [hst']; rfl)
    have h4 := hi.clear (Or.inl hst')
    have := h.ldSet i (e := { s.lsu.ldq i with st := .waitDcacheResp }) (r := s.prog.loads i) (w := none) (b := s.badFwd i)
      s.lsu.rsv s.lsu.unc
      ⟨fun _ => h1, fun _ _ => h2, fun _ => h3.1, fun _ => h3, fun _ => h4, (fun _ x hx => by cases hx), (fun h => by cases h), (fun h => by cases h)⟩
    unfold Lsu.ldSet at this
    rw [upd_self, upd_self] at this
    exact this

theorem inv_ldSample {n : Nat} {m : Mem} {s s' : Sys} (h : Inv n m s) {i : Nat} (hv : s.Valid n (.ldSample i))
    (hs : s.step n (.ldSample i) = some s') : Inv n m s' := by
  injection hs with hs
  subst hs
  have hst : (s.lsu.ldq i).st = .waitDcacheResp := hv
  have hi := h.load i
  have := h.ldSet i (e := s.lsu.ldq i) (r := s.prog.loads i) (w := some (word s.mem (s.lsu.ldq i).paddr)) (b := s.badFwd i)
    s.lsu.rsv s.lsu.unc
    ⟨hi.older, hi.snap, hi.early, hi.loc, hi.clear,
      (fun _ x hx => by injection hx with hx; subst hx; exact returns_sample h hst), hi.val, hi.mm⟩
  unfold Lsu.ldSet at this
  rw [upd_self, upd_self, upd_self] at this
  exact this

theorem inv_ldResp {n : Nat} {m : Mem} {s s' : Sys} (h : Inv n m s) {i : Nat} {hit : Bool} (hs : s.step n (.ldResp i hit) = some s') :
    Inv n m s' := by
  injection hs with hs
  subst hs
  have hi := h.load i
  unfold respLoad
  dsimp only
  split
  · exact h
  · next hst =>
    have hst' : (s.lsu.ldq i).st = .waitDcacheResp := by simpa using hst
    have h1 := hi.older (by rw [hst']; decide)
    have h2 := hi.snap (by rw [hst']; decide) (by rw [hst']; decide)
    have h3 := hi.loc (by rw [hst']; rfl)
    have h4 := hi.clear (Or.inr hst')
    split
    · next d hd =>
      have hd' : s.samp i = some d := by
        split at hd
        · exact hd
        · cases hd
      exact h.ldq i s.lsu.rsv s.lsu.unc
        ⟨fun _ => h1, fun _ _ => h2, fun _ => h3.1, fun _ => h3, (fun h => by rcases h with h | h <;> cases h),
          (fun h => by cases h), (fun _ _ _ => hi.samp hst' d hd'), (fun h => by cases h)⟩
    · exact h.ldq i s.lsu.rsv s.lsu.unc
        ⟨fun _ => h1, fun _ _ => h2, fun _ => h3.1, fun _ => h3, fun _ => h4, (fun h => by cases h), (fun h => by cases h), (fun h => by cases h)⟩

theorem inv_ldWb {n : Nat} {m : Mem} {s s' : Sys} (h : Inv n m s) {i : Nat} (hs : s.step n (.ldWb i) = some s') :
    Inv n m s' := by
  injection hs with hs
  subst hs
  unfold wbLoad
  dsimp only
  split
  · exact h
  · exact h.ldq i _ s.lsu.unc
      ⟨fun h => absurd rfl h, fun h => absurd rfl h, (fun h => by rcases h with h | h | h <;> cases h), (fun h => by cases h),
        (fun h => by rcases h with h | h <;> cases h), (fun h => by cases h), (fun h => by cases h), (fun h => by cases h)⟩

end Verif.Lsu

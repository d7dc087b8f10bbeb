import Verif.Proofs.LsuCommit

namespace Verif.Lsu

open Verif.Ring Verif.Lane Verif.Spec.ByteMem Verif.Spec.MemOrder

/-! ## The invariant without the loads -/

structure InvS (n : Nat) (m : Mem) (s : Sys) : Prop where
  ring : RingOk n s
  slot : ∀ k < s.prog.len, SlotOk n s k
  pend : PendOk n s
  out : ∀ i, n ≤ i → s.pend i = none
  mem : s.mem = replay mmioAddr m (perf n s) s.prog.committed
  iss : IssOk n s

theorem Inv.toS {n : Nat} {m : Mem} {s : Sys} (h : Inv n m s) : InvS n m s := ⟨h.ring, h.slot, h.pend, h.out, h.mem, h.iss⟩

theorem InvS.inv {n : Nat} {m : Mem} {s : Sys} (h : InvS n m s) (hl : ∀ i, LoadOk n m s i) : Inv n m s :=
  ⟨h.ring, h.slot, h.pend, h.out, h.mem, h.iss, hl⟩

theorem loadOk_empty {n : Nat} {m : Mem} {s : Sys} {i : Nat} (h : (s.lsu.ldq i).st = .empty) : LoadOk n m s i := by
  constructor <;> rw [h] <;> simp [LoadState.located]

/-! ## Dispatch of a store -/

theorem inv_allocSt {n : Nat} {m : Mem} {s s' : Sys} (h : Inv n m s) {sz : Size} {sc : Bool} {mask : BitVec 16}
    (hs : s.step n (.allocSt sz sc mask) = some s') : Inv n m s' := by
  obtain ⟨l, hl, hs⟩ := Option.map_eq_some_iff.mp hs
  subst hs
  unfold allocStq at hl
  split at hl
  · cases hl
  · next hcnt =>
    split at hl
    · cases hl
    · injection hl with hl
      subst hl
      have hrc := h.ring.retired_le
      have hc := h.ring.count
      have hle1 := h.ring.le1
      have hidx : idxAfter n s.lsu.head s.lsu.count = tagIdx n s.prog.len := by
        rw [h.ring.head, idxAfter_eq, hc]
      rw [hidx]
      let e : StqEntry := { flag := tagFlag n s.prog.len, brMask := mask, func3 := sz.code, st := .allocated }
      let sl : Slot := { size := sz, isSc := sc }
      let l1 : State := { s.lsu with stq := upd s.lsu.stq (tagIdx n s.prog.len) e, count := s.lsu.count + 1 }
      let s1 : Sys := { s with lsu := l1, prog := { s.prog with slots := upd s.prog.slots s.prog.len sl, len := s.prog.len + 1 } }
      show Inv n m s1
      have hent : ∀ j, j < s.retired + n → s1.ent n j = if j = s.prog.len then e else s.ent n j :=
        fun j hj => ent_upd (s := s) (s' := s1) (k := s.prog.len) (e := e) (by omega) (by omega) rfl rfl rfl hj
      have hslot : ∀ j, s1.prog.slots j = if j = s.prog.len then sl else s.prog.slots j := fun _ => rfl
      have hperf : ∀ j, j < s.prog.committed → perf n s1 j = perf n s j := by
        intro j hj
        have hne : j ≠ s.prog.len := by omega
        unfold perf performed
        rw [hent j (by omega), hslot j, if_neg hne, if_neg hne]
      refine ⟨⟨h.ring.head, h.ring.headFlag, ?_, h.ring.cc, h.ring.commit, ?_, ?_⟩, ?_, ?_, h.out, ?_, ?_, ?_⟩
      · show s.retired + (s.lsu.count + 1) = s.prog.len + 1; omega
      · show s.prog.committed ≤ s.prog.len + 1; omega
      · show s.prog.len + 1 ≤ s.retired + n; omega
      · intro j hj
        have hj : j < s.prog.len + 1 := hj
        by_cases hjl : j = s.prog.len
        · subst hjl
          constructor
          · rw [hent _ (by omega), hslot, if_pos rfl, if_pos rfl]
            exact ⟨rfl, rfl, rfl, fun e => by cases e⟩
          · intro hjc
            have hjc : s.prog.len < s.prog.committed := hjc
            omega
          · intro _
            rw [hent _ (by omega), hslot, if_pos rfl, if_pos rfl]
            refine ⟨rfl, rfl, (fun e => by cases e), rfl, rfl, (fun e => by cases e), (fun e => by cases e), ⟨rfl, rfl⟩⟩
          · intro hjr
            have hjr : s.prog.len < s.retired := hjr
            omega
        · have hj' := h.slot j (by omega)
          constructor
          · rw [hent _ (by omega), hslot, if_neg hjl, if_neg hjl]; exact hj'.base
          · rw [hent _ (by omega), hslot, if_neg hjl, if_neg hjl]; exact hj'.comm
          · rw [hent _ (by omega), hslot, if_neg hjl, if_neg hjl]; exact hj'.pend
          · rw [hent _ (by omega), if_neg hjl]; exact hj'.ret
      · intro j hj1 hj2
        rcases h.pend j hj1 hj2 with e1 | ⟨e1, e2, e3⟩
        · exact Or.inl e1
        · right
          rw [hent j hj2, if_neg (by omega)]
          exact ⟨e1, e2, e3⟩
      · show s.mem = _
        rw [h.mem]
        exact replay_congr' _ (fun j hj => (hperf j hj).symm)
      · intro i j hi hij hj
        have hi : s.retired ≤ i := hi
        have hj : j < s.prog.committed := hj
        rw [hent i (by omega), hent j (by omega), if_neg (by omega), if_neg (by omega)]
        exact h.iss i j hi hij hj
      · intro i
        have hi := h.load i
        refine hi.frame (s' := s1) rfl rfl rfl rfl ?_ ?_ ?_ ?_
        · intro hne
          have := hi.older hne
          exact ⟨this.1, Nat.le_succ_of_le this.2⟩
        · exact Nat.le_refl _
        · intro hne j _ hj2 hpv
          have := (hi.older hne).2
          rw [hent j (by omega), if_neg (by omega)]
          exact ⟨hpv, rfl, rfl⟩
        · intro hne j hj o
          have := (hi.older hne).2
          rw [hslot j, if_neg (by omega)]
          exact id

/-! ## Commit -/

/-- The entry left by the commit of `e`. -/
def committedEntry (e : StqEntry) (fl : Bool) : StqEntry :=
  if fl then { e with st := .done, suppress := true }
  else if e.lrsc = true ∧ e.scPass = false then { e with suppress := true, st := .done }
  else { e with st := .committed }

/-- Commit of the oldest uncommitted store, without the loads. -/
theorem invS_commit {n : Nat} {m : Mem} {s : Sys} (h : Inv n m s) (fl : Bool) (hlt : s.prog.committed < s.prog.len)
    (hrep : (s.prog.slots s.prog.committed).reported = true)
    (hfault : fl = false → (s.prog.slots s.prog.committed).fault = false) {l : State}
    (hl : commitStore n s.lsu (tagIdx n s.prog.committed) fl = some l) {s1 : Sys}
    (h1 : s1 = { s with lsu := l, prog := { setSlot s.prog s.prog.committed (fun sl => { sl with dead := sl.dead || fl }) with
      committed := s.prog.committed + 1 } }) : InvS n m s1 ∧
    (∀ j, j < s.retired + n → s1.ent n j = if j = s.prog.committed then committedEntry (s.ent n j) fl else s.ent n j) ∧
    s1.lsu.ldq = s.lsu.ldq := by
  have hrc := h.ring.retired_le
  have hc := h.ring.count
  have hcc := h.ring.cc
  have hle1 := h.ring.le1
  have hle2 := h.ring.le2
  have hk := h.slot _ hlt
  have hP := hk.pend (Nat.le_refl _)
  have hst : (s.ent n s.prog.committed).st = .waitCommit := by
    have := hP.reported; rw [hrep] at this; simpa using this.symm
  have hew := ent_window (n := n) s hrc
  unfold commitStore at hl
  dsimp only at hl
  rw [if_pos ⟨h.ring.commit.symm, by rw [← hew]; exact hst⟩, if_pos (by omega : s.lsu.commitCount < n), ← hew] at hl
  injection hl with hl
  have hq : s1.lsu.stq = upd s.lsu.stq (tagIdx n s.prog.committed) (committedEntry (s.ent n s.prog.committed) fl) := by
    rw [h1, ← hl]; rfl
  have hent : ∀ j, j < s.retired + n →
      s1.ent n j = if j = s.prog.committed then committedEntry (s.ent n j) fl else s.ent n j := by
    intro j hj
    rw [ent_upd (s := s) (s' := s1) hrc (by omega) (by rw [h1]) (by rw [h1]) hq hj]
    split
    · next e => rw [e]
    · rfl
  have hslot : ∀ j, s1.prog.slots j = if j = s.prog.committed then
      { s.prog.slots j with dead := (s.prog.slots j).dead || fl } else s.prog.slots j := by
    intro j
    rw [h1]
    show upd s.prog.slots s.prog.committed _ j = _
    unfold upd
    split
    · next e => rw [e]
    · rfl
  have hcm : s1.prog.committed = s.prog.committed + 1 := by rw [h1]
  have hlen : s1.prog.len = s.prog.len := by rw [h1]; rfl
  have hret : s1.retired = s.retired := by rw [h1]
  have hpend : s1.pend = s.pend := by rw [h1]
  have hmem : s1.mem = s.mem := by rw [h1]
  -- the committed entry
  have hC : Comm { s.prog.slots s.prog.committed with dead := (s.prog.slots s.prog.committed).dead || fl }
      (committedEntry (s.ent n s.prog.committed) fl) := by
    have hsg := hP.stage
    unfold stage at hsg
    rw [hst] at hsg
    unfold committedEntry
    cases fl with
    | true =>
      rw [if_pos rfl]
      exact ⟨Or.inr (Or.inr (Or.inr rfl)), hrep, by simp, fun _ => rfl, (fun e => by cases e), (fun e => by cases e), (fun e => by cases e)⟩
    | false =>
      rw [if_neg (by decide)]
      have hf : (s.ent n s.prog.committed).fault = false := by rw [← hP.fault]; exact hfault rfl
      have hpd : (s.ent n s.prog.committed).paddrValid = true ∧ (s.ent n s.prog.committed).dataValid = true := by
        rcases hsg with e | e
        · rw [hf] at e; cases e.1
        · exact e.2
      split
      · next e =>
        refine ⟨Or.inr (Or.inr (Or.inr rfl)), hrep, ?_, fun _ => rfl, (fun e => by cases e), (fun e => by cases e), (fun e => by cases e)⟩
        have := hP.scp hst e.1 hf
        rw [e.2] at this
        show ((s.prog.slots s.prog.committed).dead || false) = true
        rw [hP.dead, this]; rfl
      · next e =>
        refine ⟨Or.inl rfl, hrep, ?_, ?_, fun _ => hpd, (fun e => by cases e), (fun e => by cases e)⟩
        · show ((s.prog.slots s.prog.committed).dead || false) = _
          rw [Bool.or_false]; exact hP.dead
        · intro e2
          obtain ⟨a, b, _⟩ := hP.sup e2
          exact absurd ⟨a, b⟩ e
  have hB : Base { s.prog.slots s.prog.committed with dead := (s.prog.slots s.prog.committed).dead || fl }
      (committedEntry (s.ent n s.prog.committed) fl) := by
    obtain ⟨b1, b2, b3, b4⟩ := hk.base
    unfold committedEntry
    split
    · exact ⟨b1, b2, b3, b4⟩
    · split
      · exact ⟨b1, b2, b3, b4⟩
      · exact ⟨b1, b2, b3, b4⟩
  have hns : ¬ started (committedEntry (s.ent n s.prog.committed) fl) := by
    unfold committedEntry started
    split
    · intro e; rcases e.2 with e | e
      · cases e
      · cases e.2
    · split
      · intro e; rcases e.2 with e | e
        · cases e
        · cases e.2
      · intro e; rcases e.2 with e | e
        · cases e
        · cases e.1
  have hperf : ∀ j, j < s.prog.committed → perf n s1 j = perf n s j := by
    intro j hj
    unfold perf performed
    have hne : j ≠ s.prog.committed := by omega
    rw [hent j (by omega), hslot j, if_neg hne, if_neg hne, hpend]
  have hpk : perf n s1 s.prog.committed = none := by
    unfold perf
    rw [if_neg]
    intro hp
    unfold performed at hp
    rw [hent _ (by omega), if_pos rfl] at hp
    simp only [Bool.and_eq_true, Bool.not_eq_true', Bool.or_eq_true, decide_eq_true_eq] at hp
    apply hns
    refine ⟨hp.1.2, ?_⟩
    rcases hp.2 with e | e
    · exact Or.inr ⟨e, hp.1.1⟩
    · exact Or.inl e.1
  refine ⟨⟨⟨?_, ?_, ?_, ?_, ?_, ?_, ?_⟩, ?_, ?_, ?_, ?_, ?_⟩, hent, ?_⟩
  · rw [hret, ← h.ring.head, h1, ← hl]
  · rw [hret, ← h.ring.headFlag, h1, ← hl]
  · rw [hret, hlen, ← hc, h1, ← hl]
  · rw [hret, hcm, ← hcc, h1, ← hl]; exact (Nat.add_assoc _ _ _).symm
  · rw [hcm, ← adv_eq n _ (by omega), ← h.ring.commit, h1, ← hl]
  · rw [hcm, hlen]; omega
  · rw [hret, hlen]; exact hle2
  · intro j hj
    rw [hlen] at hj
    have hj' := h.slot j hj
    by_cases hjc : j = s.prog.committed
    · subst hjc
      constructor
      · rw [hent _ (by omega), hslot, if_pos rfl, if_pos rfl]; exact hB
      · intro _; rw [hent _ (by omega), hslot, if_pos rfl, if_pos rfl]; exact hC
      · intro e; rw [hcm] at e; omega
      · intro e; rw [hret] at e; omega
    · constructor
      · rw [hent _ (by omega), hslot, if_neg hjc, if_neg hjc]; exact hj'.base
      · intro e; rw [hcm] at e; rw [hent _ (by omega), hslot, if_neg hjc, if_neg hjc]; exact hj'.comm (by omega)
      · intro e; rw [hcm] at e; rw [hent _ (by omega), hslot, if_neg hjc, if_neg hjc]; exact hj'.pend (by omega)
      · intro e; rw [hret] at e; rw [hent _ (by omega), if_neg hjc]; exact hj'.ret e
  · intro j hj1 hj2
    rw [hret] at hj1 hj2
    rw [hpend]
    rcases h.pend j hj1 hj2 with e1 | ⟨e1, e2, e3⟩
    · exact Or.inl e1
    · right
      rw [hent j hj2, if_neg (by omega), hcm]
      exact ⟨by omega, e2, e3⟩
  · rw [hpend]; exact h.out
  · rw [hmem, hcm]
    simp only [replay]
    rw [hpk, h.mem]
    exact replay_congr' _ (fun j hj => (hperf j hj).symm)
  · intro i j hi hij hj hsj hdi
    rw [hret] at hi
    rw [hcm] at hj
    rw [hent j (by omega)] at hsj ⊢
    by_cases hjc : j = s.prog.committed
    · rw [if_pos hjc, hjc] at hsj; exact absurd hsj hns
    · rw [if_neg hjc] at hsj ⊢
      rw [hent i (by omega), if_neg (by omega)] at hdi ⊢
      exact h.iss i j hi hij (by omega) hsj hdi
  · rw [h1, ← hl]

theorem setSlot_id (p : Prog) (k : Nat) : setSlot p k (fun sl => { sl with dead := sl.dead || false }) = p := by
  unfold setSlot
  have : (fun sl : Slot => ({ sl with dead := sl.dead || false } : Slot)) = fun sl => sl := by
    funext sl; rw [Bool.or_false]
  rw [this, upd_self]

theorem committedEntry_addr (e : StqEntry) (fl : Bool) : (committedEntry e fl).paddrValid = e.paddrValid ∧
    (committedEntry e fl).paddr = e.paddr ∧ (committedEntry e fl).func3 = e.func3 := by
  unfold committedEntry
  split
  · exact ⟨rfl, rfl, rfl⟩
  · split <;> exact ⟨rfl, rfl, rfl⟩

theorem inv_commit {n : Nat} {m : Mem} {s s' : Sys} (h : Inv n m s) (hv : s.Valid n .commit)
    (hs : s.step n .commit = some s') : Inv n m s' := by
  obtain ⟨hlt, hrep, hf, hld⟩ := hv
  obtain ⟨l, hl, hs⟩ := Option.map_eq_some_iff.mp hs
  have h1 : s' = { s with lsu := l, prog := { setSlot s.prog s.prog.committed (fun sl => { sl with dead := sl.dead || false }) with
      committed := s.prog.committed + 1 } } := by rw [setSlot_id]; exact hs.symm
  obtain ⟨hS, hent, hldq⟩ := invS_commit h false hlt hrep (fun _ => hf) hl h1
  have hle2 := h.ring.le2
  have e1 : s'.prog.slots = s.prog.slots := by rw [← hs]
  have e2 : s'.prog.committed = s.prog.committed + 1 := by rw [← hs]
  have e3 : s'.prog.len = s.prog.len := by rw [← hs]
  have e4 : s'.retired = s.retired := by rw [← hs]
  refine hS.inv (fun i => ?_)
  have hi := h.load i
  apply hi.frame (by rw [hldq]) (by rw [← hs]) (by rw [← hs]) (by rw [← hs])
  · intro hne
    rw [e2, e3]
    exact ⟨hld i hne, (hi.older hne).2⟩
  · rw [e4]; exact Nat.le_refl _
  · intro hne j _ hj2 hpv
    have := (hi.older hne).2
    rw [hent j (by omega)]
    split
    · obtain ⟨c1, c2, c3⟩ := committedEntry_addr (s.ent n j) false
      exact ⟨c1.trans hpv, c2, c3⟩
    · exact ⟨hpv, rfl, rfl⟩
  · intro _ j _ o; rw [e1]; exact id

/-! ## Recovery -/

/-- Dropping the youngest stores; loads are treated separately. -/
theorem InvS.cut {n : Nat} {m : Mem} {s s' : Sys} (h : InvS n m s) {c : Nat} (hc1 : s.prog.committed ≤ c) (hc2 : c ≤ s.prog.len)
    (hq : s'.lsu.stq = s.lsu.stq) (hhead : s'.lsu.head = s.lsu.head) (hhf : s'.lsu.headFlag = s.lsu.headFlag)
    (hcnt : s.retired + s'.lsu.count = c) (hcom : s'.lsu.commit = tagIdx n s.prog.committed)
    (hcc : s'.lsu.commitCount = s.lsu.commitCount) (hsl : s'.prog.slots = s.prog.slots) (hlen : s'.prog.len = c)
    (hcmt : s'.prog.committed = s.prog.committed) (hmem : s'.mem = s.mem) (hret : s'.retired = s.retired)
    (hold : s'.old = s.old) (hpend : s'.pend = s.pend) : InvS n m s' := by
  have hle2 := h.ring.le2
  have hent : ∀ j, s'.ent n j = s.ent n j := by
    intro j; unfold Sys.ent; rw [hret, hold, hq]
  have hperf : perf n s' = perf n s := by
    funext j; unfold perf performed; rw [hent j, hsl, hpend]
  refine ⟨⟨?_, ?_, ?_, ?_, ?_, ?_, ?_⟩, ?_, ?_, ?_, ?_, ?_⟩
  · rw [hhead, hret]; exact h.ring.head
  · rw [hhf, hret]; exact h.ring.headFlag
  · rw [hret, hlen]; exact hcnt
  · rw [hret, hcc, hcmt]; exact h.ring.cc
  · rw [hcom, hcmt]
  · rw [hcmt, hlen]; exact hc1
  · rw [hlen, hret]; omega
  · intro j hj
    rw [hlen] at hj
    have hj' := h.slot j (by omega)
    constructor
    · rw [hent j, hsl]; exact hj'.base
    · rw [hent j, hsl, hcmt]; exact hj'.comm
    · rw [hent j, hsl, hcmt]; exact hj'.pend
    · rw [hent j, hret]; exact hj'.ret
  · intro j hj1 hj2
    rw [hret] at hj1 hj2
    rw [hent j, hpend, hcmt]
    exact h.pend j hj1 hj2
  · rw [hpend]; exact h.out
  · rw [hmem, h.mem, hcmt, hperf]
  · intro a b
    rw [hret, hcmt, hent a, hent b]
    exact h.iss a b

theorem invS_flush {n : Nat} {m : Mem} {s : Sys} (h : InvS n m s) :
    Inv n m { s with lsu := Lsu.flush n s.lsu, prog := { s.prog with len := s.prog.committed } } := by
  have hc := h.ring.count
  have hcc := h.ring.cc
  have hle1 := h.ring.le1
  have hmin : min s.lsu.commitCount s.lsu.count = s.lsu.commitCount := by omega
  let s1 : Sys := { s with lsu := Lsu.flush n s.lsu, prog := { s.prog with len := s.prog.committed } }
  show Inv n m s1
  refine (h.cut (s' := s1) (c := s.prog.committed) (Nat.le_refl _) hle1 rfl rfl rfl ?_ ?_ ?_ rfl rfl rfl rfl rfl rfl rfl).inv
    (fun i => loadOk_empty (s := s1) rfl)
  · show s.retired + min s.lsu.commitCount s.lsu.count = _; rw [hmin]; exact hcc
  · show idxAfter n s.lsu.head (min s.lsu.commitCount s.lsu.count) = _
    rw [hmin, h.ring.head, idxAfter_eq, hcc]
  · exact hmin

theorem inv_flush {n : Nat} {m : Mem} {s s' : Sys} (h : Inv n m s) (hs : s.step n .flush = some s') : Inv n m s' := by
  injection hs with hs
  subst hs
  exact invS_flush h.toS

theorem inv_trapStore {n : Nat} {m : Mem} {s s' : Sys} (h : Inv n m s) (hv : s.Valid n .trapStore)
    (hs : s.step n .trapStore = some s') : Inv n m s' := by
  obtain ⟨hlt, hrep⟩ := hv
  obtain ⟨l, hl, hs⟩ := Option.map_eq_some_iff.mp hs
  subst hs
  obtain ⟨hS, _, _⟩ := invS_commit h true hlt hrep (fun e => by cases e) hl rfl
  have := invS_flush hS
  have hd : (fun sl : Slot => { sl with dead := sl.dead || true }) = fun sl => { sl with dead := true } := by
    funext sl; rw [Bool.or_true]
  rw [hd] at this
  exact this

theorem keepCount_eq {n : Nat} {st : State} {mk : BitVec 16} {c : Nat} : ∀ (k i : Nat), i ≤ c → c ≤ i + k →
    (∀ j, i ≤ j → j < i + k → ((at' n st j).brMask &&& mk ≠ 0#16 ↔ c ≤ j)) → keepCount n st mk i k = c := by
  intro k
  induction k with
  | zero => intro i h1 h2 _; unfold keepCount; omega
  | succ k ih =>
    intro i h1 h2 h
    unfold keepCount
    split
    · next e => have := (h i (Nat.le_refl _) (by omega)).mp e; omega
    · next e =>
      have : ¬ c ≤ i := fun e2 => e ((h i (Nat.le_refl _) (by omega)).mpr e2)
      exact ih (i + 1) (by omega) (by omega) (fun j hj1 hj2 => h j (by omega) (by omega))

theorem inv_mispred {n : Nat} {m : Mem} {s s' : Sys} (h : Inv n m s) {mk : BitVec 16} {c : Nat} (hv : s.Valid n (.mispred mk c))
    (hs : s.step n (.mispred mk c) = some s') : Inv n m s' := by
  injection hs with hs
  obtain ⟨hc1, hc2, hmask, hld⟩ := hv
  have hc := h.ring.count
  have hcc := h.ring.cc
  have hle1 := h.ring.le1
  have hrc := h.ring.retired_le
  have hkeep : keepCount n s.lsu mk 0 s.lsu.count = c - s.retired := by
    apply keepCount_eq _ _ (by omega) (by omega)
    intro j _ hj
    rw [h.ring.at', hmask (s.retired + j) (by omega) (by omega)]
    omega
  have hmin : min s.lsu.commitCount (c - s.retired) = s.lsu.commitCount := by omega
  have hS : InvS n m s' := by
    subst hs
    refine h.toS.cut (c := c) hc1 hc2 rfl rfl rfl ?_ ?_ ?_ rfl rfl rfl rfl rfl rfl rfl
    · show s.retired + keepCount n s.lsu mk 0 s.lsu.count = c; rw [hkeep]; omega
    · show idxAfter n s.lsu.head (min s.lsu.commitCount (keepCount n s.lsu mk 0 s.lsu.count)) = _
      rw [hkeep, hmin, h.ring.head, idxAfter_eq, hcc]
    · show min s.lsu.commitCount (keepCount n s.lsu mk 0 s.lsu.count) = _
      rw [hkeep, hmin]
  refine hS.inv (fun i => ?_)
  subst hs
  have hi := h.load i
  by_cases hk : (s.lsu.ldq i).st ≠ .empty ∧ (s.lsu.ldq i).brMask &&& mk ≠ 0#16
  · apply loadOk_empty
    show (if _ then ({ s.lsu.ldq i with st := .empty } : LdqEntry) else s.lsu.ldq i).st = .empty
    rw [if_pos hk]
  · have hl : (Lsu.mispred n s.lsu mk).ldq i = s.lsu.ldq i := by
      show (if _ then ({ s.lsu.ldq i with st := .empty } : LdqEntry) else s.lsu.ldq i) = _
      rw [if_neg hk]
    refine hi.frame (s' := { s with lsu := Lsu.mispred n s.lsu mk, prog := { s.prog with len := c } }) hl rfl rfl rfl ?_ ?_ ?_ ?_
    · intro hne
      refine ⟨(hi.older hne).1, ?_⟩
      apply hld i hne
      apply Classical.byContradiction
      intro e
      exact hk ⟨hne, e⟩
    · exact Nat.le_refl _
    · intro _ k _ _ hpv; exact ⟨hpv, rfl, rfl⟩
    · intro _ k _ o; exact id

theorem inv_clear {n : Nat} {m : Mem} {s s' : Sys} (h : Inv n m s) {mk : BitVec 16} (hs : s.step n (.clear mk) = some s') :
    Inv n m s' := by
  injection hs with hs
  let s1 : Sys := { s with lsu := clearMask s.lsu mk }
  have hs1 : s' = s1 := hs.symm
  rw [hs1]
  have hent : ∀ j, ∃ b, s1.ent n j = { s.ent n j with brMask := b } := by
    intro j
    unfold Sys.ent
    by_cases hj : j < s.retired
    · refine ⟨(s.old j).brMask, ?_⟩
      rw [if_pos hj, if_pos (show j < s1.retired from hj)]
    · refine ⟨(s.lsu.stq (j % n)).brMask &&& ~~~mk, ?_⟩
      rw [if_neg hj, if_neg (show ¬ j < s1.retired from hj)]; rfl
  have hperf : perf n s1 = perf n s := by
    funext j
    obtain ⟨b, e⟩ := hent j
    unfold perf performed opOf
    rw [e]
  refine ⟨⟨h.ring.head, h.ring.headFlag, h.ring.count, h.ring.cc, h.ring.commit, h.ring.le1, h.ring.le2⟩, ?_, ?_, h.out, ?_, ?_, ?_⟩
  · intro j hj
    have hj' := h.slot j hj
    obtain ⟨b, e⟩ := hent j
    constructor
    · rw [e]; obtain ⟨b1, b2, b3, b4⟩ := hj'.base; exact ⟨b1, b2, b3, b4⟩
    · intro hc; rw [e]; obtain ⟨b1, b2, b3, b4, b5, b6, b7⟩ := hj'.comm hc; exact ⟨b1, b2, b3, b4, b5, b6, b7⟩
    · intro hc; rw [e]; obtain ⟨b1, b2, b3, b4, b5, b6, b7, b8⟩ := hj'.pend hc; exact ⟨b1, b2, b3, b4, b5, b6, b7, b8⟩
    · rw [e]; exact hj'.ret
  · intro j hj1 hj2
    obtain ⟨b, e⟩ := hent j
    rw [e]
    exact h.pend j hj1 hj2
  · rw [hperf]; exact h.mem
  · intro i j
    obtain ⟨b, e⟩ := hent i
    obtain ⟨b', e'⟩ := hent j
    rw [e, e']
    exact h.iss i j
  · intro i
    have hi := h.load i
    constructor
    · exact hi.older
    · exact hi.snap
    · exact hi.early
    · exact hi.loc
    · intro hst
      obtain ⟨c1, c2⟩ := hi.clear hst
      refine ⟨c1, fun k hk1 hk2 => ?_⟩
      obtain ⟨b, e⟩ := hent k
      rw [e]
      exact c2 k hk1 hk2
    · exact hi.samp
    · exact hi.val
    · exact hi.mm

/-! ## Retirement and device answers -/

theorem inv_retire {n : Nat} {m : Mem} {s s' : Sys} (h : Inv n m s) (hs : s.step n .retire = some s') : Inv n m s' := by
  injection hs with hs
  have hc := h.ring.count
  have hcc := h.ring.cc
  have hle1 := h.ring.le1
  have hle2 := h.ring.le2
  have hrc := h.ring.retired_le
  by_cases hcond : min s.lsu.commitCount s.lsu.count = 0 ∨ (s.lsu.stq s.lsu.head).st ≠ .done
  · have : Lsu.retire n s.lsu = s.lsu := by unfold Lsu.retire; rw [if_pos hcond]
    rw [if_pos hcond, this] at hs
    subst hs
    exact h
  · rw [if_neg hcond] at hs
    have hpos : 0 < s.lsu.commitCount := by omega
    have hdone : (s.lsu.stq s.lsu.head).st = .done := by
      apply Classical.byContradiction; intro e; exact hcond (Or.inr e)
    have hn : 0 < n := by omega
    have hr : Lsu.retire n s.lsu = { s.lsu with
        count := s.lsu.count - 1, commitCount := s.lsu.commitCount - 1
        head := (advFlag n s.lsu.head s.lsu.headFlag).1, headFlag := (advFlag n s.lsu.head s.lsu.headFlag).2 } := by
      unfold Lsu.retire; rw [if_neg hcond]
    have hadv := advFlag_eq n s.retired hn
    rw [← h.ring.head, ← h.ring.headFlag] at hadv
    rw [hr, hadv] at hs
    have hhead : s.lsu.stq s.lsu.head = s.ent n s.retired := by
      rw [ent_window s (Nat.le_refl _), h.ring.head]
    have hret : s'.retired = s.retired + 1 := by rw [← hs]
    have hprog : s'.prog = s.prog := by rw [← hs]
    have hpend : s'.pend = s.pend := by rw [← hs]
    have hent : ∀ j, s'.ent n j = s.ent n j := by
      intro j
      rw [← hs]
      unfold Sys.ent
      dsimp only
      by_cases h1 : j < s.retired
      · rw [if_pos (by omega), if_pos h1]; exact upd_ne _ _ (by omega)
      · by_cases h2 : j = s.retired
        · subst h2
          rw [if_pos (by omega), if_neg h1, upd_same, h.ring.head]
          rfl
        · rw [if_neg (by omega), if_neg h1]
    have hperf : perf n s' = perf n s := by
      funext j; unfold perf performed; rw [hent j, hprog, hpend]
    refine ⟨⟨?_, ?_, ?_, ?_, ?_, ?_, ?_⟩, ?_, ?_, ?_, ?_, ?_, ?_⟩
    · rw [hret, ← hs]
    · rw [hret, ← hs]
    · rw [hret, hprog, ← hs]; show s.retired + 1 + (s.lsu.count - 1) = _; omega
    · rw [hret, hprog, ← hs]; show s.retired + 1 + (s.lsu.commitCount - 1) = _; omega
    · rw [hprog, ← h.ring.commit, ← hs]
    · rw [hprog]; exact hle1
    · rw [hprog, hret]; omega
    · intro j hj
      rw [hprog] at hj
      have hj' := h.slot j hj
      constructor
      · rw [hent j, hprog]; exact hj'.base
      · rw [hent j, hprog]; exact hj'.comm
      · rw [hent j, hprog]; exact hj'.pend
      · intro e
        rw [hret] at e
        rw [hent j]
        by_cases h2 : j = s.retired
        · rw [h2, ← hhead]; exact hdone
        · exact hj'.ret (by omega)
    · intro j hj1 hj2
      rw [hret] at hj1 hj2
      rw [hent j, hpend, hprog]
      by_cases h2 : j < s.retired + n
      · exact h.pend j (by omega) h2
      · left
        have : tagIdx n j = tagIdx n s.retired := by
          unfold tagIdx
          rw [show j = s.retired + n by omega, Nat.add_mod_right]
        rw [this]
        rcases h.pend s.retired (Nat.le_refl _) (by omega) with e | ⟨_, e, _⟩
        · exact e
        · rw [← hhead, hdone] at e; cases e
    · rw [hpend]; exact h.out
    · rw [hperf, hprog, ← h.mem, ← hs]
    · intro i j hi
      rw [hret] at hi
      rw [hent i, hent j, hprog]
      exact h.iss i j (by omega)
    · intro i
      have hi := h.load i
      apply hi.frame (by rw [← hs]) (by rw [hprog]) (by rw [← hs]) (by rw [← hs])
      · rw [hprog]; exact hi.older
      · rw [hret]; omega
      · intro _ k _ _ hpv; rw [hent k]; exact ⟨hpv, rfl, rfl⟩
      · intro _ k _ o; rw [hprog]; exact id

theorem window_of {n r idx : Nat} (hlt : idx < n) : ∃ k, r ≤ k ∧ k < r + n ∧ tagIdx n k = idx := by
  refine ⟨r + (idx + n - r % n) % n, by omega, ?_, ?_⟩
  · have := Nat.mod_lt (idx + n - r % n) (by omega : 0 < n); omega
  · unfold tagIdx
    rw [Nat.add_mod_mod]
    have h1 := Nat.mod_lt r (by omega : 0 < n)
    have h2 := Nat.div_add_mod r n
    rw [show r + (idx + n - r % n) = idx + n + n * (r / n) by omega]
    rw [Nat.add_mul_mod_self_left, Nat.add_mod_right]
    exact Nat.mod_eq_of_lt hlt

/-- Only entries of live stores matter. -/
theorem Inv.entCongr {n : Nat} {m : Mem} {s s' : Sys} (h : Inv n m s) (hent : ∀ j, j < s.prog.len → s'.ent n j = s.ent n j)
    (hhead : s'.lsu.head = s.lsu.head) (hhf : s'.lsu.headFlag = s.lsu.headFlag) (hcnt : s'.lsu.count = s.lsu.count)
    (hcom : s'.lsu.commit = s.lsu.commit) (hcc : s'.lsu.commitCount = s.lsu.commitCount) (hld : s'.lsu.ldq = s.lsu.ldq)
    (hprog : s'.prog = s.prog) (hmem : s'.mem = s.mem) (hret : s'.retired = s.retired) (hpend : s'.pend = s.pend)
    (hsamp : s'.samp = s.samp) (hbad : s'.badFwd = s.badFwd) : Inv n m s' := by
  have hle1 := h.ring.le1
  refine ⟨⟨?_, ?_, ?_, ?_, ?_, ?_, ?_⟩, ?_, ?_, ?_, ?_, ?_, ?_⟩
  · rw [hhead, hret]; exact h.ring.head
  · rw [hhf, hret]; exact h.ring.headFlag
  · rw [hret, hcnt, hprog]; exact h.ring.count
  · rw [hret, hcc, hprog]; exact h.ring.cc
  · rw [hcom, hprog]; exact h.ring.commit
  · rw [hprog]; exact hle1
  · rw [hprog, hret]; exact h.ring.le2
  · intro j hj
    rw [hprog] at hj
    have hj' := h.slot j hj
    constructor
    · rw [hent j hj, hprog]; exact hj'.base
    · rw [hent j hj, hprog]; exact hj'.comm
    · rw [hent j hj, hprog]; exact hj'.pend
    · rw [hent j hj, hret]; exact hj'.ret
  · intro j hj1 hj2
    rw [hret] at hj1 hj2
    rw [hpend, hprog]
    rcases h.pend j hj1 hj2 with e1 | ⟨e1, e2, e3⟩
    · exact Or.inl e1
    · right; rw [hent j (by omega)]; exact ⟨e1, e2, e3⟩
  · rw [hpend]; exact h.out
  · rw [hmem, hprog, h.mem]
    apply replay_congr'
    intro j hj
    unfold perf performed
    rw [hent j (by omega), hprog, hpend]
  · intro i j hi hij hj
    rw [hret] at hi
    rw [hprog] at hj
    rw [hent i (by omega), hent j (by omega)]
    exact h.iss i j hi hij hj
  · intro i
    have hi := h.load i
    apply hi.frame (by rw [hld]) (by rw [hprog]) (by rw [hsamp]) (by rw [hbad])
    · rw [hprog]; exact hi.older
    · rw [hret]; exact Nat.le_refl _
    · intro hne k _ hk hpv
      rw [hent k (by have := (hi.older hne).2; omega)]; exact ⟨hpv, rfl, rfl⟩
    · intro _ k _ o; rw [hprog]; exact id

theorem inv_mmioResp {n : Nat} {m : Mem} {s s' : Sys} (h : Inv n m s) {v : BitVec 32} (hs : s.step n (.mmioResp v) = some s') :
    Inv n m s' := by
  injection hs with hs
  have hle1 := h.ring.le1
  have hle2 := h.ring.le2
  have hrc := h.ring.retired_le
  have hunc : ∀ unc, Inv n m { s with lsu := { s.lsu with unc := unc } } := by
    intro unc
    exact h.entCongr (fun _ _ => rfl) rfl rfl rfl rfl rfl rfl rfl rfl rfl rfl rfl rfl
  unfold Lsu.mmioResp at hs
  split at hs
  · subst hs; exact h
  · split at hs
    · dsimp only at hs
      subst hs
      split
      · next hst =>
        have hi := h.load s.lsu.unc.idx
        have h1 := hi.older (by rw [hst]; decide)
        have h2 := hi.snap (by rw [hst]; decide) (by rw [hst]; decide)
        have h3 := hi.loc (by rw [hst]; rfl)
        refine h.ldq s.lsu.unc.idx s.lsu.rsv _
          ⟨fun _ => h1, fun _ _ => h2, fun _ => h3.1, fun _ => h3, (fun h => by rcases h with h | h <;> cases h),
            (fun h => by cases h), (fun _ hm _ => ?_), (fun h => by cases h)⟩
        have := hi.mm hst
        rw [hm] at this; cases this
      · exact hunc _
    · dsimp only at hs
      subst hs
      split
      · next hst =>
        by_cases hlt : s.lsu.unc.idx < n
        · obtain ⟨k, hk1, hk2, hk3⟩ := window_of (r := s.retired) hlt
          by_cases hkl : k < s.prog.len
          · have hew := ent_window (n := n) s hk1
            rw [hk3] at hew
            rw [← hew] at hst ⊢
            rw [← hk3]
            have hkc : k < s.prog.committed := by
              apply Classical.byContradiction
              intro e
              have := ((h.slot k hkl).pend (by omega)).stage
              unfold stage at this
              rw [hst] at this
              exact this
            have hC := (h.slot k hkl).comm hkc
            have hm := hC.mm hst
            have hnp : performed n s k = false := by unfold performed; simp [hm]
            have hnp' : ∀ s1 : Sys, s1.ent n k = { s.ent n k with st := .done } → performed n s1 k = performed n s k := by
              intro s1 e; rw [hnp]; unfold performed; rw [e]; simp [hm]
            refine h.commUpdate (k := k) hk1 hkc rfl rfl rfl rfl rfl rfl rfl rfl rfl rfl rfl (fun _ _ => rfl) rfl rfl
              ⟨Or.inr (Or.inr (Or.inr rfl)), hC.reported, hC.dead, fun _ => rfl, hC.nosup, (fun e => by cases e), (fun e => by cases e)⟩
              ?_ (hnp' _ (ent_set (s := s) hk1 hk2 rfl rfl rfl)) ?_ (Or.inl rfl)
            · left
              rcases h.pend k hk1 hk2 with e | ⟨_, e, _⟩
              · exact e
              · rw [hst] at e; cases e
            · intro e; have := e.1; rw [hm] at this; cases this
          · refine h.entCongr (fun j hj => ?_) rfl rfl rfl rfl rfl rfl rfl rfl rfl rfl rfl rfl
            unfold Sys.ent
            dsimp only
            split
            · rfl
            · next hjr =>
              apply upd_ne
              intro e
              have := tag_inj (n := n) (h := s.retired) (j := j) (k := k) (by omega) (by omega) hk1 hk2 (e.trans hk3.symm)
              omega
        · refine h.entCongr (fun j hj => ?_) rfl rfl rfl rfl rfl rfl rfl rfl rfl rfl rfl rfl
          unfold Sys.ent
          dsimp only
          split
          · rfl
          · apply upd_ne
            have := Nat.mod_lt j (by omega : 0 < n)
            omega
      · exact hunc _

/-! ## All executions -/

theorem inv_step {n : Nat} {m : Mem} (hn : 0 < n) {s s' : Sys} (h : Inv n m s) (e : Ev) (hv : s.Valid n e)
    (hs : s.step n e = some s') : Inv n m s' := by
  cases e with
  | allocSt => exact inv_allocSt h hs
  | allocLd => exact inv_allocLd h hs
  | stData => exact inv_stData h hv hs
  | stAddr => exact inv_stAddr h hv hs
  | stTlb => exact inv_stTlb h hv hs
  | stWin => exact inv_stWin h hv hs
  | stWb => exact inv_stWb h hv hs
  | ldReq => exact inv_ldReq h hv hs
  | ldTlb => exact inv_ldTlb h hv hs
  | ldWin => exact inv_ldWin h hs
  | ldStlf => exact inv_ldStlf h hn hv hs
  | ldIssue => exact inv_ldIssue h hs
  | ldSample => exact inv_ldSample h hv hs
  | ldResp => exact inv_ldResp h hs
  | ldWb => exact inv_ldWb h hs
  | commit => exact inv_commit h hv hs
  | trapStore => exact inv_trapStore h hv hs
  | flush => exact inv_flush h hs
  | mispred => exact inv_mispred h hv hs
  | clear => exact inv_clear h hs
  | stIssue => exact inv_stIssue h hs
  | stPerform => exact inv_stPerform h hv hs
  | stResp => exact inv_stResp h hv hs
  | retire => exact inv_retire h hs
  | mmioResp => exact inv_mmioResp h hs

theorem inv_reach {n : Nat} {m : Mem} (hn : 0 < n) {s : Sys} (h : Sys.Reach n m s) : Inv n m s := by
  induction h with
  | init => exact inv_init n m
  | step e _ hv hs ih => exact inv_step hn ih e hv hs

/-- The oldest uncommitted store, once reported, is where commit expects it. -/
theorem commit_some {n : Nat} {m : Mem} {s : Sys} (h : Inv n m s) (hlt : s.prog.committed < s.prog.len)
    (hrep : (s.prog.slots s.prog.committed).reported = true) (fl : Bool) :
    (commitStore n s.lsu (tagIdx n s.prog.committed) fl).isSome := by
  have hst : (s.ent n s.prog.committed).st = .waitCommit := by
    have := ((h.slot _ hlt).pend (Nat.le_refl _)).reported
    rw [hrep] at this; simpa using this.symm
  rw [ent_window s h.ring.retired_le] at hst
  unfold commitStore
  dsimp only
  rw [if_pos ⟨h.ring.commit.symm, hst⟩]
  rfl

theorem step_some {n : Nat} {m : Mem} (hn : 0 < n) {s : Sys} (h : Inv n m s) (e : Ev) (hv : s.Valid n e) :
    (s.step n e).isSome := by
  cases e with
  | allocSt sz sc mask =>
    have hv : s.lsu.count < n := hv
    unfold Sys.step
    rw [Option.isSome_map]
    unfold allocStq
    rw [if_neg (by omega), if_neg]
    · rfl
    · rw [h.ring.head, h.ring.headFlag, tailFlag_eq n _ _ hn (by omega), h.ring.count]
      simp
  | allocLd i sz sg lr mask =>
    unfold Sys.step
    rw [Option.isSome_map]
    unfold allocLdq
    rw [if_neg (by simpa using hv.1)]
    rfl
  | ldStlf i o =>
    have hst : (s.lsu.ldq i).st = .checkStlf := hv
    have hd := h.distance hn (i := i) (by rw [hst]; decide) (by rw [hst]; decide)
    have ho := ((h.load i).older (by rw [hst]; decide)).2
    have hc := h.ring.count
    unfold Sys.step
    rw [Option.isSome_map]
    unfold stlf
    dsimp only
    rw [hd, if_neg (by omega)]
    split
    · split <;> rfl
    · split <;> rfl
  | commit =>
    obtain ⟨h1, h2, _⟩ := hv
    unfold Sys.step
    rw [Option.isSome_map]
    exact commit_some h h1 h2 false
  | trapStore =>
    obtain ⟨h1, h2⟩ := hv
    unfold Sys.step
    rw [Option.isSome_map]
    exact commit_some h h1 h2 true
  | stPerform idx =>
    obtain ⟨q, hq⟩ := hv
    simp only [Sys.step, hq]
    rfl
  | _ => rfl

end Verif.Lsu

import Verif.Proofs.LsuLoad

namespace Verif.Lsu

open Verif.Ring Verif.Lane Verif.Spec.ByteMem Verif.Spec.MemOrder

/-! ## Stores after commit -/

theorem replay_congr' {m : Mem} {f g : Nat → Option Op} (b : Nat) (h : ∀ k < b, f k = g k) :
    replay mmioAddr m f b = replay mmioAddr m g b :=
  replay_congr b (fun k hk x => by rw [h k hk])

theorem ent_set {n : Nat} {s s' : Sys} {k : Nat} {e : StqEntry} (hk : s.retired ≤ k) (hk2 : k < s.retired + n)
    (hr : s'.retired = s.retired) (ho : s'.old = s.old) (hq : s'.lsu.stq = upd s.lsu.stq (tagIdx n k) e) : s'.ent n k = e :=
  (ent_upd hk hk2 hr ho hq hk2).trans (if_pos rfl)

/-- A committed store changes its state; memory does not change. -/
theorem Inv.commUpdate {n : Nat} {m : Mem} {s s' : Sys} (h : Inv n m s) {k : Nat} (hk1 : s.retired ≤ k)
    (hk2 : k < s.prog.committed) {x : StoreState}
    (hq : s'.lsu.stq = upd s.lsu.stq (tagIdx n k) { s.ent n k with st := x }) (hhead : s'.lsu.head = s.lsu.head)
    (hhf : s'.lsu.headFlag = s.lsu.headFlag) (hcnt : s'.lsu.count = s.lsu.count) (hcom : s'.lsu.commit = s.lsu.commit)
    (hcc : s'.lsu.commitCount = s.lsu.commitCount) (hld : s'.lsu.ldq = s.lsu.ldq)
    (hprog : s'.prog = s.prog) (hmem : s'.mem = s.mem)
    (hret : s'.retired = s.retired) (hold : s'.old = s.old) (hpend : ∀ j, j ≠ tagIdx n k → s'.pend j = s.pend j)
    (hsamp : s'.samp = s.samp) (hbad : s'.badFwd = s.badFwd)
    (hC : Comm (s.prog.slots k) { s.ent n k with st := x })
    (hP : s'.pend (tagIdx n k) = none ∨ (x = .waitDcacheResp ∧ ∃ b, s'.pend (tagIdx n k) = some (reqOf (s.ent n k) (tagIdx n k), b)))
    (hperf : performed n s' k = performed n s k)
    (hst : started { s.ent n k with st := x } → started (s.ent n k) ∨ ∀ i, s.retired ≤ i → i < k → (s.ent n i).st ≠ .done →
      checkAddr (s.ent n i).paddr (storeStrb (s.ent n i).paddr (s.ent n i).func3)
        (s.ent n k).paddr (storeStrb (s.ent n k).paddr (s.ent n k).func3) = false)
    (hdone : x = .done ∨ (s.ent n k).st ≠ .done) : Inv n m s' := by
  have hrc := h.ring.retired_le
  have hle1 := h.ring.le1
  have hle2 := h.ring.le2
  have hent : ∀ j, j < s.retired + n → s'.ent n j = if j = k then { s.ent n k with st := x } else s.ent n j :=
    fun j hj => ent_upd hk1 (by omega) hret hold hq hj
  have hn : 0 < n := by omega
  have htag : ∀ j, s.retired ≤ j → j < s.retired + n → j ≠ k → tagIdx n j ≠ tagIdx n k :=
    fun j h1 h2 h3 e => h3 (tag_inj h1 h2 hk1 (by omega) e)
  have hperf' : ∀ j, j < s.prog.committed → perf n s' j = perf n s j := by
    intro j hj
    by_cases hjk : j = k
    · subst hjk
      unfold perf
      rw [hperf, hprog, hent j (by omega), if_pos rfl]
      rfl
    · by_cases hjr : j < s.retired
      · have hd := (h.slot j (by omega)).ret hjr
        unfold perf performed
        rw [hent j (by omega), if_neg hjk, hprog]
        simp [hd]
      · unfold perf performed
        rw [hent j (by omega), if_neg hjk, hprog, hpend _ (htag j (by omega) (by omega) hjk)]
  refine ⟨?_, ?_, ?_, ?_, ?_, ?_, ?_⟩
  · constructor
    · rw [hhead, hret]; exact h.ring.head
    · rw [hhf, hret]; exact h.ring.headFlag
    · rw [hret, hcnt, hprog]; exact h.ring.count
    · rw [hret, hcc, hprog]; exact h.ring.cc
    · rw [hcom, hprog]; exact h.ring.commit
    · rw [hprog]; exact hle1
    · rw [hprog, hret]; exact hle2
  · intro j hj
    rw [hprog] at hj
    have hj' := h.slot j hj
    rw [← show s'.prog = s.prog from hprog] at hj
    constructor
    · rw [hent j (by rw [hprog] at hj; omega), hprog]
      split
      · next e =>
        subst e
        obtain ⟨b1, b2, b3, b4⟩ := hj'.base
        exact ⟨b1, b2, b3, b4⟩
      · exact hj'.base
    · intro hjc
      rw [hprog] at hjc ⊢
      rw [hent j (by omega)]
      split
      · next e => subst e; exact hC
      · exact hj'.comm hjc
    · intro hjc
      rw [hprog] at hjc ⊢
      rw [hent j (by rw [hprog] at hj; omega), if_neg (by omega)]
      exact hj'.pend hjc
    · intro hjr
      rw [hret] at hjr
      rw [hent j (by omega), if_neg (by omega)]
      exact hj'.ret hjr
  · intro j hj1 hj2
    rw [hret] at hj1 hj2
    rw [hprog, hent j hj2]
    by_cases hjk : j = k
    · subst hjk
      rw [if_pos rfl]
      rcases hP with e | ⟨e1, e2⟩
      · exact Or.inl e
      · exact Or.inr ⟨hk2, e1, e2⟩
    · rw [if_neg hjk, hpend _ (htag j hj1 hj2 hjk)]
      exact h.pend j hj1 hj2
  · intro i hi
    rw [hpend i (by have := tag_lt n k hn; omega)]
    exact h.out i hi
  · rw [hmem, h.mem, hprog]
    exact replay_congr' _ (fun j hj => (hperf' j hj).symm)
  · intro i j hi hij hj hsj hdi
    rw [hret] at hi
    rw [hprog] at hj
    rw [hent i (by omega)] at hdi ⊢
    rw [hent j (by omega)] at hsj ⊢
    by_cases hik : i = k
    · subst hik
      rw [if_pos rfl] at hdi ⊢
      rw [if_neg (by omega)] at hsj ⊢
      rcases hdone with e | e
      · exact absurd e hdi
      · exact h.iss i j hi hij hj hsj e
    · rw [if_neg hik] at hdi ⊢
      by_cases hjk : j = k
      · subst hjk
        rw [if_pos rfl] at hsj ⊢
        rcases hst hsj with e | e
        · exact h.iss i j hi hij hj e hdi
        · exact e i hi hij hdi
      · rw [if_neg hjk] at hsj ⊢
        exact h.iss i j hi hij hj hsj hdi
  · intro i
    have hi := h.load i
    apply hi.frame (by rw [hld]) (by rw [hprog]) (by rw [hsamp]) (by rw [hbad])
    · intro hne; rw [hprog]; exact hi.older hne
    · rw [hret]; exact Nat.le_refl _
    · intro hne j _ hj2 hpv
      have := (hi.older hne).2
      rw [hent j (by omega)]
      split
      · next e => subst e; exact ⟨hpv, rfl, rfl⟩
      · exact ⟨hpv, rfl, rfl⟩
    · intro _ j _ o; rw [hprog]; exact id

theorem blocked_false {n : Nat} {st : State} {d : Nat} (h : blocked n st d = false) : ∀ j < d, (at' n st j).st ≠ .done →
    checkAddr (at' n st j).paddr (storeStrb (at' n st j).paddr (at' n st j).func3)
      (at' n st d).paddr (storeStrb (at' n st d).paddr (at' n st d).func3) = false := by
  intro j hj hd
  unfold blocked at h
  rw [List.any_eq_false] at h
  have := h j (List.mem_range.mpr hj)
  simp only [Bool.and_eq_true, decide_eq_true_eq, not_and] at this
  cases hc : checkAddr (at' n st j).paddr (storeStrb (at' n st j).paddr (at' n st j).func3)
      (at' n st d).paddr (storeStrb (at' n st d).paddr (at' n st d).func3) with
  | false => rfl
  | true => exact absurd hd (this hc)

theorem inv_stIssue {n : Nat} {m : Mem} {s s' : Sys} (h : Inv n m s) {d : Nat} (hs : s.step n (.stIssue d) = some s') :
    Inv n m s' := by
  injection hs with hs
  subst hs
  have hrc := h.ring.retired_le
  have hcc := h.ring.cc
  have hle1 := h.ring.le1
  have hle2 := h.ring.le2
  have hidx : (s.lsu.head + d) % n = tagIdx n (s.retired + d) := by
    rw [h.ring.head]; unfold tagIdx; rw [Nat.mod_add_mod]
  have hent : s.lsu.stq ((s.lsu.head + d) % n) = s.ent n (s.retired + d) := by
    rw [hidx, ent_window s (by omega)]
  unfold issueStore
  dsimp only
  rw [hent, hidx]
  split
  · exact h
  · next hc =>
    have hc1 : d < s.lsu.commitCount := by
      apply Classical.byContradiction; intro e; exact hc (Or.inl (by omega))
    have hst : (s.ent n (s.retired + d)).st = .committed := by
      apply Classical.byContradiction; intro e; exact hc (Or.inr e)
    have hkc : s.retired + d < s.prog.committed := by omega
    have hC := (h.slot _ (by omega : s.retired + d < s.prog.len)).comm hkc
    have hsup : (s.ent n (s.retired + d)).suppress = false := by
      cases e : (s.ent n (s.retired + d)).suppress with
      | false => rfl
      | true => have := hC.sup e; rw [hst] at this; cases this
    have hpn : s.pend (tagIdx n (s.retired + d)) = none := by
      rcases h.pend (s.retired + d) (by omega) (by omega) with e | ⟨_, e, _⟩
      · exact e
      · rw [hst] at e; cases e
    split
    · exact h
    · next hb =>
      have hb' := blocked_false (by simpa using hb)
      split
      · next hm =>
        have hent' : ∀ unc, ({ s with
            lsu := { s.lsu with
              stq := upd s.lsu.stq (tagIdx n (s.retired + d)) { s.ent n (s.retired + d) with st := .waitMmioResp }
              unc := unc } } : Sys).ent n (s.retired + d) = { s.ent n (s.retired + d) with st := .waitMmioResp } := by
          intro unc
          exact ent_set (s := s) (k := s.retired + d) (by omega) (by omega) rfl rfl rfl
        split
        · refine h.commUpdate (k := s.retired + d) (by omega) hkc rfl rfl rfl rfl rfl rfl rfl rfl rfl rfl rfl (fun _ _ => rfl) rfl rfl
            ⟨Or.inr (Or.inr (Or.inl rfl)), hC.reported, hC.dead, ?_, hC.nosup, ?_, fun _ => hm⟩ (Or.inl hpn) ?_ ?_ (Or.inr (by rw [hst]; decide))
          · intro e; rw [hsup] at e; cases e
          · intro e; cases e
          · unfold performed
            rw [hent']
            simp [hm]
          · intro e; have := e.1; rw [hm] at this; cases this
        · exact h
      · next hm =>
        have hm' : (s.ent n (s.retired + d)).mmio = false := by simpa using hm
        rw [if_neg (by rw [hsup]; decide)]
        have hent' : ∀ pd, ({ s with
            lsu := { s.lsu with
              stq := upd s.lsu.stq (tagIdx n (s.retired + d)) { s.ent n (s.retired + d) with st := .waitDcacheResp } }
            pend := pd } : Sys).ent n (s.retired + d) = { s.ent n (s.retired + d) with st := .waitDcacheResp } := by
          intro pd
          exact ent_set (s := s) (k := s.retired + d) (by omega) (by omega) rfl rfl rfl
        refine h.commUpdate (k := s.retired + d) (by omega) hkc rfl rfl rfl rfl rfl rfl rfl rfl rfl rfl rfl
          (fun j hj => upd_ne _ _ hj) rfl rfl
          ⟨Or.inr (Or.inl rfl), hC.reported, hC.dead, ?_, hC.nosup, fun _ => hm', ?_⟩
          (Or.inr ⟨rfl, false, upd_same _ _ _⟩) ?_ ?_ (Or.inr (by rw [hst]; decide))
        · intro e; rw [hsup] at e; cases e
        · intro e; cases e
        · unfold performed
          rw [hent']
          simp only [hst, upd_same]
          simp
        · intro _
          right
          intro i hi1 hi2 hi3
          have := hb' (i - s.retired) (by omega)
          rw [h.ring.at', h.ring.at', show s.retired + (i - s.retired) = i by omega] at this
          exact this hi3

/-- The outstanding request of a slot is that of the store in the slot. -/
theorem Inv.pending {n : Nat} {m : Mem} {s : Sys} (h : Inv n m s) {idx : Nat} {q : StoreReq} {b : Bool}
    (hp : s.pend idx = some (q, b)) : ∃ k, s.retired ≤ k ∧ k < s.prog.committed ∧ tagIdx n k = idx ∧
      (s.ent n k).st = .waitDcacheResp ∧ q = reqOf (s.ent n k) idx := by
  have hlt : idx < n := by
    apply Classical.byContradiction
    intro e
    rw [h.out idx (by omega)] at hp; cases hp
  obtain ⟨k, hk1, hk2, hk3⟩ : ∃ k, s.retired ≤ k ∧ k < s.retired + n ∧ tagIdx n k = idx := by
    refine ⟨s.retired + (idx + n - s.retired % n) % n, by omega, ?_, ?_⟩
    · have := Nat.mod_lt (idx + n - s.retired % n) (by omega : 0 < n); omega
    · unfold tagIdx
      rw [Nat.add_mod_mod]
      have h1 := Nat.mod_lt s.retired (by omega : 0 < n)
      have h2 := Nat.div_add_mod s.retired n
      rw [show s.retired + (idx + n - s.retired % n) = idx + n + n * (s.retired / n) by omega]
      rw [Nat.add_mul_mod_self_left, Nat.add_mod_right]
      exact Nat.mod_eq_of_lt hlt
  rcases h.pend k hk1 hk2 with e | ⟨e1, e2, b', e3⟩
  · rw [hk3, hp] at e; cases e
  · rw [hk3, hp] at e3
    injection e3 with e3
    injection e3 with e3 e4
    exact ⟨k, hk1, e1, hk3, e2, e3⟩

theorem inv_stResp {n : Nat} {m : Mem} {s s' : Sys} (h : Inv n m s) {idx : Nat} {hit : Bool} (hv : s.Valid n (.stResp idx hit))
    (hs : s.step n (.stResp idx hit) = some s') : Inv n m s' := by
  injection hs with hs
  subst hs
  obtain ⟨q, hq⟩ := hv
  obtain ⟨k, hk1, hk2, hk3, hst, _⟩ := h.pending hq
  subst hk3
  have hle1 := h.ring.le1
  have hle2 := h.ring.le2
  have hew := ent_window (n := n) s hk1
  have hC := (h.slot k (by omega)).comm hk2
  have hm := hC.dc hst
  have hsup : (s.ent n k).suppress = false := by
    cases e : (s.ent n k).suppress with
    | false => rfl
    | true => have := hC.sup e; rw [hst] at this; cases this
  unfold respStore
  dsimp only
  rw [← hew, if_neg (by simpa using hst)]
  have hent' : ∀ x pd, ({ s with
      lsu := { s.lsu with stq := upd s.lsu.stq (tagIdx n k) { s.ent n k with st := x } }
      pend := pd } : Sys).ent n k = { s.ent n k with st := x } := by
    intro x pd
    exact ent_set (s := s) (k := k) hk1 (by omega) rfl rfl rfl
  refine h.commUpdate (k := k) hk1 hk2 rfl rfl rfl rfl rfl rfl rfl rfl rfl rfl rfl
    (fun j hj => upd_ne _ _ hj) rfl rfl ⟨?_, hC.reported, hC.dead, ?_, hC.nosup, fun _ => hm, ?_⟩
    (Or.inl (upd_same _ _ _)) ?_ ?_ (Or.inr (by rw [hst]; decide))
  · cases hit
    · exact Or.inl rfl
    · exact Or.inr (Or.inr (Or.inr rfl))
  · intro e; rw [hsup] at e; cases e
  · intro e; cases hit <;> cases e
  · unfold performed
    rw [hent']
    simp only [hst, hq]
    cases hit <;> simp
  · intro _; left; exact ⟨hm, Or.inl hst⟩

/-- Stores that do not meet may be exchanged. -/
theorem effect_comm {dev : BitVec 32 → Bool} {x : Mem} {o : Option Op} {sz : Size} {p v : BitVec 32}
    (hp : p.toNat + sz.bytes ≤ 2 ^ 32)
    (h : ∀ op, o = some op → op.addr.toNat + op.size.bytes ≤ 2 ^ 32 ∧ Apart p sz.bytes op.addr op.size.bytes) :
    effect dev (Spec.ByteMem.store x sz p v) o = Spec.ByteMem.store (effect dev x o) sz p v := by
  cases o with
  | none => rfl
  | some op =>
    obtain ⟨h1, h2⟩ := h op rfl
    unfold effect
    dsimp only
    split
    · rfl
    · exact store_comm _ _ _ _ _ _ _ hp h1 h2

/-- Performing store `k` now is performing it in its place. -/
theorem replay_insert {dev : BitVec 32 → Bool} {m : Mem} {f g : Nat → Option Op} {k : Nat} {op : Op}
    (hne : ∀ j, j ≠ k → g j = f j) (hf : f k = none) (hg : g k = some op) (hd : dev op.addr = false)
    (hp : op.addr.toNat + op.size.bytes ≤ 2 ^ 32) : ∀ c, k < c →
    (∀ j, k < j → j < c → ∀ op', f j = some op' → op'.addr.toNat + op'.size.bytes ≤ 2 ^ 32 ∧
      Apart op.addr op.size.bytes op'.addr op'.size.bytes) →
    replay dev m g c = Spec.ByteMem.store (replay dev m f c) op.size op.addr op.data := by
  have hlow : ∀ c, c ≤ k → replay dev m g c = replay dev m f c := by
    intro c
    induction c with
    | zero => intro _; rfl
    | succ c ih => intro hc; simp only [replay]; rw [ih (by omega), hne c (by omega)]
  intro c
  induction c with
  | zero => intro hc; omega
  | succ c ih =>
    intro hc hap
    simp only [replay]
    by_cases hck : c = k
    · subst hck
      rw [hlow c (Nat.le_refl _), hf, hg]
      simp only [effect, hd]
      rfl
    · rw [ih (by omega) (fun j h1 h2 => hap j h1 (by omega)), hne c hck]
      exact effect_comm hp (fun op' ho => hap c (by omega) (by omega) op' ho)

theorem inv_stPerform {n : Nat} {m : Mem} {s s' : Sys} (h : Inv n m s) {idx : Nat} (hv : s.Valid n (.stPerform idx))
    (hs : s.step n (.stPerform idx) = some s') : Inv n m s' := by
  obtain ⟨q, hq⟩ := hv
  simp only [Sys.step, hq] at hs
  injection hs with hs
  subst hs
  obtain ⟨k, hk1, hk2, hk3, hst, hreq⟩ := h.pending hq
  subst hk3
  have hle1 := h.ring.le1
  have hle2 := h.ring.le2
  have hrc := h.ring.retired_le
  have hn : 0 < n := by omega
  have hk' := h.slot k (by omega)
  have hC := hk'.comm hk2
  have hm := hC.dc hst
  have hsup : (s.ent n k).suppress = false := by
    cases e : (s.ent n k).suppress with
    | false => rfl
    | true => have := hC.sup e; rw [hst] at this; cases this
  obtain ⟨hpv, hdv⟩ := hC.nosup hsup
  obtain ⟨hok, hmio⟩ := hk'.base.ok hpv
  let s1 : Sys := { s with mem := writeReq s.mem q, pend := upd s.pend (tagIdx n k) (some (q, true)) }
  show Inv n m s1
  have hent : ∀ j, s1.ent n j = s.ent n j := fun _ => rfl
  have htag : ∀ j, s.retired ≤ j → j < s.retired + n → j ≠ k → tagIdx n j ≠ tagIdx n k :=
    fun j h1 h2 h3 e => h3 (tag_inj h1 h2 hk1 (by omega) e)
  -- the performed stores
  let g : Nat → Option Op := fun j => if j = k then some (opOf (s.prog.slots k) (s.ent n k)) else perf n s j
  have hperf : ∀ j, j < s.prog.committed → perf n s1 j = g j := by
    intro j hj
    by_cases hjk : j = k
    · subst hjk
      simp only [g, if_pos]
      unfold perf performed
      rw [hent j]
      simp [hst, hm, hsup, s1, upd_same]
    · simp only [g, if_neg hjk]
      by_cases hjr : j < s.retired
      · have hd := (h.slot j (by omega)).ret hjr
        unfold perf performed
        rw [hent j]
        simp [hd, s1]
      · unfold perf performed
        rw [hent j]
        simp only [s1, upd_ne _ _ (htag j (by omega) (by omega) hjk)]
  have hfk : perf n s k = none := by
    unfold perf performed
    simp [hst, hq]
  have hbase : ∀ j, j < s.prog.committed → ∀ op, perf n s j = some op →
      started (s.ent n j) ∧ op = opOf (s.prog.slots j) (s.ent n j) ∧ okAddr (s.prog.slots j).size (s.ent n j).paddr := by
    intro j hj op hop
    have hj' := h.slot j (by omega)
    unfold perf at hop
    split at hop
    · next hp =>
      injection hop with hop
      unfold performed at hp
      simp only [Bool.and_eq_true, Bool.not_eq_true', Bool.or_eq_true, decide_eq_true_eq] at hp
      refine ⟨⟨hp.1.2, ?_⟩, hop.symm, (hj'.base.ok ((hj'.comm hj).nosup hp.1.1).1).1⟩
      rcases hp.2 with e | e
      · exact Or.inr ⟨e, hp.1.1⟩
      · exact Or.inl e.1
    · cases hop
  refine ⟨⟨h.ring.head, h.ring.headFlag, h.ring.count, h.ring.cc, h.ring.commit, h.ring.le1, h.ring.le2⟩,
    (fun j hj => let x := h.slot j hj; ⟨x.base, x.comm, x.pend, x.ret⟩), ?_, ?_, ?_, h.iss, ?_⟩
  · intro j hj1 hj2
    by_cases hjk : j = k
    · subst hjk
      right
      refine ⟨hk2, hst, true, ?_⟩
      show upd s.pend _ _ _ = _
      rw [upd_same, hreq]; rfl
    · have := h.pend j hj1 hj2
      rw [show s1.pend (tagIdx n j) = s.pend (tagIdx n j) from upd_ne _ _ (htag j hj1 hj2 hjk)]
      exact this
  · intro i hi
    rw [show s1.pend i = s.pend i from upd_ne _ _ (by have := tag_lt n k hn; omega)]
    exact h.out i hi
  · show writeReq s.mem q = replay mmioAddr m (perf n s1) s.prog.committed
    rw [replay_congr' _ hperf]
    rw [replay_insert (f := perf n s) (g := g) (k := k) (op := opOf (s.prog.slots k) (s.ent n k))
      (fun j hj => by simp only [g, if_neg hj]) hfk (by simp only [g, if_pos]) (by rw [← hm, hmio]; rfl)
      (Nat.le_of_lt hok.2.1) _ hk2 ?_, ← h.mem, hreq]
    · unfold reqOf
      rw [hk'.base.func3]
      exact writeReq_store _ _ _ _ hok.1 _
    · intro j hj1 hj2 op' hop
      obtain ⟨g1, g2, g3⟩ := hbase j hj2 op' hop
      subst g2
      refine ⟨Nat.le_of_lt g3.2.1, ?_⟩
      have := h.iss k j hk1 hj1 hj2 g1 (by rw [hst]; decide)
      rw [hk'.base.func3, (h.slot j (by omega)).base.func3] at this
      exact checkAddr_apart hok.1 g3.1 this
  · intro i
    have hi := h.load i
    exact hi.frame rfl rfl rfl rfl hi.older (Nat.le_refl _) (fun _ k _ _ hpv => ⟨hpv, rfl, rfl⟩) (fun _ k _ o => id)

end Verif.Lsu

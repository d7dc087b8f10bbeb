import Verif.Proofs.ICacheData
/-
The instruction cache: misses, and the invariant.
-/
namespace Verif.ICache

variable {w : World} {s : Sys} {i : Cyc}

theorem probeReq_base {r : Regs} (hv : r.reqV = true) (hd : r.pDone = false) (hi : r.pInfl = false) : probeReq r = some (wordAt r.base r.pWord) := by
  simp [probeReq, hv, hd, hi, wordAt, Regs.base]

/-- The registers of the probe that follow from those of `r`. -/
theorem probe_next {r v : Regs} {j : In} {p1 p2 : Option (W32 × Bool)} {pr : Option W32} (h : ProbeOk w r.base r p1 p2) (hv : r.reqV = true)
    (hj : j.probe = if p2.isSome then some pr else none)
    (hp : ∀ a, p2 = some (a, true) → w.probed a pr)
    (hvi : v.pInfl = r.pInfl) (hvd : v.pDone = r.pDone) (hvh : v.pHit = r.pHit) (hvw : v.pWord = r.pWord) (hvp : v.pData = r.pData) :
    ProbeOk w r.base (probeStep r j v) ((probeReq r).map fun a => (a, true)) p1 := by
  cases hi : r.pInfl with
  | true =>
    have hq : probeReq r = none := by simp [probeReq, hi]
    have hdn : r.pDone = false := by
      rw [← Bool.not_eq_true]; intro hx; have := h.done hx; rw [hi] at this; cases this
    rcases h.infl hi with ⟨h1, h2⟩ | ⟨h1, h2⟩
    · have e : probeStep r j v = v := by
        unfold probeStep
        rw [hj, h2, hq]
        simp [hi]
      rw [e, hq, h1]
      refine ⟨?_, ?_, ?_, ?_, ?_, ?_⟩
      · intro _; rw [hvw]; exact .inr ⟨rfl, rfl⟩
      · intro hx; rw [hvi, hi] at hx; cases hx
      · intro hx; rw [hvd, hdn] at hx; cases hx
      · intro k hk; rw [hvw] at hk; rw [hvp]; exact h.words k hk
      · intro hx; rw [hvd, hdn] at hx; cases hx
      · intro hx; rw [hvd, hdn] at hx; cases hx
    · have hpp := hp _ h2
      rw [h1, hq]
      cases pr with
      | none =>
        have e : probeStep r j v = { v with pInfl := false, pDone := true, pHit := false } := by
          unfold probeStep
          rw [hj, h2, hq]
          simp [hi]
        rw [e]
        refine ⟨?_, ?_, ?_, ?_, ?_, ?_⟩
        · intro hx; cases hx
        · exact fun _ => ⟨rfl, rfl⟩
        · exact fun _ => rfl
        · intro k hk
          simp only [hvw] at hk
          simp only [hvp]; exact h.words k hk
        · intro _ hx; cases hx
        · exact fun _ _ => ⟨r.pWord, hpp⟩
      | some d =>
        have hw : ∀ k : Fin 16, k.val ≤ r.pWord.val → w.hit (wordAt r.base k) ((fun j => if j = r.pWord then d else v.pData j) k) := by
          intro k hk
          by_cases hkw : k = r.pWord
          · subst hkw; simpa [World.probed] using hpp
          · simp only [hkw, if_false, hvp]
            apply h.words
            have : k.val ≠ r.pWord.val := fun hx => hkw (Fin.ext hx)
            omega
        by_cases hlt : r.pWord.val + 1 < 16
        · have e : probeStep r j v = { v with pInfl := false, pHit := true, pData := (fun j => if j = r.pWord then d else v.pData j), pWord := ⟨r.pWord.val + 1, hlt⟩ } := by
            unfold probeStep
            rw [hj, h2, hq]
            simp [hi, hlt]
          rw [e]
          refine ⟨?_, ?_, ?_, ?_, ?_, ?_⟩
          · intro hx; cases hx
          · exact fun _ => ⟨rfl, rfl⟩
          · exact fun _ => rfl
          · intro k hk
            exact hw k (by simp only at hk; omega)
          · intro hx; simp only [hvd, hdn] at hx; cases hx
          · intro hx; simp only [hvd, hdn] at hx; cases hx
        · have e : probeStep r j v = { v with pInfl := false, pHit := true, pData := (fun j => if j = r.pWord then d else v.pData j), pDone := true } := by
            unfold probeStep
            rw [hj, h2, hq]
            simp [hi, hlt]
          rw [e]
          refine ⟨?_, ?_, ?_, ?_, ?_, ?_⟩
          · intro hx; cases hx
          · exact fun _ => ⟨rfl, rfl⟩
          · exact fun _ => rfl
          · intro k hk
            simp only [hvw] at hk
            exact hw k (by omega)
          · intro _ _ k; exact hw k (by omega)
          · intro _ hx; cases hx
  | false =>
    obtain ⟨h1, h2⟩ := h.free hi
    rw [h1]
    cases hdn : r.pDone with
    | true =>
      have hq : probeReq r = none := by simp [probeReq, hdn]
      have e : probeStep r j v = v := by
        unfold probeStep
        rw [hj, h2, hq]
        simp [hi]
      rw [e, hq]
      refine ⟨?_, (fun _ => by simp), fun _ => hvi.trans hi, ?_, ?_, ?_⟩
      · intro hx; rw [hvi, hi] at hx; cases hx
      · intro k hk; rw [hvw] at hk; rw [hvp]; exact h.words k hk
      · intro _ hx; rw [hvh] at hx; rw [hvp]; exact h.hit hdn hx
      · intro _ hx; rw [hvh] at hx; exact h.miss hdn hx
    | false =>
      have hq := probeReq_base hv hdn hi
      have e : probeStep r j v = { v with pInfl := true } := by
        unfold probeStep
        rw [hj, h2, hq]
        simp [hi]
      rw [e, hq]
      refine ⟨?_, ?_, ?_, ?_, ?_, ?_⟩
      · intro _; left; simp [hvw]
      · intro hx; cases hx
      · intro hx; simp only [hvd, hdn] at hx; cases hx
      · intro k hk
        simp only [hvw] at hk
        simp only [hvp]; exact h.words k hk
      · intro hx; simp only [hvd, hdn] at hx; cases hx
      · intro hx; simp only [hvd, hdn] at hx; cases hx

/-- The probe's fields decide. -/
theorem ProbeOk.congr {a : W32} {r r' : Regs} {p1 p2 : Option (W32 × Bool)} (h : ProbeOk w a r p1 p2) (h1 : r'.pInfl = r.pInfl) (h2 : r'.pDone = r.pDone)
    (h3 : r'.pHit = r.pHit) (h4 : r'.pWord = r.pWord) (h5 : r'.pData = r.pData) : ProbeOk w a r' p1 p2 := by
  refine ⟨?_, ?_, ?_, ?_, ?_, ?_⟩
  · rw [h1, h4]; exact h.infl
  · rw [h1]; exact h.free
  · rw [h2, h1]; exact h.done
  · rw [h4, h5]; exact h.words
  · rw [h2, h3, h5]; exact h.hit
  · rw [h2, h3]; exact h.miss

theorem ProbeOk.fill {a : W32} {r : Regs} {p1 p2 : Option (W32 × Bool)} (h : ProbeOk w a r p1 p2) (hd : r.pDone = true) {d : Line} (hm : w.mem a d) :
    Fill w a (if r.pHit then r.pData else d) := by
  cases hh : r.pHit with
  | true => exact .inl (h.hit hd hh)
  | false => exact .inr ⟨hm, h.miss hd hh⟩

theorem next_p (e : Env) (i : Cyc) (o : Out) (hf : i.fenceI = false) : (e.next i o).p1 = (o.probe.map fun a => (a, true)) ∧ (e.next i o).p2 = e.p1 := by
  unfold Env.next
  simp only [hf, old, Bool.not_false, Bool.and_true]
  refine ⟨trivial, ?_⟩
  cases e.p1 <;> rfl

theorem good_wait (hd : Dat w s) (hc : Ctl s.c.r s.e) (hv : Valid w s i) (hk : (call1 s.e i).kill = false) (hst : s.c.r.st = .waitDc) :
    Good w s i (call s.c (call1 s.e i)) := by
  have x := call_wait hk hst
  have hr := hv.noReq (.inr (by rw [hst]; simp))
  have hf : i.fenceI = false := (kill_false hk).2.2
  obtain ⟨ht, hb, hq⟩ := hc.sh.wait hst
  have hor : (outst s.c.r).or i.req = some s.c.r.reqPc := by rw [outst_some hq]; rfl
  have hkk : ((call1 s.e i).core none).kill = false := hk
  have hfl : ((call1 s.e i).core none).flush = false := hf
  have hpr := probe_next (v := drop s.c.r ((call1 s.e i).core none)) (j := (call1 s.e i).core none) (pr := i.probe) (hd.probe (.inr hst)) hq rfl hv.probe
    (by simp) (by simp) (by simp) (by simp) (by simp)
  have hx := hd.xlat (.inr hst)
  have hmm := hd.mem hst
  generalize hP : probeStep s.c.r ((call1 s.e i).core none) (drop s.c.r ((call1 s.e i).core none)) = P at hpr
  by_cases hdn : P.pDone = true
  · have e : waitOut s.c (call1 s.e i) = finish s.c.r ((call1 s.e i).core none) P { mRespReady := dropped s.c.r ((call1 s.e i).core none), probe := probeReq s.c.r }
        (if P.pHit then P.pData else s.c.r.resp) s.c.r.repl := by
      unfold waitOut waitStep
      simp only [hkk, Bool.false_eq_true, if_false, hP]
      rw [if_pos hdn]
    have hfill := hpr.fill hdn hmm
    rw [e] at x
    unfold finish at x
    simp only [ht, hkk, hfl, Bool.not_false, Bool.and_self, if_true, Bool.false_eq_true, if_false] at x
    have hpq : P.pDone = true → probeReq s.c.r = none := by
      intro _
      cases hi : s.c.r.pInfl with
      | true => simp [probeReq, hi]
      | false =>
        cases hd' : s.c.r.pDone with
        | true => simp [probeReq, hd']
        | false =>
          exfalso
          have h2 := ((hd.probe (.inr hst)).free hi).2
          rw [← hP] at hdn
          unfold probeStep at hdn
          rw [hi] at hdn
          simp only at hdn
          split at hdn <;> simp [hd'] at hdn
    refine ⟨?_, ?_, dat_idle x (hd.tab.write hfill) rfl (fun _ => hpq hdn) (by simp)⟩
    · intro pc l hx'
      rw [x.resp] at hx'
      cases hx'
      refine ⟨hor, ⟨s.c.r.ppn, hx, ?_⟩, by rw [x.r]⟩
      rw [← lineAddr_phys]; exact hfill
    · intro hx'; rw [x.resp] at hx'; cases hx'
  · have e : waitOut s.c (call1 s.e i) = { r := P, o := { mRespReady := dropped s.c.r ((call1 s.e i).core none), probe := probeReq s.c.r }, tw := {}, rdy := false } := by
      unfold waitOut waitStep
      simp only [hkk, hfl, Bool.false_eq_true, if_false, hP]
      rw [if_neg hdn]
    rw [e] at x
    simp only at x
    have c1 : P.reqPc = s.c.r.reqPc := by rw [← hP]; simp
    have c2 : P.ppn = s.c.r.ppn := by rw [← hP]; simp
    have c3 : P.st = .waitDc := by rw [← hP]; simp [hst]
    have c4 : P.resp = s.c.r.resp := by rw [← hP]; simp
    have hn := next_p s.e i (call s.c (call1 s.e i)).2 hf
    rw [x.probe] at hn
    refine ⟨?_, ?_, ?_⟩
    · intro pc l hx; rw [x.resp] at hx; cases hx
    · intro _; rw [x.r, hor]; simp [outst, hq, c1]
    · refine ⟨by rw [x.t]; exact hd.tab, ?_, ?_, ?_, ?_, ?_, ?_, ?_⟩
      · intro h; rw [x.r] at h; cases h
      · intro h; rw [x.r] at h; simp [c3] at h
      · intro _; rw [x.r]; simp only [c1, c2]; exact hx
      · intro _
        simp only [hn.1, hn.2, x.r]
        simp only [Regs.base, c1, c2]
        exact hpr.congr rfl rfl rfl rfl rfl
      · intro h; rw [x.r] at h; simp [c3] at h
      · intro f hf hh
        obtain ⟨_, _, _, _, _, rfl⟩ := offer_next_none x.mReq hf
        cases hh
      · intro _; rw [x.r]; simp only [Regs.base, c1, c2, c4]; exact hmm

/-- A read that is still owed, and not answered in the cycle. -/
theorem owed_keep {e : Env} {i : Cyc} {o : Out} {t : Tx} {a : W32} (hf : i.fenceI = false) (h : e.owed t = some (a, true)) (hT : i.T ≠ some t)
    (hA : accTx e i ≠ some t) : (e.next i o).owed t = some (a, true) := by
  unfold Env.next
  simp only
  have e1 : i.mResp.map (·.1) = i.T := rfl
  rw [e1, if_neg (by simp [hT])]
  cases ho : e.offer with
  | none => simp [old, h, hf]
  | some f =>
    simp only
    rw [if_neg]
    · simp [old, h, hf]
    · intro hx
      simp only [Bool.and_eq_true, decide_eq_true_eq] at hx
      apply hA
      unfold accTx
      rw [if_pos hx.1, ho, Option.map_some, hx.2]

/-- A read that is accepted in the cycle. -/
theorem owed_acc {e : Env} {i : Cyc} {o : Out} {t : Tx} {f : Offer} (hf : i.fenceI = false) (h : e.offer = some f) (hft : f.tx = t) (ha : i.acc = true) (hT : i.T ≠ some t) :
    (e.next i o).owed t = some (f.addr, true) := by
  unfold Env.next
  simp only
  have e1 : i.mResp.map (·.1) = i.T := rfl
  rw [e1, if_neg (by simp [hT]), h]
  simp [ha, hft, hf]

/-- A cycle of `SWAP_IN` without an answer. -/
theorem dat_swap {x : IC × Out} {R : Regs} {mrr : Bool} {q : Option (W32 × Tx)} (hd : Dat w s) (hf : i.fenceI = false)
    (hst : s.c.r.st = .swapIn) (x' : Is x { R with reqV := s.c.r.reqV, ready := false } s.c.t none q mrr (probeReq s.c.r) false)
    (hpr : ProbeOk w s.c.r.base R ((probeReq s.c.r).map fun a => (a, true)) s.e.p1)
    (c1 : R.reqPc = s.c.r.reqPc) (c2 : R.ppn = s.c.r.ppn) (c3 : R.st = .swapIn) (hq : s.c.r.reqV = true)
    (ho : R.busy = true → ∀ t, R.tx = some t → (s.e.next i x.2).owed t = some (s.c.r.base, true))
    (hm : ∀ a t, q = some (a, t) → a = s.c.r.base) : Good w s i x := by
  have hor : (outst s.c.r).or i.req = some s.c.r.reqPc := by rw [outst_some hq]; rfl
  have hx := hd.xlat (.inl hst)
  have hn := next_p s.e i x.2 hf
  rw [x'.probe] at hn
  refine ⟨?_, ?_, ?_⟩
  · intro pc l h; rw [x'.resp] at h; cases h
  · intro _; rw [x'.r, hor]; simp [outst, hq, c1]
  · refine ⟨by rw [x'.t]; exact hd.tab, ?_, ?_, ?_, ?_, ?_, ?_, ?_⟩
    · intro h; rw [x'.r] at h; cases h
    · intro h; rw [x'.r] at h; simp [c3] at h
    · intro _; rw [x'.r]; simp only [c1, c2]; exact hx
    · intro _
      simp only [hn.1, hn.2, x'.r]
      simp only [Regs.base, c1, c2]
      exact hpr.congr rfl rfl rfl rfl rfl
    · intro _ hb t ht
      rw [x'.r] at hb ht ⊢
      simp only at hb ht
      simp only [Regs.base, c1, c2]
      exact ho hb t ht
    · intro f hf hh
      rw [x'.r]
      simp only [Regs.base, c1, c2]
      cases hqq : q with
      | none =>
        obtain ⟨_, _, _, _, _, rfl⟩ := offer_next_none (x'.mReq.trans hqq) hf
        cases hh
      | some y =>
        obtain ⟨a, t⟩ := y
        have := hm a t hqq
        unfold Env.next at hf
        simp only [x'.mReq, hqq, Option.some.injEq] at hf
        subst hf
        exact this
    · intro h; rw [x'.r] at h; simp [c3] at h

theorem good_swap (hd : Dat w s) (hc : Ctl s.c.r s.e) (hv : Valid w s i) (hk : (call1 s.e i).kill = false) (hst : s.c.r.st = .swapIn) :
    Good w s i (call s.c (call1 s.e i)) := by
  have x := call_swap hk hst
  have hm := Mid.of_ctl hc hv
  have hs := same1 s.e i
  have hr := hv.noReq (.inr (by rw [hst]; simp))
  have hf : i.fenceI = false := (kill_false hk).2.2
  obtain ⟨hne, hq⟩ := hc.sh.swap hst
  obtain ⟨t, ht⟩ := Option.ne_none_iff_exists'.1 hne
  have hor : (outst s.c.r).or i.req = some s.c.r.reqPc := by rw [outst_some hq]; rfl
  have hpr := probe_next (v := drop s.c.r ((call1 s.e i).core none)) (j := (call1 s.e i).core none) (pr := i.probe) (hd.probe (.inl hst)) hq rfl hv.probe
    (by simp) (by simp) (by simp) (by simp) (by simp)
  have hx := hd.xlat (.inl hst)
  have c1 : (probeStep s.c.r ((call1 s.e i).core none) (drop s.c.r ((call1 s.e i).core none))).reqPc = s.c.r.reqPc := by simp
  have c2 : (probeStep s.c.r ((call1 s.e i).core none) (drop s.c.r ((call1 s.e i).core none))).ppn = s.c.r.ppn := by simp
  have c3 : (probeStep s.c.r ((call1 s.e i).core none) (drop s.c.r ((call1 s.e i).core none))).st = .swapIn := by simp [hst]
  have c4 : (probeStep s.c.r ((call1 s.e i).core none) (drop s.c.r ((call1 s.e i).core none))).busy = s.c.r.busy := by simp
  have c5 : (probeStep s.c.r ((call1 s.e i).core none) (drop s.c.r ((call1 s.e i).core none))).tx = s.c.r.tx := by simp
  by_cases hb : s.c.r.busy = true
  · have how := hd.owedA hst hb t ht
    have hA : accTx s.e i ≠ some t := by
      intro ha
      rcases (hm.acc t ha).2 with h | h
      · obtain ⟨_, f, hf, rfl⟩ := accTx_some ha
        cases hh : f.held
        · have := (hc.offer f hf hh).2.1; rw [hb] at this; cases this
        · have := (hc.held f hf hh).1; rw [hst] at this; cases this
      · rw [hb] at h; cases h.2
    cases hn : active s.c.r ((call1 s.e i).core none) with
    | none =>
      rw [swapOut_busy hk hb hn] at x
      have hni := (act_none hm hs).1 hn
      apply dat_swap hd hf hst x hpr c1 c2 c3 hq
      · intro _ t' ht'
        rw [c5, ht] at ht'; cases ht'
        exact owed_keep hf how (fun h => hni t h ⟨ht, hb⟩) hA
      · intro a t h; cases h
    | some d =>
      obtain ⟨u, hu, htu, _⟩ := (act_iff hm hs d).1 hn
      rw [ht] at htu; cases htu
      have hmem : w.mem s.c.r.base d := by
        rcases hv.resp t d hu with ⟨a, f, h1, h2⟩ | h
        · rw [how] at h1; cases h1; exact h2 rfl
        · have := (hc.last t h).1
          rw [hc.sh.onB t ht, hb] at this; cases this
      have hg := swapOut_got hk hb ht hn
      dsimp only at hg
      generalize hP : probeStep s.c.r ((call1 s.e i).core none) (drop s.c.r ((call1 s.e i).core none)) = P at hpr hg c1 c2 c3 c4 c5
      by_cases hdn : P.pDone = true
      · rw [if_pos hdn] at hg
        rw [hg] at x
        have hfill := hpr.fill hdn hmem
        simp only [if_true] at x
        have hpq : probeReq s.c.r = none := by
          cases hi : s.c.r.pInfl with
          | true => simp [probeReq, hi]
          | false =>
            cases hd' : s.c.r.pDone with
            | true => simp [probeReq, hd']
            | false =>
              exfalso
              rw [← hP] at hdn
              unfold probeStep at hdn
              rw [hi] at hdn
              simp only at hdn
              split at hdn <;> simp [hd'] at hdn
        refine ⟨?_, ?_, dat_idle x (hd.tab.write hfill) rfl (fun _ => hpq) (by simp)⟩
        · intro pc l hx'
          rw [x.resp] at hx'
          cases hx'
          refine ⟨hor, ⟨s.c.r.ppn, hx, ?_⟩, by rw [x.r]⟩
          rw [← lineAddr_phys]; exact hfill
        · intro hx'; rw [x.resp] at hx'; cases hx'
      · rw [if_neg hdn] at hg
        rw [hg] at x
        simp only [Bool.false_eq_true, if_false] at x
        have hn := next_p s.e i (call s.c (call1 s.e i)).2 hf
        rw [x.probe] at hn
        refine ⟨?_, ?_, ?_⟩
        · intro pc l h; rw [x.resp] at h; cases h
        · intro _; rw [x.r, hor]; simp [outst, hq, c1]
        · refine ⟨by rw [x.t]; exact hd.tab, ?_, ?_, ?_, ?_, ?_, ?_, ?_⟩
          · intro h; rw [x.r] at h; cases h
          · intro h; rw [x.r] at h; simp at h
          · intro _; rw [x.r]; simp only [c1, c2]; exact hx
          · intro _
            simp only [hn.1, hn.2, x.r]
            simp only [Regs.base, c1, c2]
            exact hpr.congr rfl rfl rfl rfl rfl
          · intro h; rw [x.r] at h; simp at h
          · intro f hf hh
            obtain ⟨_, _, _, _, _, rfl⟩ := offer_next_none x.mReq hf
            cases hh
          · intro _; rw [x.r]; simp only [Regs.base, c1, c2]; exact hmem
  · simp only [Bool.not_eq_true] at hb
    have hn : active s.c.r ((call1 s.e i).core none) = none := (act_none hm hs).2 fun u _ h => by rw [hb] at h; cases h.2
    by_cases ha : accNow s.c.r ((call1 s.e i).core none) = true
    · obtain ⟨_, u, htu, hau⟩ := (accNow_iff hs).1 ha
      rw [ht] at htu; cases htu
      obtain ⟨b, hg⟩ := swapOut_acc hk hb ha ht hn
      rw [hg] at x
      obtain ⟨hacc, f, hfo, hft⟩ := accTx_some hau
      have hfa : f.addr = s.c.r.base := by
        apply hd.offA f hfo
        cases hh : f.held
        · rfl
        · have := (hc.held f hfo hh).1; rw [hst] at this; cases this
      apply dat_swap hd hf hst x (hpr.congr rfl rfl rfl rfl rfl) c1 c2 c3 hq
      · intro _ t' ht'
        simp only [c5, ht, Option.some.injEq] at ht'
        subst ht'
        rw [← hfa]
        exact owed_acc hf hfo hft hacc (hm.acc t hau).1
      · intro a t h; cases h
    · simp only [Bool.not_eq_true] at ha
      rw [swapOut_offer hk hb ha] at x
      apply dat_swap hd hf hst x (hpr.congr rfl rfl rfl rfl rfl) c1 c2 c3 hq
      · intro h; simp only [c4, hb] at h; cases h
      · intro a t' h
        rw [ht] at h
        simp only [Option.map_some, Option.some.injEq, Prod.mk.injEq] at h
        exact h.1.symm

theorem good (hd : Dat w s) (hc : Ctl s.c.r s.e) (hv : Valid w s i) (hk : (call1 s.e i).kill = false) : Good w s i (call s.c (call1 s.e i)) := by
  cases hst : s.c.r.st with
  | idle =>
    cases hq : s.c.r.reqV with
    | true => exact good_reg hd hc hv hk hst hq
    | false => exact good_fast hd hc hv hk hst hq
  | swapIn => exact good_swap hd hc hv hk hst
  | waitDc => exact good_wait hd hc hv hk hst
  | cancelWait => exact good_cancel hd hc hv hk hst

end Verif.ICache

import Verif.Proofs.ICacheCtl
/-
The control invariant over calls of the instruction cache that withdraw nothing.
-/
namespace Verif.ICache

variable {r : Regs} {e : Env} {i : Cyc} {j : TopIn} {c : IC}

theorem drop_infl_free (hm : Mid r e i) (hs : Same j e i) (hb : r.busy = false) (u : Tx) :
    (drop r (j.core none)).infl u = true ↔ i.T ≠ some u ∧ r.infl u = true := by
  rw [drop_infl_iff hm hs, hb]
  constructor
  · rintro ⟨a, b⟩
    refine ⟨fun h => ?_, a⟩
    have := (b h).2
    cases this
  · rintro ⟨a, b⟩; exact ⟨b, fun h => absurd h a⟩

theorem dropped_free (hm : Mid r e i) (hs : Same j e i) (hb : r.busy = false) (hT : i.T ≠ none) : dropped r (j.core none) = true := by
  obtain ⟨u, hu⟩ := Option.ne_none_iff_exists'.1 hT
  exact (dropped_iff hm hs).2 ⟨u, hu, by simp [hb]⟩

/-- Nothing on the port, and nothing is put there. -/
theorem went_free (hm : Mid r e i) (hs : Same j e i) (hb : r.busy = false) (ht : r.tx = none) {r' : Regs} {o : Out}
    (hi : r'.infl = (drop r (j.core none)).infl) (hc : r'.canc = (drop r (j.core none)).canc)
    (h3 : r'.busy = false) (h5 : r'.tx = none) (h4 : r'.st = .idle ∨ (r'.st = .waitDc ∧ r'.reqV = true))
    (h6 : r'.ready = true → r'.reqV = false ∧ r'.st = .idle) (hr : o.mRespReady = dropped r (j.core none)) (hq : o.mReq = none) : Went r r' e i o := by
  refine ⟨⟨?_, ?_, ?_, ?_, ?_, ?_, h6⟩, ?_, ?_, ?_, ?_, ?_, ?_, ?_⟩
  · exact fun _ => ⟨h5, h3⟩
  · intro hw
    rcases h4 with h | h
    · rw [hw] at h; cases h
    · exact ⟨h5, h3, h.2⟩
  · intro hw
    rcases h4 with h | h
    · rw [hw] at h; cases h
    · rw [hw] at h; cases h.1
  · intro hw
    rcases h4 with h | h
    · rw [hw] at h; cases h
    · rw [hw] at h; cases h.1
  · intro u; rw [hi, hc, drop_canc_iff hm hs, hb, h3]; simp
  · intro u hu; rw [h5] at hu; cases hu
  · intro u
    rw [hi, drop_infl_free hm hs hb]
    constructor
    · rintro ⟨a, b⟩; exact ⟨a, .inl b⟩
    · rintro ⟨a, b | b⟩
      · exact ⟨a, b⟩
      · rcases (hm.acc u b).2 with h | h
        · exact ⟨a, h⟩
        · rw [ht] at h; cases h.1
  · intro hT; rw [hr]; exact dropped_free hm hs hb hT
  · intro u hu; rw [h5] at hu; cases hu
  · intro u hu; rw [h5] at hu; cases hu
  · intro f hf ha hh
    rcases hm.offer f hf ha with h | h
    · rw [hh] at h; cases h
    · rw [ht] at h; cases h.2.2.1
  · intro a t h; rw [hq] at h; cases h
  · rcases h4 with h | h
    · rw [h]; simp
    · rw [h.1]; simp

theorem freeTx_free {t : Tx} (h : freeTx r = some t) : r.infl t = false := by
  have := List.find?_some h
  simpa using this

theorem went_miss (hm : Mid r e i) (hs : Same j e i) (hb : r.busy = false) (ht : r.tx = none) {r' : Regs} {o : Out} {t : Tx}
    (hf : freeTx r = some t)
    (hi : r'.infl = (drop r (j.core none)).infl) (hc : r'.canc = (drop r (j.core none)).canc)
    (h3 : r'.busy = false) (h5 : r'.tx = some t) (h4 : r'.st = .swapIn) (h7 : r'.reqV = true)
    (h6 : r'.ready = false) (hr : o.mRespReady = dropped r (j.core none)) (hq : o.mReq = none) : Went r r' e i o := by
  have hfr := freeTx_free hf
  have hin : ∀ u, r'.infl u = true ↔ i.T ≠ some u ∧ r.infl u = true := by
    intro u; rw [hi, drop_infl_free hm hs hb]
  refine ⟨⟨?_, ?_, ?_, ?_, ?_, ?_, ?_⟩, ?_, ?_, ?_, ?_, ?_, ?_, ?_⟩
  · intro h; rw [h4] at h; cases h
  · intro h; rw [h4] at h; cases h
  · intro _; rw [h5]; exact ⟨by simp, h7⟩
  · intro h; rw [h4] at h; cases h
  · intro u; rw [hc, hi, drop_canc_iff hm hs, hb, h3]; simp
  · intro u hu; rw [h5] at hu; cases hu; rw [h3, ← Bool.not_eq_true, hin, hfr]; simp
  · intro h; rw [h6] at h; cases h
  · intro u
    rw [hin]
    constructor
    · rintro ⟨a, b⟩; exact ⟨a, .inl b⟩
    · rintro ⟨a, b | b⟩
      · exact ⟨a, b⟩
      · rcases (hm.acc u b).2 with h | h
        · exact ⟨a, h⟩
        · rw [ht] at h; cases h.1
  · intro hT; rw [hr]; exact dropped_free hm hs hb hT
  · intro u hu _; rw [h5] at hu; cases hu; exact hfr
  · intro u hu _; rw [h5] at hu; cases hu; exact hfr
  · intro f hf ha hh
    rcases hm.offer f hf ha with h | h
    · rw [hh] at h; cases h
    · rw [ht] at h; cases h.2.2.1
  · intro a t h; rw [hq] at h; cases h
  · rw [h4]; simp

theorem went_reg (hm : Mid c.r e i) (hs : Same j e i) (hk : j.kill = false) (hst : c.r.st = .idle) (hv : c.r.reqV = true) :
    Went c.r (call c j).1.r e i (call c j).2 := by
  obtain ⟨ht, hb⟩ := hm.sh.idle hst
  have h := call_reg hk hst ht hv
  cases hmm : j.mmu (vpnOf c.r.reqPc) with
  | none =>
    have x := h.retry hmm
    rw [x.r]
    apply went_free hm hs hb ht <;> simp [ht, hb, hst, hv, x.mrr, x.mReq]
  | some xl =>
    cases xl with
    | fault =>
      have x := h.fault hmm
      rw [x.r]
      apply went_free hm hs hb ht <;> simp [ht, hb, hst, x.mrr, x.mReq]
    | page p =>
      cases htab : tabWay c.t (idxOf c.r.reqPc) p with
      | some w =>
        have x := h.hit p w hmm htab
        rw [x.r]
        apply went_free hm hs hb ht <;> simp [ht, hb, hst, x.mrr, x.mReq]
      | none =>
        cases hf : freeTx c.r with
        | none =>
          have x := h.full p hmm htab hf
          rw [x.r]
          apply went_free hm hs hb ht <;> simp [ht, hb, hst, x.mrr, x.mReq]
        | some t =>
          have x := h.miss p t hmm htab hf
          rw [x.r]
          apply went_miss hm hs hb ht hf <;> simp [hb, hv, x.mrr, x.mReq, Regs.noProbe]

theorem went_fast (hm : Mid c.r e i) (hs : Same j e i) (hk : j.kill = false) (hst : c.r.st = .idle) (hv : c.r.reqV = false) :
    Went c.r (call c j).1.r e i (call c j).2 := by
  obtain ⟨ht, hb⟩ := hm.sh.idle hst
  have h := call_fast hk hst ht hb hv
  cases hr : j.req with
  | none =>
    have x := h.none_ hr
    rw [x.r]
    apply went_free hm hs hb ht <;> simp [ht, hb, hst, x.mrr, x.mReq]
  | some pc =>
    cases hmm : j.mmu (vpnOf pc) with
    | none =>
      have x := h.retry pc hr hmm
      rw [x.r]
      apply went_free hm hs hb ht <;> simp [ht, hb, hst, x.mrr, x.mReq]
    | some xl =>
      cases xl with
      | fault =>
        have x := h.fault pc hr hmm
        rw [x.r]
        apply went_free hm hs hb ht <;> simp [ht, hb, hst, x.mrr, x.mReq]
      | page p =>
        cases htab : tabWay c.t (idxOf pc) p with
        | some w =>
          have x := h.hit pc p w hr hmm htab
          rw [x.r]
          apply went_free hm hs hb ht <;> simp [ht, hb, hst, x.mrr, x.mReq]
        | none =>
          have x := h.miss pc p hr hmm htab
          rw [x.r]
          apply went_free hm hs hb ht <;> simp [ht, hb, hst, x.mrr, x.mReq]

theorem went_cancel (hm : Mid c.r e i) (hs : Same j e i) (hk : j.kill = false) (hst : c.r.st = .cancelWait) :
    Went c.r (call c j).1.r e i (call c j).2 := by
  have x := call_cancel hst (i := j)
  rw [x.r, hk]
  have hsh := hm.sh
  obtain ⟨t, ht⟩ := Option.ne_none_iff_exists'.1 (hsh.cw hst).1
  have hb := (hsh.cw hst).2.1
  have hj : (j.core none).mAcc = accTx e i := hs.mAcc
  have key : ∀ r' : Regs, r'.st = .idle → r'.tx = none → r'.busy = false → r'.reqV = false →
      (∀ u, r'.canc u = r'.infl u) → (∀ u, r'.infl u = true ↔ i.T ≠ some u ∧ (c.r.infl u = true ∨ accTx e i = some u)) →
      Went c.r r' e i (call c j).2 := by
    intro r' h1 h2 h3 h4 h5 h6
    refine ⟨⟨?_, ?_, ?_, ?_, ?_, ?_, ?_⟩, h6, ?_, ?_, ?_, ?_, ?_, ?_⟩
    · exact fun _ => ⟨h2, h3⟩
    · intro h; rw [h1] at h; cases h
    · intro h; rw [h1] at h; cases h
    · intro h; rw [h1] at h; cases h
    · intro u; rw [h5, h3]; simp
    · intro u hu; rw [h2] at hu; cases hu
    · exact fun _ => ⟨h4, h1⟩
    · intro _; exact x.mrr
    · intro u hu; rw [h2] at hu; cases hu
    · intro u hu; rw [h2] at hu; cases hu
    · intro f hf ha hh
      rw [hm.held hst f hf] at hh; cases hh
    · intro a t h; rw [x.mReq] at h; cases h
    · rw [h1]; simp
  unfold cancelDone
  simp only [ht, hj]
  have hC : ∀ u, (drop c.r (j.core none)).canc u = (drop c.r (j.core none)).infl u := by
    intro u
    rw [Bool.eq_iff_iff, drop_canc_iff hm hs, hb]
    simp
  by_cases hA : accTx e i = some t
  · rw [if_pos hA]
    apply key
    · rfl
    · rfl
    · rfl
    · rfl
    · intro u; simp only [Regs.noMiss, Regs.noProbe, setB, hC]
    · intro u
      simp only [Regs.noMiss, Regs.noProbe, setB]
      by_cases hu : u = t
      · subst hu
        simp only [if_true, true_iff]
        exact ⟨(hm.acc u hA).1, .inr hA⟩
      · simp only [hu, if_false]
        rw [drop_infl_free hm hs hb, hA]
        have : ¬t = u := fun h => hu h.symm
        simp [this]
  · rw [if_neg hA]
    apply key
    · rfl
    · rfl
    · rfl
    · rfl
    · exact hC
    · intro u
      show (drop c.r (j.core none)).infl u = true ↔ _
      rw [drop_infl_free hm hs hb]
      constructor
      · rintro ⟨a, b⟩; exact ⟨a, .inl b⟩
      · rintro ⟨a, b | b⟩
        · exact ⟨a, b⟩
        · rcases (hm.acc u b).2 with h | h
          · exact ⟨a, h⟩
          · rw [ht] at h; cases h.1; exact absurd b hA

theorem went_wait (hm : Mid c.r e i) (hs : Same j e i) (hk : j.kill = false) (hst : c.r.st = .waitDc) :
    Went c.r (call c j).1.r e i (call c j).2 := by
  have x := call_wait hk hst
  rw [x.r]
  obtain ⟨ht, hb, hv⟩ := hm.sh.wait hst
  have hkk : (j.core none).kill = false := hk
  have h1 := x.mrr
  have h2 := x.mReq
  unfold waitOut waitStep at h1 h2 ⊢
  simp only [hkk, Bool.false_eq_true, if_false] at h1 h2 ⊢
  by_cases hd : (probeStep c.r (j.core none) (drop c.r (j.core none))).pDone = true
  · rw [if_pos hd] at h1 h2 ⊢
    unfold finish at h1 h2 ⊢
    simp only [ht] at h1 h2 ⊢
    apply went_free hm hs hb ht
    · simp [Regs.noMiss, Regs.noProbe]
    · simp [Regs.noMiss, Regs.noProbe]
    · rfl
    · rfl
    · exact .inl rfl
    · simp [Regs.noMiss, Regs.noProbe]
    · rw [h1]; split <;> rfl
    · rw [h2]; split <;> rfl
  · rw [if_neg hd] at h1 h2 ⊢
    apply went_free hm hs hb ht <;> simp [ht, hb, hst, hv, h1, h2]

/-! ### `SWAP_IN` -/

theorem seen_if (b : Bool) (w : Regs) : (if b = true then { w with seen := true } else w) = { w with seen := w.seen || b } := by
  cases b <;> ext <;> simp

/-- `SWAP_IN` while the read is not accepted. -/
theorem swapOut_offer (hk : j.kill = false) (hb : c.r.busy = false) (ha : accNow c.r (j.core none) = false) :
    swapOut c j = { r := { probeStep c.r (j.core none) (drop c.r (j.core none)) with seen := c.r.seen || (j.mReady && c.r.tx.isSome) }
                    o := { mRespReady := dropped c.r (j.core none), probe := probeReq c.r, mReq := c.r.tx.map fun t => (lineAddr c.r.ppn (idxOf c.r.reqPc), t) }
                    tw := {}, rdy := false } := by
  have hkk : (j.core none).kill = false := hk
  have hfl : (j.core none).flush = false := (kill_false hk).2.2
  unfold swapOut swapStep
  simp only [hkk, Bool.false_eq_true, if_false, hb, ha, hfl, Bool.not_false, Bool.true_and, seen_if, probeStep_seen, drop_seen]
  rfl

/-- `SWAP_IN` in the cycle of the accept. -/
theorem swapOut_acc {t : Tx} (hk : j.kill = false) (hb : c.r.busy = false) (ha : accNow c.r (j.core none) = true) (ht : c.r.tx = some t)
    (hn : active c.r (j.core none) = none) :
    ∃ b, swapOut c j = { r := { probeStep c.r (j.core none) (drop c.r (j.core none)) with seen := b, busy := true, infl := setB (drop c.r (j.core none)).infl t true }
                         o := { mRespReady := dropped c.r (j.core none), probe := probeReq c.r }
                         tw := {}, rdy := false } := by
  have hkk : (j.core none).kill = false := hk
  have hfl : (j.core none).flush = false := (kill_false hk).2.2
  unfold swapOut swapStep
  simp only [hkk, Bool.false_eq_true, if_false, hb, ha, hfl, Bool.not_false, Bool.true_and, if_true, hn, ht, seen_if]
  simp only [probeStep_infl]
  exact ⟨_, rfl⟩

/-- `SWAP_IN` while the answer is awaited. -/
theorem swapOut_busy (hk : j.kill = false) (hb : c.r.busy = true) (hn : active c.r (j.core none) = none) :
    swapOut c j = { r := probeStep c.r (j.core none) (drop c.r (j.core none))
                    o := { mRespReady := dropped c.r (j.core none), probe := probeReq c.r }
                    tw := {}, rdy := false } := by
  have hkk : (j.core none).kill = false := hk
  have hfl : (j.core none).flush = false := (kill_false hk).2.2
  unfold swapOut swapStep
  simp only [hkk, Bool.false_eq_true, if_false, hb, hfl, Bool.not_true, Bool.false_and, if_true, hn]

/-- `SWAP_IN` when the answer comes. -/
theorem swapOut_got {t : Tx} {d : Line} (hk : j.kill = false) (hb : c.r.busy = true) (ht : c.r.tx = some t)
    (hn : active c.r (j.core none) = some d) :
    let w := probeStep c.r (j.core none) (drop c.r (j.core none))
    swapOut c j =
      if w.pDone then
        { r := { w with resp := d, repl := fillWay c.r (metaIn c j), infl := setB (drop c.r (j.core none)).infl t false }.noMiss
          o := { mRespReady := true, probe := probeReq c.r, resp := some (c.r.reqPc, some (if w.pHit then w.pData else d)) }
          tw := { we := some (idxOf c.r.reqPc, fillWay c.r (metaIn c j), c.r.ppn, if w.pHit then w.pData else d) }, rdy := true }
      else
        { r := { w with resp := d, repl := fillWay c.r (metaIn c j), infl := setB (drop c.r (j.core none)).infl t false, st := .waitDc,
                        busy := false, tx := none, seen := false }
          o := { mRespReady := true, probe := probeReq c.r }
          tw := {}, rdy := false } := by
  have hkk : (j.core none).kill = false := hk
  have hfl : (j.core none).flush = false := (kill_false hk).2.2
  dsimp only
  unfold swapOut swapStep
  simp only [hkk, Bool.false_eq_true, if_false, hb, Bool.not_true, Bool.false_and, if_true, hn]
  unfold gotLine
  simp only
  by_cases hd : (probeStep c.r (j.core none) (drop c.r (j.core none))).pDone = true
  · rw [if_pos hd, if_pos hd]
    unfold finish
    simp only [ht, hkk, hfl, Bool.not_false, Bool.and_self, if_true, Bool.false_eq_true, if_false, probeStep_infl]
  · rw [if_neg hd, if_neg hd]
    simp only [ht, hfl, probeStep_infl]

theorem went_swap (hc : Ctl c.r e) (hm : Mid c.r e i) (hs : Same j e i) (hk : j.kill = false) (hst : c.r.st = .swapIn) :
    Went c.r (call c j).1.r e i (call c j).2 := by
  have x := call_swap hk hst
  have hsh := hm.sh
  obtain ⟨hne, hv⟩ := hsh.swap hst
  obtain ⟨t, ht⟩ := Option.ne_none_iff_exists'.1 hne
  rw [x.r]
  have h1 := x.mrr
  have h2 := x.mReq
  by_cases hb : c.r.busy = true
  · have hti : c.r.infl t = true := by rw [hsh.onB t ht, hb]
    have hA : ∀ u, accTx e i = some u → c.r.infl u = true := by
      intro u hu
      rcases (hm.acc u hu).2 with h | h
      · exact h
      · rw [hb] at h; cases h.2
    have hoff : ∀ f, e.offer = some f → i.acc = false → f.held = false → (call c j).2.mReq ≠ none := by
      intro f hf ha hh
      rcases hm.offer f hf ha with h | h
      · rw [hh] at h; cases h
      · rw [hb] at h; cases h.2.1
    cases hn : active c.r (j.core none) with
    | none =>
      rw [swapOut_busy hk hb hn] at h1 h2 ⊢
      have hni := (act_none hm hs).1 hn
      have hI : ∀ u, (drop c.r (j.core none)).infl u = true ↔ i.T ≠ some u ∧ c.r.infl u = true := by
        intro u
        rw [drop_infl_iff hm hs]
        constructor
        · rintro ⟨a, b⟩; exact ⟨fun h => hni u h (b h), a⟩
        · rintro ⟨a, b⟩; exact ⟨b, fun h => absurd h a⟩
      refine ⟨⟨?_, ?_, ?_, ?_, ?_, ?_, ?_⟩, ?_, ?_, ?_, ?_, hoff, ?_, ?_⟩
      · intro h; simp [hst] at h
      · intro h; simp [hst] at h
      · intro h; simp [ht, hv]
      · intro h; simp [hst] at h
      · intro u; simp only [probeStep_canc, probeStep_infl, probeStep_busy, probeStep_tx, drop_busy, drop_tx]; exact drop_canc_iff hm hs u
      · intro u hu
        simp only [probeStep_tx, drop_tx, ht, Option.some.injEq] at hu
        subst hu
        simp only [probeStep_infl, probeStep_busy, drop_busy, hb]
        exact (hI t).2 ⟨fun h => hni t h ⟨ht, hb⟩, hti⟩
      · intro h; simp at h
      · intro u
        simp only [probeStep_infl]
        rw [hI]
        constructor
        · rintro ⟨a, b⟩; exact ⟨a, .inl b⟩
        · rintro ⟨a, b | b⟩
          · exact ⟨a, b⟩
          · exact ⟨a, hA u b⟩
      · intro hT
        rw [h1]
        obtain ⟨u, hu⟩ := Option.ne_none_iff_exists'.1 hT
        exact (dropped_iff hm hs).2 ⟨u, hu, hni u hu⟩
      · intro u hu hT
        simp only [probeStep_tx, drop_tx] at hu
        exact absurd ⟨hu, hb⟩ (hni u hT)
      · intro u hu hb'
        simp [hb] at hb'
      · intro a t h; rw [h2] at h; cases h
      · simp [hst]
    | some d =>
      obtain ⟨u, hu, htu, _⟩ := (act_iff hm hs d).1 hn
      rw [ht] at htu; cases htu
      have hT : i.T = some t := by simp [Cyc.T, hu]
      have hI : ∀ u, setB (drop c.r (j.core none)).infl t false u = true ↔ i.T ≠ some u ∧ (c.r.infl u = true ∨ accTx e i = some u) := by
        intro u
        unfold setB
        by_cases hut : u = t
        · subst hut; simp [hT]
        · simp only [hut, if_false]
          have hTu : ¬i.T = some u := by rw [hT]; simpa using fun h => hut h.symm
          rw [drop_infl_iff hm hs]
          constructor
          · rintro ⟨a, b⟩; exact ⟨hTu, .inl a⟩
          · rintro ⟨a, b | b⟩
            · exact ⟨b, fun h => absurd h hTu⟩
            · exact ⟨hA u b, fun h => absurd h hTu⟩
      have hC : ∀ u, (drop c.r (j.core none)).canc u = setB (drop c.r (j.core none)).infl t false u := by
        intro u
        rw [Bool.eq_iff_iff, drop_canc_iff hm hs]
        unfold setB
        by_cases hut : u = t
        · subst hut; simp [hb, ht]
        · have : ¬t = u := fun h => hut h.symm
          simp [hut, ht, this]
      have key : ∀ r' : Regs, (r'.st = .idle ∨ (r'.st = .waitDc ∧ r'.reqV = true)) → r'.tx = none → r'.busy = false →
          (r'.ready = true → r'.reqV = false ∧ r'.st = .idle) → r'.canc = (drop c.r (j.core none)).canc →
          r'.infl = setB (drop c.r (j.core none)).infl t false → (call c j).2.mRespReady = true → (call c j).2.mReq = none →
          Went c.r r' e i (call c j).2 := by
        intro r' k1 k2 k3 k4 k5 k6 k7 k8
        refine ⟨⟨?_, ?_, ?_, ?_, ?_, ?_, k4⟩, ?_, ?_, ?_, ?_, hoff, ?_, ?_⟩
        · exact fun _ => ⟨k2, k3⟩
        · intro h
          rcases k1 with k1 | k1
          · rw [h] at k1; cases k1
          · exact ⟨k2, k3, k1.2⟩
        · intro h; rcases k1 with k1 | ⟨k1, _⟩ <;> (rw [h] at k1; cases k1)
        · intro h; rcases k1 with k1 | ⟨k1, _⟩ <;> (rw [h] at k1; cases k1)
        · intro u; rw [k5, k6, hC, k3]; simp
        · intro u hu; rw [k2] at hu; cases hu
        · intro u; rw [k6]; exact hI u
        · exact fun _ => k7
        · intro u hu; rw [k2] at hu; cases hu
        · intro u hu; rw [k2] at hu; cases hu
        · intro a t h; rw [k8] at h; cases h
        · rcases k1 with k1 | ⟨k1, _⟩ <;> (rw [k1]; simp)
      have hg := swapOut_got hk hb ht hn
      dsimp only at hg
      rw [hg] at h1 h2 ⊢
      by_cases hd : (probeStep c.r (j.core none) (drop c.r (j.core none))).pDone = true
      · rw [if_pos hd] at h1 h2 ⊢
        apply key <;> simp [Regs.noMiss, Regs.noProbe, h1, h2]
      · rw [if_neg hd] at h1 h2 ⊢
        apply key <;> simp [h1, h2, hv]
  · simp only [Bool.not_eq_true] at hb
    have hn : active c.r (j.core none) = none := (act_none hm hs).2 fun u _ h => by rw [hb] at h; cases h.2
    have htn : c.r.infl t = false := by rw [hsh.onB t ht, hb]
    by_cases ha : accNow c.r (j.core none) = true
    · obtain ⟨_, u, htu, hau⟩ := (accNow_iff hs).1 ha
      rw [ht] at htu; cases htu
      obtain ⟨b, hg⟩ := swapOut_acc hk hb ha ht hn
      rw [hg] at h1 h2 ⊢
      have hTt := (hm.acc t hau).1
      refine ⟨⟨?_, ?_, ?_, ?_, ?_, ?_, ?_⟩, ?_, ?_, ?_, ?_, ?_, ?_, ?_⟩
      · intro h; simp [hst] at h
      · intro h; simp [hst] at h
      · intro h; simp [ht, hv]
      · intro h; simp [hst] at h
      · intro u
        simp only [probeStep_canc, probeStep_tx, drop_tx, setB, ht]
        rw [drop_canc_iff hm hs, hb]
        by_cases hut : u = t
        · subst hut
          simp [htn, drop_infl hs]
        · have : ¬t = u := fun h => hut h.symm
          simp [hut, this]
      · intro u hu
        simp only [probeStep_tx, drop_tx, ht, Option.some.injEq] at hu
        subst hu
        simp [setB]
      · intro h; simp at h
      · intro u
        simp only [setB]
        by_cases hut : u = t
        · subst hut; simp [hTt, hau]
        · have : ¬t = u := fun h => hut h.symm
          simp only [hut, if_false]
          rw [drop_infl_free hm hs hb, hau]
          simp [this]
      · intro hT; rw [h1]; exact dropped_free hm hs hb hT
      · intro u hu hT
        simp only [probeStep_tx, drop_tx, ht, Option.some.injEq] at hu
        subst hu; exact absurd hT hTt
      · intro u _ hb'
        simp at hb'
      · intro f hf hacc _
        rw [(accTx_some hau).1] at hacc; cases hacc
      · intro a t h; rw [h2] at h; cases h
      · simp [hst]
    · simp only [Bool.not_eq_true] at ha
      have hg := swapOut_offer hk hb ha
      rw [hg] at h1 h2 ⊢
      have hA : ∀ u, accTx e i = some u → c.r.infl u = true := by
        intro u hu
        rcases (hm.acc u hu).2 with h | h
        · exact h
        · have := (accNow_iff (r := c.r) hs).2 ⟨hb, u, h.1, hu⟩
          rw [ha] at this; cases this
      have hin : ∀ u, (drop c.r (j.core none)).infl u = true ↔ i.T ≠ some u ∧ (c.r.infl u = true ∨ accTx e i = some u) := by
        intro u
        rw [drop_infl_free hm hs hb]
        constructor
        · rintro ⟨a, b⟩; exact ⟨a, .inl b⟩
        · rintro ⟨a, b | b⟩
          · exact ⟨a, b⟩
          · exact ⟨a, hA u b⟩
      refine ⟨⟨?_, ?_, ?_, ?_, ?_, ?_, ?_⟩, ?_, ?_, ?_, ?_, ?_, ?_, ?_⟩
      · intro h; simp [hst] at h
      · intro h; simp [hst] at h
      · intro h; simp [ht, hv]
      · intro h; simp [hst] at h
      · intro u
        simp only [probeStep_canc, probeStep_infl, probeStep_tx, drop_tx, probeStep_busy, drop_busy]
        exact drop_canc_iff hm hs u
      · intro u hu
        simp only [probeStep_infl, probeStep_tx, drop_tx, probeStep_busy, drop_busy, ht, Option.some.injEq] at hu ⊢
        subst hu
        rw [drop_infl hs, htn, hb]; rfl
      · intro h; simp at h
      · intro u; simp only [probeStep_infl]; exact hin u
      · intro hT; rw [h1]; exact dropped_free hm hs hb hT
      · intro u hu hT
        simp only [probeStep_tx, drop_tx, ht, Option.some.injEq] at hu
        subst hu; exact htn
      · intro u hu _
        simp only [probeStep_tx, drop_tx, ht, Option.some.injEq] at hu
        subst hu; exact htn
      · intro f hf hacc _
        rw [h2, ht]; simp
      · intro a t' h
        rw [h2, ht] at h
        simp only [Option.map_some, Option.some.injEq, Prod.mk.injEq] at h
        obtain ⟨_, rfl⟩ := h
        simp only [probeStep_st, drop_st, probeStep_busy, drop_busy, probeStep_tx, drop_tx, hst, hb, ht,
          hs.mReady]
        refine ⟨trivial, trivial, trivial, trivial, trivial, fun h => ?_, fun h => ?_⟩
        · simp [h]
        · simp [h]
      · simp [hst]

theorem went (hc : Ctl c.r e) (hm : Mid c.r e i) (hs : Same j e i) (hk : j.kill = false) : Went c.r (call c j).1.r e i (call c j).2 := by
  cases hst : c.r.st with
  | idle =>
    cases hv : c.r.reqV with
    | true => exact went_reg hm hs hk hst hv
    | false => exact went_fast hm hs hk hst hv
  | swapIn => exact went_swap hc hm hs hk hst
  | waitDc => exact went_wait hm hs hk hst
  | cancelWait => exact went_cancel hm hs hk hst

end Verif.ICache

import Verif.Proofs.ICacheRawMiss

/-
`comb_core` on the code's records against `core` of Model/ICache.
-/
namespace Verif.ICacheBits
open Verif.ICache

theorem memV_off {o : ROut} (h : o.memV = false) : ({ o with memV := false } : ROut) = o := by
  cases o; cases h; rfl

theorem pOut_keep (r : RRegs) (o : ROut) (h : pAsk r = true → o.dcV = true ∧ o.dcAddr = lineBase r.ppn r.reqIdx + r.pWord * 4#32) :
    pOut r o = o := by
  unfold pOut
  cases hp : pAsk r with
  | false => rfl
  | true =>
    obtain ⟨h1, h2⟩ := h hp
    rw [← h2]
    cases o; cases h1; rfl

/-- `SWAP_IN`. -/
theorem swap_sim (r : Regs) (j : Tx) (i : RIn) (m : RMeta) (l : Look) (wr : Regs) (ro : ROut) (t : Tx)
    (hst : r.st = .swapIn) (htx : r.tx = some t) (hq : Quiet r ro) (hdc : ro.dcV = false) (hm : FreeIs m (freeWay l))
    (h1 : wr.pDone = r.pDone) (h2 : wr.pHit = r.pHit) (h3 : wr.pData = r.pData) (h4 : wr.st = r.st) (h5 : wr.busy = r.busy)
    (h6 : wr.tx = r.tx) :
    Agree ((swapR (conc r j) i m (mid r j i wr ro)).latch (conc r j) i) (swapStep r i.abs l wr (oabs ro)) := by
  have ho := oabs_pOut r j ro hdc
  have hq1 := hq.pOut j
  have htw := fun c => probeStep_tx r i.abs c
  unfold swapR swapStep
  rw [mid_probe, pRes_eq r j i wr h1 h2 h3, ← ho, show seenNow (conc r j) i = (!r.busy && i.mReady && r.tx.isSome) from rfl,
    show i.abs.mReady = i.mReady from rfl, show i.abs.kill = i.refetch from rfl, show (conc r j).axi = r.busy from rfl]
  have hask : pAsk (conc r j) = true → (pOut (conc r j) ro).dcV = true ∧
      (pOut (conc r j) ro).dcAddr = lineBase (conc r j).ppn (conc r j).reqIdx + (conc r j).pWord * 4#32 := by
    intro h; unfold pOut; rw [if_pos h]; exact ⟨rfl, rfl⟩
  generalize hro : pOut (conc r j) ro = ro1 at hq1 hask
  -- the registers with `seen`
  have hw2 : (if (!r.busy && i.mReady && r.tx.isSome) = true then
        { mid r j i (probeStep r i.abs wr) ro1 with rw := { (mid r j i (probeStep r i.abs wr) ro1).rw with seen := true } }
      else mid r j i (probeStep r i.abs wr) ro1) =
      mid r j i (if (!r.busy && i.mReady && r.tx.isSome) = true then { probeStep r i.abs wr with seen := true } else probeStep r i.abs wr) ro1 := by
    split <;> rfl
  simp only [hw2]
  have hp2 : pRegs (conc r j) i (conc (if (!r.busy && i.mReady && r.tx.isSome) = true then { probeStep r i.abs wr with seen := true } else probeStep r i.abs wr) j) =
      conc (if (!r.busy && i.mReady && r.tx.isSome) = true then { probeStep r i.abs wr with seen := true } else probeStep r i.abs wr) j := by
    split
    · have := pRegs_twice (conc r j) i (conc wr j) true
      rw [pRegs_eq] at this
      exact this
    · have := pRegs_again (conc r j) i (conc wr j)
      rw [pRegs_eq] at this
      exact this
  have hps : ∀ w2 : Regs, w2 = (if (!r.busy && i.mReady && r.tx.isSome) = true then { probeStep r i.abs wr with seen := true } else probeStep r i.abs wr) →
      w2.tx = r.tx ∧ w2.st = r.st ∧ w2.busy = r.busy ∧ w2.pDone = (probeStep r i.abs wr).pDone ∧ w2.pHit = (probeStep r i.abs wr).pHit ∧
      w2.pData = (probeStep r i.abs wr).pData := by
    intro w2 hw
    obtain ⟨e1, e2, e3⟩ := htw wr
    subst hw
    split
    · exact ⟨e1.trans h6, e2.trans h4, e3.trans h5, rfl, rfl, rfl⟩
    · exact ⟨e1.trans h6, e2.trans h4, e3.trans h5, rfl, rfl, rfl⟩
  generalize hwr2 : (if (!r.busy && i.mReady && r.tx.isSome) = true then { probeStep r i.abs wr with seen := true } else probeStep r i.abs wr) = wr2 at hp2 hps
  obtain ⟨g1, g2, g3, g4, g5, g6⟩ := hps wr2 rfl
  rw [← g4, ← g5, ← g6]
  cases hr : i.refetch with
  | true =>
    simp only [if_true]
    have hk := swapKill_sim r j i wr2 ro1 t htx hq1 g1
    rw [htx] at hk ⊢
    exact hk
  | false =>
    simp only [Bool.false_eq_true, if_false]
    cases hb : r.busy with
    | true =>
      simp only [Bool.not_true, Bool.false_eq_true, if_false, if_true]
      rw [activeR_eq]
      cases ha : active r i.abs with
      | none =>
        simp only [Option.isSome_none, Bool.or_false, Bool.false_and, Bool.false_eq_true, if_false]
        rw [latch_eq _ _ _ (by exact hq1.ppnReady)]
        simp only [Bool.and_false, Bool.false_eq_true, if_false]
        refine ⟨⟨j, ?_⟩, ?_, hq1.al, rfl, (fun h => by cases h), rfl, rfl, hq1.miss⟩
        · simp only [mid, Wk.start, conc, stC, g2, g3, hst, hb]
        · show oabs { ro1 with memV := false } = oabs ro1
          rw [memV_off hq1.memV]
      | some d =>
        simp only [Option.isSome_some, Bool.or_true, Bool.true_and, if_true]
        rw [active_data ha]
        have hg := got_sim r j i m l wr2 { ro1 with memV := false } 1#32 (conc r j).axi ⟨wr2.pDone, wr2.pHit, wr2.pData⟩ t hst htx
          (by rw [memV_off hq1.memV]; exact hq1) hm g1 rfl _ rfl
        rw [show oabs { ro1 with memV := false } = oabs ro1 by rw [memV_off hq1.memV]] at hg
        exact hg
    | false =>
      simp only [Bool.not_false, if_true, Bool.false_eq_true, if_false]
      have hacc : (i.mAcc && (i.mAccId &&& 0xF#32) == ((conc r j).tx &&& 0xF#32)) = accNow r i.abs := by
        rw [show (conc r j).tx = BitVec.ofNat 32 (r.tx.getD j).val from rfl, htx, Option.getD_some, ofNat_and, mAcc_eq]
        unfold accNow
        rw [hb, htx]
        rfl
      rw [hacc]
      cases hx : accNow r i.abs with
      | false =>
        simp only [Bool.false_eq_true, if_false]
        rw [latch_eq _ _ _ (by exact hq1.ppnReady)]
        rw [show ((conc r j).st == 1#32 && (mid r j i wr2 ro1).gnt) = false from Bool.and_false _]
        simp only [Bool.false_eq_true, if_false]
        refine ⟨⟨j, ?_⟩, ?_, align _ _, rfl, (fun h => by cases h), rfl, rfl, hq1.miss⟩
        · simp only [mid, Wk.start, conc, stC, g2, g3, hst, hb]
        · rw [htx]
          show oabs { ro1 with memAddr := lineBase (r.ppn.setWidth 32) (idxR r.reqPc), memId := BitVec.ofNat 32 (r.tx.getD j).val, memV := true } = _
          rw [lineBase_eq, htx]
          unfold oabs ROut.abs
          simp only [if_true, Option.getD_some, txn_ofNat, Option.map_some]
      | true =>
        simp only [if_true]
        rw [activeR_eq]
        have hmo : ({ ro1 with memAddr := ((conc r j).ppn <<< 12) ||| ((conc r j).reqIdx <<< 6), memId := (conc r j).tx, memV := false } : ROut) =
          { ro1 with memAddr := ((conc r j).ppn <<< 12) ||| ((conc r j).reqIdx <<< 6), memId := (conc r j).tx } := by
          rw [← memV_off hq1.memV]
        have hqm : Quiet r { ro1 with memAddr := ((conc r j).ppn <<< 12) ||| ((conc r j).reqIdx <<< 6), memId := (conc r j).tx, memV := false } :=
          ⟨hq1.respV, hq1.respPc, hq1.fault, hq1.ppnReady, rfl, align _ _, hq1.miss⟩
        have hom : oabs { ro1 with memAddr := ((conc r j).ppn <<< 12) ||| ((conc r j).reqIdx <<< 6), memId := (conc r j).tx, memV := false } = oabs ro1 := by
          unfold oabs ROut.abs
          simp only [hq1.memV, Bool.false_eq_true, if_false]
        cases ha : active r i.abs with
        | none =>
          simp only [Option.isSome_none, Bool.false_eq_true, if_false]
          rw [latch_eq _ _ _ (by exact hq1.ppnReady)]
          rw [show ((conc r j).st == 1#32 && (mid r j i wr2 ro1).gnt) = false from Bool.and_false _]
          simp only [Bool.false_eq_true, if_false]
          refine ⟨⟨j, ?_⟩, hom, align _ _, rfl, (fun h => by cases h), rfl, rfl, hq1.miss⟩
          rw [htx]
          simp only [mid, Wk.start, conc, stC, g2, hst, htx, Option.getD_some, setT_eq, txn_ofNat]
        | some d =>
          simp only [Option.isSome_some, if_true]
          rw [active_data ha]
          have hg := got_sim r j i m l wr2 _ 1#32 (conc r j).axi ⟨wr2.pDone, wr2.pHit, wr2.pData⟩ t hst htx hqm hm g1 rfl _ rfl
          rw [hom] at hg
          rw [probeR_eq]
          have hk : pOut (conc r j) { ro1 with memAddr := ((conc r j).ppn <<< 12) ||| ((conc r j).reqIdx <<< 6), memId := (conc r j).tx, memV := false, memRespReady := true } =
            { ro1 with memAddr := ((conc r j).ppn <<< 12) ||| ((conc r j).reqIdx <<< 6), memId := (conc r j).tx, memV := false, memRespReady := true } :=
            pOut_keep _ _ hask
          have hres : pRes (conc r j) i = ⟨wr2.pDone, wr2.pHit, wr2.pData⟩ := by
            rw [pRes_eq r j i wr h1 h2 h3, g4, g5, g6]
          rw [hres]
          unfold latchR at hg ⊢
          dsimp only [mid, Wk.start] at hg ⊢
          rw [hp2, hk]
          exact hg

/-- What `comb_core` starts from is quiet. -/
theorem base_quiet (r : Regs) (j : Tx) (i : RIn) (f g : Tx → Bool) (b : Bool) : Quiet r (base r j i f g b).o :=
  ⟨rfl, rfl, rfl, rfl, rfl, align _ _, rfl, rfl⟩

/-- `eval_state_machine` never leaves by `exit(1)` and does what the model says. -/
theorem eval_sim (allow : Bool) (r : Regs) (j : Tx) (i : RIn) (m : RMeta) (rl : RLook) (l : Look)
    (hx : r.st = .swapIn → r.tx.isSome = true) (hp : i.ppn.toNat < 2 ^ 20) (hd : DataIs rl l) (hf : FreeIs m (freeWay l))
    (hm : r.st = .idle → i.refetch = false → i.ppnV = true → i.fault = false → (r.reqV = true ∨ i.reqV = true) →
      HitIs m (hitWay l (i.ppn.setWidth 20))) :
    ∃ w, evalR allow (conc r j) i m rl = some w ∧ Agree w (evalSm allow r i.abs l) := by
  unfold evalR evalSm
  rw [drop_eq]
  have hd' := drop_is r i.abs
  generalize (drop r i.abs).infl = f at hd' ⊢
  generalize (drop r i.abs).canc = g at hd' ⊢
  generalize drop r i.abs = wd at hd' ⊢
  generalize (cancResp r i.abs || orphan r i.abs) = b
  have hq := base_quiet r j i f g b
  rw [show (conc r j).st = stC r.st from rfl]
  have hc : r.st = .idle ∨ r.st = .swapIn ∨ r.st = .waitDc ∨ r.st = .cancelWait := by cases r.st <;> simp
  rcases hc with hst | hst | hst | hst
  · rw [hst, hd']
    exact ⟨_, rfl, idle_sim allow r j i m rl l f g b hst hp hd (hm hst)⟩
  · obtain ⟨t, ht⟩ := Option.isSome_iff_exists.mp (hx hst)
    rw [hst, hd']
    exact ⟨_, rfl, swap_sim r j i m l (wr0 r f g) (base r j i f g b).o t hst ht hq rfl hf rfl rfl rfl rfl rfl rfl⟩
  · rw [hst, hd']
    exact ⟨_, rfl, wait_sim r j i (wr0 r f g) (base r j i f g b).o hst hq rfl rfl rfl rfl rfl rfl⟩
  · rw [hst, hd']
    exact ⟨_, rfl, cancel_sim r j i (wr0 r f g) (base r j i f g b).o hst hq⟩

theorem slotIdleR_eq (r : Regs) (j : Tx) : slotIdleR (conc r j) = slotIdle r := by
  unfold slotIdleR slotIdle
  show (!r.reqV && stC r.st == 0#32 && !r.busy && !r.tx.isSome) = _
  rw [stC_idle]
  cases r.tx <;> rfl

theorem vpn_eq (pc : W32) : (pc >>> 12).setWidth 20 = vpnOf pc := by
  apply BitVec.eq_of_getLsbD_eq
  intro k hk
  simp [vpnOf, hk]

/-- The same outputs. -/
structure Outs (o : ROut) (a : Out) : Prop where
  abs : o.abs = a
  al : (o.memAddr >>> 6) <<< 6 = o.memAddr
  miss : o.miss = false

/-- `lookup`. -/
theorem lookup_sim (r : Regs) (j : Tx) (i : RIn) (w : Wk) (s : Sm) (h : Agree w s) :
    ∃ j', (lookupR (conc r j) i w).rw = conc (lookup r i.abs s).1 j' ∧ Outs (lookupR (conc r j) i w).o (lookup r i.abs s).2 ∧
      (lookupR (conc r j) i w).tw = w.tw := by
  obtain ⟨j', hrw⟩ := h.rw
  refine ⟨j', ?_⟩
  unfold lookupR lookup
  rw [slotIdleR_eq, show i.abs.kill = i.refetch from rfl, show (conc r j).lookP = false from rfl, show (conc r j).reqV = r.reqV from rfl,
    show (conc r j).reqPc = r.reqPc from rfl]
  have ho : ∀ (v x : Bool) (g : W32), ({ w.o with mmuV := v, mmuVtag := g, ready := x } : ROut).abs =
      { s.o with ready := x, ask := if v then some (g.setWidth 20) else none } := by
    intro v x g
    rw [← h.o]
    rfl
  have hask : s.o.ask = none := by
    rw [← h.o]
    unfold ROut.abs
    simp only [h.miss.2, Bool.false_eq_true, if_false]
  have hn : ∀ x : Bool, ({ s.o with ready := x, ask := none } : Out) = { s.o with ready := x } := by
    intro x
    rw [← hask]
  have hz : ∀ x : Bool, ({ w.o with mmuV := false, ready := x } : ROut).abs = { s.o with ready := x } := by
    intro x
    have := ho false x w.o.mmuVtag
    simp only [Bool.false_eq_true, if_false, hn] at this
    exact this
  cases hr : i.refetch with
  | true =>
    simp only [if_true, hrw]
    exact ⟨rfl, ⟨hz false, h.al, h.miss.1⟩, trivial⟩
  | false =>
    simp only [Bool.false_eq_true, if_false]
    rw [h.fast]
    cases hf : s.fast with
    | true =>
      simp only [if_true, hrw]
      refine ⟨rfl, ⟨?_, h.al, h.miss.1⟩, trivial⟩
      rw [h.rdy]
      exact hz s.rdy
    | false =>
      simp only [Bool.false_eq_true, if_false, h.rdy, Bool.not_false, Bool.and_true, Bool.false_and]
      cases hi : i.reqV <;> simp only [hi, req_some, req_none, Bool.true_and, Bool.false_and, Bool.false_eq_true, if_false]
      · simp only [ite_self, Option.isSome_none, Bool.false_eq_true, if_false]
        refine ⟨?_, ⟨?_, ?_, ?_⟩, trivial⟩
        · rw [hrw]; rfl
        · cases hv : i.ppnV <;> cases hqv : r.reqV <;>
            simp only [hv, xl_none, Bool.not_false, Bool.not_true, Bool.and_true, Bool.and_false, Bool.and_self, if_true, Bool.false_eq_true,
              if_false, Option.isNone_none, Bool.false_and]
          · rw [hn]; exact hz s.rdy
          · rw [← vpn_eq]; exact ho true s.rdy _
          · rw [hn]; exact hz s.rdy
          · rw [show i.abs.xl.isNone = false by unfold RIn.abs; rw [hv]; rfl]
            simp only [Bool.and_false, Bool.false_eq_true, if_false]
            rw [hn]; exact hz s.rdy
        · split <;> exact h.al
        · split <;> exact h.miss.1
      · cases hc : (s.rdy && slotIdle r) with
        | true =>
          simp only [if_true, Option.isSome_some]
          refine ⟨?_, ⟨?_, h.al, h.miss.1⟩, trivial⟩
          · rw [hrw]; rfl
          · rw [← vpn_eq]; exact ho true s.rdy _
        | false =>
          simp only [Bool.false_eq_true, if_false, Option.isSome_none]
          refine ⟨?_, ⟨?_, ?_, ?_⟩, trivial⟩
          · rw [hrw]; rfl
          · cases hv : i.ppnV <;> cases hqv : r.reqV <;>
              simp only [hv, xl_none, Bool.not_false, Bool.not_true, Bool.and_true, Bool.and_false, Bool.and_self, if_true, Bool.false_eq_true,
                if_false, Option.isNone_none, Bool.false_and]
            · rw [hn]; exact hz s.rdy
            · rw [← vpn_eq]; exact ho true s.rdy _
            · rw [hn]; exact hz s.rdy
            · rw [show i.abs.xl.isNone = false by unfold RIn.abs; rw [hv]; rfl]
              simp only [Bool.and_false, Bool.false_eq_true, if_false]
              rw [hn]; exact hz s.rdy
          · split <;> exact h.al
          · split <;> exact h.miss.1

/-- `comb_core` never leaves by `exit(1)` and does what the model's `core` does. -/
theorem core_sim (allow : Bool) (r : Regs) (j : Tx) (i : RIn) (m : RMeta) (rl : RLook) (l : Look)
    (hx : r.st = .swapIn → r.tx.isSome = true) (hp : i.ppn.toNat < 2 ^ 20) (hd : DataIs rl l) (hf : FreeIs m (freeWay l))
    (hm : r.st = .idle → i.refetch = false → i.ppnV = true → i.fault = false → (r.reqV = true ∨ i.reqV = true) →
      HitIs m (hitWay l (i.ppn.setWidth 20))) :
    ∃ j' o tw, coreR allow (conc r j) i m rl = some (conc (core allow r i.abs l).1 j', o, tw) ∧
      Outs o (core allow r i.abs l).2.1 ∧ tw.abs = (core allow r i.abs l).2.2 ∧ (tw.we = true → tw.valid = true) := by
  obtain ⟨w, hw, ha⟩ := eval_sim allow r j i m rl l hx hp hd hf hm
  obtain ⟨j', h1, h2, h3⟩ := lookup_sim r j i w _ ha
  refine ⟨j', (lookupR (conc r j) i w).o, (lookupR (conc r j) i w).tw, ?_, h2, ?_, ?_⟩
  · unfold coreR
    rw [hw, Option.map_some, h1]
    rfl
  · rw [h3]; exact ha.tw
  · rw [h3]; exact ha.val

end Verif.ICacheBits

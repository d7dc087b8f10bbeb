import Verif.Proofs.ICacheRawSm

/-
The state machine on the code's records while a line is missing.
-/
namespace Verif.ICacheBits
open Verif.ICache

/-! ### The probe -/

/-- `step_dcache_probe` asks. -/
def pAsk (r : RRegs) : Bool := !r.pDone && !r.pInfl && decide (r.pWord.toNat < 16) && r.reqV

/-- The outputs after `step_dcache_probe`. -/
def pOut (r : RRegs) (o : ROut) : ROut :=
  if pAsk r then { o with dcV := true, dcAddr := lineBase r.ppn r.reqIdx + r.pWord * 4#32 } else o

/-- The registers after `step_dcache_probe`. -/
def pRegs (r : RRegs) (i : RIn) (w : RRegs) : RRegs :=
  let w := if pAsk r then { w with pInfl := true } else w
  if r.pInfl && i.dcV then
    if i.dcMiss then { w with pInfl := false, pDone := true, pHit := false }
    else if (r.pWord + 1#32).toNat ≥ 16 then
      { w with pInfl := false, pHit := true, pData := setW w.pData r.pWord i.dcData, pDone := true }
    else { w with pInfl := false, pHit := true, pData := setW w.pData r.pWord i.dcData, pWord := r.pWord + 1#32 }
  else w

/-- The result of `step_dcache_probe`. -/
def pRes (r : RRegs) (i : RIn) : PStep :=
  if r.pInfl && i.dcV then
    if i.dcMiss then ⟨true, false, r.pData⟩
    else if (r.pWord + 1#32).toNat ≥ 16 then ⟨true, true, setW r.pData r.pWord i.dcData⟩
    else ⟨r.pDone, true, setW r.pData r.pWord i.dcData⟩
  else ⟨r.pDone, r.pHit, r.pData⟩

theorem probeR_eq (r : RRegs) (i : RIn) (w : Wk) :
    probeR r i w = ({ w with rw := pRegs r i w.rw, o := pOut r w.o }, pRes r i) := by
  unfold probeR pRegs pOut pRes
  rw [show (!r.pDone && !r.pInfl && decide (r.pWord.toNat < 16) && r.reqV) = pAsk r from rfl]
  cases pAsk r <;> cases (r.pInfl && i.dcV) <;> cases i.dcMiss <;> simp only [if_true, if_false, Bool.false_eq_true] <;>
    first | rfl | (split <;> rfl)

theorem pOut_twice (r : RRegs) (o : ROut) : pOut r (pOut r o) = pOut r o := by
  unfold pOut; cases pAsk r <;> rfl

theorem setW_twice (f : Line) (v d : W32) : setW (setW f v d) v d = setW f v d := by
  funext k; unfold setW; split <;> rfl

theorem pRegs_twice (r : RRegs) (i : RIn) (w : RRegs) (s : Bool) :
    pRegs r i { pRegs r i w with seen := s } = { pRegs r i w with seen := s } := by
  unfold pRegs
  cases pAsk r <;> cases (r.pInfl && i.dcV) <;> cases i.dcMiss <;> simp only [if_true, if_false, Bool.false_eq_true] <;>
    first | rfl | (split <;> simp only [setW_twice])

theorem pRegs_again (r : RRegs) (i : RIn) (w : RRegs) : pRegs r i (pRegs r i w) = pRegs r i w :=
  pRegs_twice r i w (pRegs r i w).seen

theorem word_lt (k : Fin 16) : (BitVec.ofNat 32 k.val).toNat < 16 := by revert k; decide
theorem word_last (k : Fin 16) : ((BitVec.ofNat 32 k.val + 1#32).toNat ≥ 16) ↔ ¬ (k.val + 1 < 16) := by revert k; decide
theorem word_next (k : Fin 16) (h : k.val + 1 < 16) : BitVec.ofNat 32 k.val + 1#32 = BitVec.ofNat 32 (⟨k.val + 1, h⟩ : Fin 16).val := by
  revert k; decide
theorem word_addr (k : Fin 16) : BitVec.ofNat 32 k.val * 4#32 = BitVec.ofNat 32 (k.val * 4) := by revert k; decide
theorem word_inj (k l : Fin 16) : (BitVec.ofNat 32 k.val = BitVec.ofNat 32 l.val) ↔ l = k := by revert k l; decide

theorem setW_eq (f : Line) (k : Fin 16) (d : W32) : setW f (BitVec.ofNat 32 k.val) d = fun j => if j = k then d else f j := by
  funext l
  unfold setW
  simp only [word_inj]

theorem pAsk_eq (r : Regs) (j : Tx) : pAsk (conc r j) = (probeReq r).isSome := by
  unfold pAsk probeReq
  show (!r.pDone && !r.pInfl && decide ((BitVec.ofNat 32 r.pWord.val).toNat < 16) && r.reqV) = _
  rw [decide_eq_true (word_lt r.pWord)]
  cases r.pDone <;> cases r.pInfl <;> cases r.reqV <;> rfl

theorem pOut_eq (r : Regs) (j : Tx) (o : ROut) (hv : o.dcV = false) :
    (pOut (conc r j) o).abs = { o.abs with probe := probeReq r } := by
  unfold pOut
  rw [pAsk_eq]
  cases h : probeReq r with
  | none => simp [ROut.abs, hv]
  | some a =>
    simp only [Option.isSome_some, if_true]
    have : lineBase (conc r j).ppn (conc r j).reqIdx + (conc r j).pWord * 4#32 = a := by
      show lineBase (r.ppn.setWidth 32) (idxR r.reqPc) + BitVec.ofNat 32 r.pWord.val * 4#32 = a
      rw [lineBase_eq, word_addr]
      unfold probeReq at h
      split at h
      · exact Option.some.inj h
      · cases h
    rw [this]
    rfl

theorem pRegs_eq (r : Regs) (j : Tx) (i : RIn) (w : Regs) : pRegs (conc r j) i (conc w j) = conc (probeStep r i.abs w) j := by
  unfold pRegs probeStep
  rw [pAsk_eq, show (conc r j).pInfl = r.pInfl from rfl, show (conc r j).pWord = BitVec.ofNat 32 r.pWord.val from rfl]
  have h0 : (if (probeReq r).isSome = true then { conc w j with pInfl := true } else conc w j) =
      conc (if (probeReq r).isSome = true then { w with pInfl := true } else w) j := by
    split <;> rfl
  rw [h0]
  generalize (if (probeReq r).isSome = true then { w with pInfl := true } else w) = w
  cases hp : r.pInfl with
  | false => simp
  | true =>
    cases hv : i.dcV with
    | false =>
      rw [show i.abs.probe = none by simp [RIn.abs, hv]]
      simp
    | true =>
      cases hm : i.dcMiss with
      | true =>
        rw [show i.abs.probe = some none by simp [RIn.abs, hv, hm]]
        simp only [Bool.and_self, if_true]
        rfl
      | false =>
        rw [show i.abs.probe = some (some i.dcData) by simp [RIn.abs, hv, hm]]
        simp only [Bool.and_self, if_true, Bool.false_eq_true, if_false]
        by_cases hl : r.pWord.val + 1 < 16
        · rw [if_neg (fun h => (word_last r.pWord).mp h hl), dif_pos hl, setW_eq, word_next _ hl]
          rfl
        · rw [if_pos ((word_last r.pWord).mpr hl), dif_neg hl, setW_eq]
          rfl

theorem pRes_eq (r : Regs) (j : Tx) (i : RIn) (w : Regs) (h1 : w.pDone = r.pDone) (h2 : w.pHit = r.pHit) (h3 : w.pData = r.pData) :
    pRes (conc r j) i = ⟨(probeStep r i.abs w).pDone, (probeStep r i.abs w).pHit, (probeStep r i.abs w).pData⟩ := by
  have he := pRegs_eq r j i w
  have hd : (probeStep r i.abs w).pDone = (pRegs (conc r j) i (conc w j)).pDone := by rw [he]; rfl
  have hh : (probeStep r i.abs w).pHit = (pRegs (conc r j) i (conc w j)).pHit := by rw [he]; rfl
  have hl : (probeStep r i.abs w).pData = (pRegs (conc r j) i (conc w j)).pData := by rw [he]; rfl
  rw [hd, hh, hl]
  unfold pRes pRegs
  have k1 : (conc w j).pDone = (conc r j).pDone := h1
  have k2 : (conc w j).pHit = (conc r j).pHit := h2
  have k3 : (conc w j).pData = (conc r j).pData := h3
  cases (conc r j).pInfl && i.dcV <;> cases i.dcMiss <;> cases pAsk (conc r j) <;>
    simp only [if_true, if_false, Bool.false_eq_true, k1, k2, k3] <;> split <;> simp only [k1, k3]

/-- The probe leaves the rest. -/
theorem probeStep_tx (r : Regs) (i : In) (w : Regs) : (probeStep r i w).tx = w.tx ∧ (probeStep r i w).st = w.st ∧
    (probeStep r i w).busy = w.busy := by
  unfold probeStep
  split <;> (try split) <;> (try split) <;> exact ⟨rfl, rfl, rfl⟩

/-! ### What the pieces leave -/

/-- Outputs before an answer is given. -/
structure Quiet (r : Regs) (o : ROut) : Prop where
  respV : o.respV = false
  respPc : o.respPc = r.reqPc
  fault : o.fault = false
  ppnReady : o.ppnReady = false
  memV : o.memV = false
  al : (o.memAddr >>> 6) <<< 6 = o.memAddr
  miss : o.miss = false ∧ o.mmuV = false

theorem Quiet.pOut {r : Regs} {o : ROut} (h : Quiet r o) (j : Tx) : Quiet r (pOut (conc r j) o) := by
  unfold ICacheBits.pOut
  split
  · exact ⟨h.respV, h.respPc, h.fault, h.ppnReady, h.memV, h.al, h.miss⟩
  · exact h

theorem Quiet.taken {r : Regs} {o : ROut} (h : Quiet r o) : Quiet r { o with memRespReady := true } :=
  ⟨h.respV, h.respPc, h.fault, h.ppnReady, h.memV, h.al, h.miss⟩

theorem low32 (p : Ppn) : ((p.setWidth 32 : W32).setWidth 20 : Ppn) = p := by
  apply BitVec.eq_of_toNat_eq
  simp only [BitVec.toNat_setWidth]
  have := p.isLt
  omega

/-- What is being worked on in the middle of a miss; `gnt`, `respW`, `replN` change resp and repl at the end. -/
def mid (r : Regs) (j : Tx) (i : RIn) (wr : Regs) (o : ROut) : Wk := { Wk.start (conc r j) i with rw := conc wr j, o := o }

theorem latch_eq (w : Wk) (r : RRegs) (i : RIn) (h : w.o.ppnReady = false) : w.latch r i =
    { w with rw := if r.st == 1#32 && w.gnt then { w.rw with st := w.stN, axi := w.axiN, ready := w.rdy, resp := w.respW, repl := w.replN }
      else { w.rw with st := w.stN, axi := w.axiN, ready := w.rdy } } := by
  unfold Wk.latch
  simp only [h, Bool.and_false, Bool.false_eq_true, if_false]
  split <;> rfl

/-- The outputs without `ready`. -/
abbrev oabs (o : ROut) : Out := ({ o with ready := false } : ROut).abs

theorem oabs_answer {r : Regs} {o : ROut} (h : Quiet r o) (line : Line) :
    oabs { o with respV := true, rd := line } = { oabs o with resp := some (r.reqPc, some line) } := by
  unfold oabs ROut.abs
  simp only [h.respPc, h.fault, if_true, Bool.false_eq_true, if_false]

theorem swapC {r : Regs} (h : r.st = .swapIn) (j : Tx) (b : Bool) : ((conc r j).st == 1#32 && b) = b := by
  show (stC r.st == 1#32 && b) = b
  rw [h]; rfl

/-- The end of a miss when the line has just come. -/
theorem finish_gnt (r : Regs) (j : Tx) (i : RIn) (wr : Regs) (ro : ROut) (rep way : Way) (d line : Line) (sn : W32) (ax : Bool)
    (hst : r.st = .swapIn) (hq : Quiet r ro) :
    Agree ((finishR (conc r j) i { mid r j i wr ro with gnt := true, respW := d, replN := BitVec.ofNat 32 rep.val, stN := sn, axiN := ax } line
        (BitVec.ofNat 32 way.val)).latch (conc r j) i)
      (finish r i.abs { wr with resp := d, repl := rep } (oabs ro) line way) := by
  unfold finishR finish
  rw [show (conc r j).txV = r.tx.isSome from rfl, show (conc r j).tx = BitVec.ofNat 32 (r.tx.getD j).val from rfl,
    show i.abs.kill = i.refetch from rfl, show i.abs.flush = i.flush from rfl, show (conc r j).reqIdx = idxR r.reqPc from rfl,
    show (conc r j).ppn = r.ppn.setWidth 32 from rfl]
  have ha := oabs_answer hq line
  have hx := idxR_low r.reqPc
  cases htx : r.tx <;> cases hf : i.flush <;> cases hr : i.refetch <;>
    simp only [Option.isSome_some, Option.isSome_none, if_true, if_false, Bool.false_eq_true, Bool.not_true, Bool.not_false,
        Bool.and_self, Bool.and_false, Bool.false_and, setT_eq, txn_ofNat, Option.getD_some] <;>
    rw [latch_eq _ _ _ (by exact hq.ppnReady), swapC hst] <;>
    refine ⟨⟨wr.tx.getD j, rfl⟩, ?_, hq.al, ?_, fun _ => ?_, rfl, rfl, hq.miss⟩ <;>
    first
      | rfl
      | exact ha
      | (rename_i h; cases h; done)
      | (simp only [RTw.abs, Wk.noMiss, Wk.noProbe, mid, Wk.start, if_true, Bool.false_eq_true, if_false, wayN_ofNat, hx, hf, low32]; done)
      | (rename_i h; simp [Wk.noMiss, Wk.noProbe, mid, Wk.start] at h)

theorem notSwapC {r : Regs} (h : r.st ≠ .swapIn) (j : Tx) (b : Bool) : ((conc r j).st == 1#32 && b) = false := by
  show (stC r.st == 1#32 && b) = false
  rw [stC_swap, decide_eq_false h, Bool.false_and]

/-- The end of a miss when the line had come before. -/
theorem finish_old (r : Regs) (j : Tx) (i : RIn) (wr : Regs) (ro : ROut) (way : Way) (line : Line)
    (hst : r.st ≠ .swapIn) (hq : Quiet r ro) :
    Agree ((finishR (conc r j) i (mid r j i wr ro) line (BitVec.ofNat 32 way.val)).latch (conc r j) i)
      (finish r i.abs wr (oabs ro) line way) := by
  unfold finishR finish
  rw [show (conc r j).txV = r.tx.isSome from rfl, show (conc r j).tx = BitVec.ofNat 32 (r.tx.getD j).val from rfl,
    show i.abs.kill = i.refetch from rfl, show i.abs.flush = i.flush from rfl, show (conc r j).reqIdx = idxR r.reqPc from rfl,
    show (conc r j).ppn = r.ppn.setWidth 32 from rfl]
  have ha := oabs_answer hq line
  have hx := idxR_low r.reqPc
  cases htx : r.tx <;> cases hf : i.flush <;> cases hr : i.refetch <;>
    simp only [Option.isSome_some, Option.isSome_none, if_true, if_false, Bool.false_eq_true, Bool.not_true, Bool.not_false,
        Bool.and_self, Bool.and_false, Bool.false_and, setT_eq, txn_ofNat, Option.getD_some] <;>
    rw [latch_eq _ _ _ (by exact hq.ppnReady), notSwapC hst] <;>
    refine ⟨⟨wr.tx.getD j, rfl⟩, ?_, hq.al, ?_, fun _ => ?_, rfl, rfl, hq.miss⟩ <;>
    first
      | rfl
      | exact ha
      | (rename_i h; cases h; done)
      | (simp only [RTw.abs, Wk.noMiss, Wk.noProbe, mid, Wk.start, if_true, Bool.false_eq_true, if_false, wayN_ofNat, hx, hf, low32]; done)
      | (rename_i h; simp [Wk.noMiss, Wk.noProbe, mid, Wk.start] at h)

/-- The way to fill. -/
theorem fill_eq (r : Regs) (j : Tx) (m : RMeta) (l : Look) (hm : FreeIs m (freeWay l)) :
    (if (capMeta m false).inv then (capMeta m false).first else ((conc r j).repl + 1#32) % 8#32) = BitVec.ofNat 32 (fillWay r l).val := by
  rw [hm.inv]
  unfold fillWay
  cases h : freeWay l with
  | some w => simp only [Option.isSome_some, if_true]; exact hm.first w h
  | none =>
    simp only [Option.isSome_none, Bool.false_eq_true, if_false]
    show (BitVec.ofNat 32 r.repl.val + 1#32) % 8#32 = _
    generalize r.repl = x
    revert x; decide

/-- The line comes. -/
theorem got_sim (r : Regs) (j : Tx) (i : RIn) (m : RMeta) (l : Look) (wr : Regs) (ro : ROut) (sn : W32) (ax : Bool) (p : PStep) (t : Tx)
    (hst : r.st = .swapIn) (htx : r.tx = some t) (hq : Quiet r ro) (hm : FreeIs m (freeWay l)) (hwt : wr.tx = r.tx)
    (hp : p = ⟨wr.pDone, wr.pHit, wr.pData⟩) (w : Wk)
    (hw : w = latchR (conc r j) i m { mid r j i wr { ro with memRespReady := true } with stN := sn, axiN := ax }) :
    Agree ((if !p.done then awaitR (conc r j) w else finishR (conc r j) i w (if p.hit then p.line else w.respW) w.replN).latch (conc r j) i)
      (gotLine r i.abs l wr (oabs ro) i.mResp) := by
  have hw' : w = { mid r j i wr { ro with memRespReady := true } with gnt := true, respW := i.mResp, replN := BitVec.ofNat 32 (fillWay r l).val, stN := sn, axiN := ax } := by
    rw [hw]
    unfold latchR
    simp only [fill_eq r j m l hm]
  unfold gotLine
  have ho : ({ oabs ro with mRespReady := true } : Out) = oabs { ro with memRespReady := true } := rfl
  simp only [ho]
  subst hp
  cases hd : wr.pDone with
  | true =>
    simp only [Bool.not_true, Bool.false_eq_true, if_false, if_true]
    subst hw'
    have hfin := finish_gnt r j i wr _ (fillWay r l) (fillWay r l) i.mResp (if wr.pHit then wr.pData else i.mResp) sn ax hst hq.taken
    simpa only [hd] using hfin
  | false =>
    simp only [Bool.not_false, if_true, Bool.false_eq_true, if_false]
    subst hw'
    unfold awaitR
    rw [latch_eq _ _ _ (by exact hq.ppnReady), swapC hst]
    rw [show (conc r j).tx = BitVec.ofNat 32 (r.tx.getD j).val from rfl, htx]
    simp only [Option.getD_some, setT_eq, txn_ofNat, if_true]
    exact ⟨⟨t, by simp only [mid, Wk.start, conc, stC, hwt, htx, hd]; rfl⟩, rfl, hq.al, rfl, (fun h => by cases h), rfl, rfl, hq.miss⟩

/-- `SWAP_IN` with `kill_pipe`. -/
theorem swapKill_sim (r : Regs) (j : Tx) (i : RIn) (wr : Regs) (ro : ROut) (t : Tx)
    (htx : r.tx = some t) (hq : Quiet r ro) (hwt : wr.tx = r.tx) :
    Agree ((swapKillR (conc r j) i (mid r j i wr ro)).latch (conc r j) i)
      (if r.busy || accNow r i.abs then
        { r := { wr with canc := setB wr.canc t true, infl := setB wr.infl t true }.noMiss, o := oabs ro, tw := { inval := i.abs.flush }, rdy := true }
      else if r.seen || (!r.busy && i.abs.mReady && r.tx.isSome) then
        { r := { wr with st := .cancelWait, busy := false }.noProbe, o := oabs ro, tw := { inval := i.abs.flush }, rdy := false }
      else { r := wr.noMiss, o := oabs ro, tw := { inval := i.abs.flush }, rdy := true }) := by
  unfold swapKillR
  rw [accNowR_eq, show seenNow (conc r j) i = (!r.busy && i.mReady && r.tx.isSome) from rfl, show i.abs.mReady = i.mReady from rfl,
    show (conc r j).txV = r.tx.isSome from rfl, show (conc r j).axi = r.busy from rfl, show (conc r j).seen = r.seen from rfl,
    show (conc r j).tx = BitVec.ofNat 32 (r.tx.getD j).val from rfl, htx]
  simp only [Option.isSome_some, Bool.true_and, Bool.and_true, Option.getD_some, setT_eq, txn_ofNat]
  cases h1 : (r.busy || accNow r i.abs) with
  | true =>
    simp only [if_true]
    rw [latch_eq _ _ _ (by exact hq.ppnReady)]
    simp only [show ∀ w : Wk, w.noMiss.gnt = w.gnt from fun _ => rfl, show (mid r j i wr ro).gnt = false from rfl, Bool.and_false,
      Bool.false_eq_true, if_false]
    exact ⟨⟨t, by simp only [mid, Wk.start, Wk.noMiss, Wk.noProbe, Regs.noMiss, Regs.noProbe, conc, stC, hwt, htx]; rfl⟩, rfl, hq.al, rfl, (fun h => by cases h), rfl, rfl, hq.miss⟩
  | false =>
    simp only [Bool.false_eq_true, if_false, Bool.not_false, Bool.true_and]
    cases h2 : (r.seen || (!r.busy && i.mReady)) with
    | true =>
      simp only [if_true]
      rw [latch_eq _ _ _ (by exact hq.ppnReady)]
      simp only [show ∀ w : Wk, w.noProbe.gnt = w.gnt from fun _ => rfl, show (mid r j i wr ro).gnt = false from rfl, Bool.and_false,
        Bool.false_eq_true, if_false]
      exact ⟨⟨t, by simp only [mid, Wk.start, Wk.noProbe, Regs.noProbe, conc, stC, hwt, htx]; rfl⟩, rfl, hq.al, rfl, (fun h => by cases h), rfl, rfl, hq.miss⟩
    | false =>
      simp only [Bool.false_eq_true, if_false]
      rw [latch_eq _ _ _ (by exact hq.ppnReady)]
      simp only [show ∀ w : Wk, w.noMiss.gnt = w.gnt from fun _ => rfl, show (mid r j i wr ro).gnt = false from rfl, Bool.and_false,
        Bool.false_eq_true, if_false]
      exact ⟨⟨t, by simp only [mid, Wk.start, Wk.noMiss, Wk.noProbe, Regs.noMiss, Regs.noProbe, conc, stC, hwt, htx]; rfl⟩, rfl, hq.al, rfl, (fun h => by cases h), rfl, rfl, hq.miss⟩

/-- `CANCEL_WAIT_ACCEPT`. -/
theorem cancel_sim (r : Regs) (j : Tx) (i : RIn) (wr : Regs) (ro : ROut) (hst : r.st = .cancelWait) (hq : Quiet r ro) :
    Agree ((cancelR (conc r j) i (mid r j i wr ro)).latch (conc r j) i) (cancelStep r i.abs wr (oabs ro)) := by
  have hns : r.st ≠ .swapIn := by rw [hst]; decide
  unfold cancelR cancelStep
  have hm : ∀ t, (i.mAcc && true && (i.mAccId &&& 0xF#32) == (BitVec.ofNat 32 (Fin.val t) &&& 0xF#32)) = decide (i.abs.mAcc = some t) := by
    intro t
    rw [Bool.and_true, ofNat_and, mAcc_eq]
  rw [show (conc r j).txV = r.tx.isSome from rfl, show (conc r j).tx = BitVec.ofNat 32 (r.tx.getD j).val from rfl]
  have ho : oabs { ro with memV := false, memRespReady := true } = { oabs ro with mRespReady := true } := by
    unfold oabs ROut.abs; simp [hq.memV]
  cases htx : r.tx with
  | none =>
    simp only [Option.isSome_none, Bool.and_false, Bool.false_and, Bool.false_eq_true, if_false]
    rw [latch_eq _ _ _ (by exact hq.ppnReady), notSwapC hns]
    exact ⟨⟨wr.tx.getD j, rfl⟩, ho, hq.al, rfl, (fun h => by cases h), rfl, rfl, hq.miss⟩
  | some t =>
    simp only [Option.isSome_some, Option.getD_some, hm, setT_eq, txn_ofNat, decide_eq_true_eq]
    by_cases hx : i.abs.mAcc = some t
    · simp only [if_pos hx]
      rw [latch_eq _ _ _ (by exact hq.ppnReady), notSwapC hns]
      exact ⟨⟨wr.tx.getD j, rfl⟩, ho, hq.al, rfl, (fun h => by cases h), rfl, rfl, hq.miss⟩
    · simp only [if_neg hx]
      rw [latch_eq _ _ _ (by exact hq.ppnReady), notSwapC hns]
      exact ⟨⟨wr.tx.getD j, rfl⟩, ho, hq.al, rfl, (fun h => by cases h), rfl, rfl, hq.miss⟩

theorem mid_probe (r : Regs) (j : Tx) (i : RIn) (wr : Regs) (ro : ROut) :
    probeR (conc r j) i (mid r j i wr ro) = (mid r j i (probeStep r i.abs wr) (pOut (conc r j) ro), pRes (conc r j) i) := by
  rw [probeR_eq]
  show (({ mid r j i wr ro with rw := pRegs (conc r j) i (conc wr j), o := pOut (conc r j) ro } : Wk), _) = _
  rw [pRegs_eq]
  rfl

theorem oabs_pOut (r : Regs) (j : Tx) (o : ROut) (hv : o.dcV = false) : oabs (pOut (conc r j) o) = { oabs o with probe := probeReq r } := by
  have h := pOut_eq r j { o with ready := false } hv
  rw [← h]
  unfold oabs pOut
  split <;> rfl

/-- `WAIT_DCACHE_AFTER_MEM`. -/
theorem wait_sim (r : Regs) (j : Tx) (i : RIn) (wr : Regs) (ro : ROut) (hst : r.st = .waitDc) (hq : Quiet r ro) (hdc : ro.dcV = false)
    (h1 : wr.pDone = r.pDone) (h2 : wr.pHit = r.pHit) (h3 : wr.pData = r.pData) (h4 : wr.st = r.st) (h5 : wr.busy = r.busy) :
    Agree ((waitR (conc r j) i (mid r j i wr ro)).latch (conc r j) i) (waitStep r i.abs wr (oabs ro)) := by
  have hns : r.st ≠ .swapIn := by rw [hst]; decide
  unfold waitR waitStep
  rw [show i.abs.kill = i.refetch from rfl]
  cases hr : i.refetch with
  | true =>
    simp only [if_true]
    rw [latch_eq _ _ _ (by exact hq.ppnReady), notSwapC hns]
    exact ⟨⟨wr.tx.getD j, rfl⟩, rfl, hq.al, rfl, (fun h => by cases h), rfl, rfl, hq.miss⟩
  | false =>
    simp only [Bool.false_eq_true, if_false]
    rw [mid_probe, pRes_eq r j i wr h1 h2 h3]
    have ho := oabs_pOut r j ro hdc
    cases hd : (probeStep r i.abs wr).pDone with
    | false =>
      simp only [Bool.not_false, if_true, Bool.false_eq_true, if_false]
      rw [latch_eq _ _ _ (by exact (hq.pOut j).ppnReady), notSwapC hns]
      refine ⟨⟨j, ?_⟩, ho, (hq.pOut j).al, rfl, (fun h => by cases h), rfl, rfl, (hq.pOut j).miss⟩
      obtain ⟨_, e2, e3⟩ := probeStep_tx r i.abs wr
      simp only [mid, Wk.start, conc, stC, e2, e3, h4, h5, hst, Bool.false_eq_true, if_false]
    | true =>
      simp only [Bool.not_true, Bool.false_eq_true, if_false, if_true]
      rw [← ho]
      exact finish_old r j i _ _ r.repl _ hns (hq.pOut j)

end Verif.ICacheBits

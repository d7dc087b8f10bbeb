import Verif.Model.ICacheSys
/-
What one call of the instruction cache does, state by state.
-/
namespace Verif.ICache

/-- The observable result of a call. -/
structure Is (x : IC × Out) (r : Regs) (t : Tabs) (resp : Option (W32 × Option Line)) (mReq : Option (W32 × Tx)) (mrr : Bool)
    (probe : Option W32) (rdy : Bool) : Prop where
  r : x.1.r = r
  t : x.1.t = t
  resp : x.2.resp = resp
  mReq : x.2.mReq = mReq
  mrr : x.2.mRespReady = mrr
  probe : x.2.probe = probe
  rdy : x.1.outRdy = rdy

/-- An answer on the port is thrown away. -/
def dropped (r : Regs) (i : In) : Bool := cancResp r i || orphan r i

theorem cancResp_core (r : Regs) (i : TopIn) (x : Option Xlat) : cancResp r (i.core x) = cancResp r (i.core none) := rfl
theorem active_core (r : Regs) (i : TopIn) (x : Option Xlat) : active r (i.core x) = active r (i.core none) := rfl
theorem orphan_core (r : Regs) (i : TopIn) (x : Option Xlat) : orphan r (i.core x) = orphan r (i.core none) := rfl
theorem drop_core (r : Regs) (i : TopIn) (x : Option Xlat) : drop r (i.core x) = drop r (i.core none) := rfl

theorem Tabs.write_none (t : Tabs) : t.write { we := none, inval := false } = t := rfl

/-- The tables after a call that writes nothing. -/
def Tabs.flushed (t : Tabs) (b : Bool) : Tabs := t.write { inval := b }

theorem call_idle_kill {c : IC} {i : TopIn} (hk : i.kill = true) (hs : c.r.st = .idle) :
    Is (call c i) { drop c.r (i.core none) with reqV := false, ready := false } (c.t.flushed i.fenceI) none none
      (dropped c.r (i.core none)) none false := by
  constructor <;>
    simp [call, core, evalSm, hs, idleStep, TopIn.core, hk, lookup, drop_core, Tabs.flushed, dropped] <;> rfl

theorem call_wait_kill {c : IC} {i : TopIn} (hk : i.kill = true) (hs : c.r.st = .waitDc) :
    Is (call c i) { (drop c.r (i.core none)).noMiss with reqV := false, ready := false } (c.t.flushed i.fenceI) none none
      (dropped c.r (i.core none)) none false := by
  constructor <;>
    simp [call, core, evalSm, hs, waitStep, TopIn.core, hk, lookup, drop_core, Tabs.flushed, dropped] <;> rfl

/-- The registers after a kill in `SWAP_IN`. -/
def swapKill (r : Regs) (i : In) : Regs :=
  match r.tx with
  | some t =>
    if r.busy || accNow r i then
      { drop r i with canc := setB (drop r i).canc t true, infl := setB (drop r i).infl t true }.noMiss
    else if r.seen || i.mReady then { drop r i with st := .cancelWait, busy := false, seen := true }.noProbe
    else (drop r i).noMiss
  | none => (drop r i).noMiss

@[simp] theorem probeStep_canc (r : Regs) (i : In) (w : Regs) : (probeStep r i w).canc = w.canc := by
  unfold probeStep
  split <;> (try split) <;> (try split) <;> rfl
@[simp] theorem probeStep_infl (r : Regs) (i : In) (w : Regs) : (probeStep r i w).infl = w.infl := by
  unfold probeStep
  split <;> (try split) <;> (try split) <;> rfl
@[simp] theorem probeStep_reqV (r : Regs) (i : In) (w : Regs) : (probeStep r i w).reqV = w.reqV := by
  unfold probeStep
  split <;> (try split) <;> (try split) <;> rfl
@[simp] theorem probeStep_reqPc (r : Regs) (i : In) (w : Regs) : (probeStep r i w).reqPc = w.reqPc := by
  unfold probeStep
  split <;> (try split) <;> (try split) <;> rfl
@[simp] theorem probeStep_st (r : Regs) (i : In) (w : Regs) : (probeStep r i w).st = w.st := by
  unfold probeStep
  split <;> (try split) <;> (try split) <;> rfl
@[simp] theorem probeStep_busy (r : Regs) (i : In) (w : Regs) : (probeStep r i w).busy = w.busy := by
  unfold probeStep
  split <;> (try split) <;> (try split) <;> rfl
@[simp] theorem probeStep_resp (r : Regs) (i : In) (w : Regs) : (probeStep r i w).resp = w.resp := by
  unfold probeStep
  split <;> (try split) <;> (try split) <;> rfl
@[simp] theorem probeStep_repl (r : Regs) (i : In) (w : Regs) : (probeStep r i w).repl = w.repl := by
  unfold probeStep
  split <;> (try split) <;> (try split) <;> rfl
@[simp] theorem probeStep_ppn (r : Regs) (i : In) (w : Regs) : (probeStep r i w).ppn = w.ppn := by
  unfold probeStep
  split <;> (try split) <;> (try split) <;> rfl
@[simp] theorem probeStep_tx (r : Regs) (i : In) (w : Regs) : (probeStep r i w).tx = w.tx := by
  unfold probeStep
  split <;> (try split) <;> (try split) <;> rfl
@[simp] theorem probeStep_seen (r : Regs) (i : In) (w : Regs) : (probeStep r i w).seen = w.seen := by
  unfold probeStep
  split <;> (try split) <;> (try split) <;> rfl
@[simp] theorem probeStep_ready (r : Regs) (i : In) (w : Regs) : (probeStep r i w).ready = w.ready := by
  unfold probeStep
  split <;> (try split) <;> (try split) <;> rfl

@[simp] theorem drop_reqV (r : Regs) (i : In) : (drop r i).reqV = r.reqV := by
  unfold drop; split <;> (try split) <;> rfl
@[simp] theorem drop_reqPc (r : Regs) (i : In) : (drop r i).reqPc = r.reqPc := by
  unfold drop; split <;> (try split) <;> rfl
@[simp] theorem drop_st (r : Regs) (i : In) : (drop r i).st = r.st := by
  unfold drop; split <;> (try split) <;> rfl
@[simp] theorem drop_busy (r : Regs) (i : In) : (drop r i).busy = r.busy := by
  unfold drop; split <;> (try split) <;> rfl
@[simp] theorem drop_resp (r : Regs) (i : In) : (drop r i).resp = r.resp := by
  unfold drop; split <;> (try split) <;> rfl
@[simp] theorem drop_repl (r : Regs) (i : In) : (drop r i).repl = r.repl := by
  unfold drop; split <;> (try split) <;> rfl
@[simp] theorem drop_ppn (r : Regs) (i : In) : (drop r i).ppn = r.ppn := by
  unfold drop; split <;> (try split) <;> rfl
@[simp] theorem drop_tx (r : Regs) (i : In) : (drop r i).tx = r.tx := by
  unfold drop; split <;> (try split) <;> rfl
@[simp] theorem drop_seen (r : Regs) (i : In) : (drop r i).seen = r.seen := by
  unfold drop; split <;> (try split) <;> rfl
@[simp] theorem drop_ready (r : Regs) (i : In) : (drop r i).ready = r.ready := by
  unfold drop; split <;> (try split) <;> rfl
@[simp] theorem drop_pInfl (r : Regs) (i : In) : (drop r i).pInfl = r.pInfl := by
  unfold drop; split <;> (try split) <;> rfl
@[simp] theorem drop_pDone (r : Regs) (i : In) : (drop r i).pDone = r.pDone := by
  unfold drop; split <;> (try split) <;> rfl
@[simp] theorem drop_pHit (r : Regs) (i : In) : (drop r i).pHit = r.pHit := by
  unfold drop; split <;> (try split) <;> rfl
@[simp] theorem drop_pWord (r : Regs) (i : In) : (drop r i).pWord = r.pWord := by
  unfold drop; split <;> (try split) <;> rfl
@[simp] theorem drop_pData (r : Regs) (i : In) : (drop r i).pData = r.pData := by
  unfold drop; split <;> (try split) <;> rfl


theorem evalSm_swap_kill {a : Bool} {r : Regs} {i : In} {l : Look} (hk : i.kill = true) (hs : r.st = .swapIn) :
    ∃ b, evalSm a r i l = { r := swapKill r i, o := { mRespReady := dropped r i, probe := probeReq r }, tw := { inval := i.flush }, rdy := b } := by
  unfold evalSm
  rw [hs]
  simp only
  unfold swapStep swapKill
  simp only [hk, if_true]
  cases htx : r.tx with
  | none =>
    refine ⟨true, ?_⟩
    have : ∀ u v : Regs, u = v → ({ r := u, o := { mRespReady := dropped r i, probe := probeReq r }, tw := { inval := i.flush }, rdy := true } : Sm) =
        { r := v, o := { mRespReady := dropped r i, probe := probeReq r }, tw := { inval := i.flush }, rdy := true } := by
      rintro _ _ rfl; rfl
    apply this
    ext <;> simp [Regs.noMiss, Regs.noProbe]
  | some t =>
    simp only
    by_cases h1 : (r.busy || accNow r i) = true
    · rw [if_pos h1, if_pos h1]
      refine ⟨true, ?_⟩
      congr 1
      cases r.busy <;> cases i.mReady <;> ext <;> simp [Regs.noMiss, Regs.noProbe]
    · rw [if_neg h1, if_neg h1]
      have hb : r.busy = false := by simp only [Bool.or_eq_true, not_or, Bool.not_eq_true] at h1; exact h1.1
      simp only [hb, Bool.not_false, Bool.true_and, Option.isSome_some, Bool.and_true]
      by_cases h2 : (r.seen || i.mReady) = true
      · rw [if_pos h2, if_pos h2]
        refine ⟨false, ?_⟩
        congr 1
        cases h3 : i.mReady
        · have : r.seen = true := by rw [h3, Bool.or_false] at h2; exact h2
          ext <;> simp [Regs.noProbe, this]
        · ext <;> simp [Regs.noProbe]
      · rw [if_neg h2, if_neg h2]
        refine ⟨true, ?_⟩
        congr 1
        simp only [Bool.or_eq_true, not_or, Bool.not_eq_true] at h2
        rw [h2.2]
        ext <;> simp [Regs.noMiss, Regs.noProbe]

theorem call_swap_kill {c : IC} {i : TopIn} (hk : i.kill = true) (hs : c.r.st = .swapIn) :
    Is (call c i) { swapKill c.r (i.core none) with reqV := false, ready := false } (c.t.flushed i.fenceI) none none
      (dropped c.r (i.core none)) (probeReq c.r) false := by
  have hk' : ∀ x, (i.core x).kill = true := fun _ => hk
  unfold call core
  simp only
  generalize (if i.refetch = true then none else _ : Option Xlat) = x
  generalize dataIn c i _ = l
  obtain ⟨b, e⟩ := evalSm_swap_kill (a := true) (l := l) (hk' x) hs
  rw [e]
  simp only [lookup, hk', if_true]
  constructor <;> rfl

/-- The registers after `CANCEL_WAIT_ACCEPT`. -/
def cancelDone (r : Regs) (i : In) : Regs :=
  match r.tx with
  | some t => if i.mAcc = some t then
      { drop r i with canc := setB (drop r i).canc t true, infl := setB (drop r i).infl t true }.noMiss else (drop r i).noMiss
  | none => (drop r i).noMiss

theorem cancelStep_r (r : Regs) (i : In) (o : Out) : cancelStep r i (drop r i) o =
    { r := cancelDone r i, o := { o with mRespReady := true }, tw := { inval := i.flush }, rdy := true } := by
  unfold cancelStep cancelDone
  cases r.tx with
  | none => rfl
  | some t =>
    simp only
    split <;> rfl

theorem call_cancel {c : IC} {i : TopIn} (hs : c.r.st = .cancelWait) :
    Is (call c i) { cancelDone c.r (i.core none) with reqV := false, ready := !i.kill } (c.t.flushed i.fenceI) none none
      true none (!i.kill) := by
  unfold call core
  simp only
  generalize (if i.refetch = true then none else _ : Option Xlat) = x
  generalize dataIn c i _ = l
  have e : evalSm true c.r (i.core x) l = { r := cancelDone c.r (i.core none), o := { mRespReady := true }, tw := { inval := i.fenceI }, rdy := true } := by
    unfold evalSm
    rw [hs]
    simp only [cancelStep_r]
    rfl
  rw [e]
  have hsi : slotIdle c.r = false := by simp [slotIdle, hs]
  have hkk : (i.core x).kill = i.kill := rfl
  unfold lookup
  simp only [hkk, hsi]
  cases i.kill <;> constructor <;> simp [Tabs.flushed]

/-- The result of `SWAP_IN` without a kill. -/
def swapOut (c : IC) (i : TopIn) : Sm :=
  swapStep c.r (i.core none) (metaIn c i) (drop c.r (i.core none)) { mRespReady := dropped c.r (i.core none) }

/-- The result of `WAIT_DCACHE_AFTER_MEM` without a kill. -/
def waitOut (c : IC) (i : TopIn) : Sm :=
  waitStep c.r (i.core none) (drop c.r (i.core none)) { mRespReady := dropped c.r (i.core none) }

theorem swapStep_core (r : Regs) (i : TopIn) (x : Option Xlat) (l : Look) (w : Regs) (o : Out) :
    swapStep r (i.core x) l w o = swapStep r (i.core none) l w o := rfl

theorem finish_dataReq {r : Regs} {i : In} {w : Regs} {o : Out} {d : Line} {y : Way} : (finish r i w o d y).o.dataReq = o.dataReq ∧
    (finish r i w o d y).o.ask = o.ask ∧ (finish r i w o d y).fast = false := by
  unfold finish
  dsimp only
  cases (!i.kill && !i.flush) <;> exact ⟨rfl, rfl, rfl⟩

theorem gotLine_dataReq {r : Regs} {i : In} {l : Look} {w : Regs} {o : Out} {d : Line} : (gotLine r i l w o d).o.dataReq = o.dataReq ∧
    (gotLine r i l w o d).o.ask = o.ask ∧ (gotLine r i l w o d).fast = false := by
  unfold gotLine
  dsimp only
  split
  · exact finish_dataReq
  · exact ⟨rfl, rfl, rfl⟩

theorem swapStep_dataReq {r : Regs} {i : In} {l : Look} {w : Regs} {o : Out} : (swapStep r i l w o).o.dataReq = o.dataReq ∧
    (swapStep r i l w o).o.ask = o.ask ∧ (swapStep r i l w o).fast = false := by
  unfold swapStep
  dsimp only
  repeat' split
  all_goals first
    | exact ⟨rfl, rfl, rfl⟩
    | exact gotLine_dataReq

theorem waitStep_dataReq {r : Regs} {i : In} {w : Regs} {o : Out} : (waitStep r i w o).o.dataReq = o.dataReq ∧
    (waitStep r i w o).o.ask = o.ask ∧ (waitStep r i w o).fast = false := by
  unfold waitStep
  dsimp only
  repeat' split
  all_goals first
    | exact ⟨rfl, rfl, rfl⟩
    | exact finish_dataReq

theorem lookup_dataReq (r : Regs) (i : In) (s : Sm) : (lookup r i s).2.dataReq = s.o.dataReq := by
  unfold lookup
  repeat' split
  all_goals rfl

theorem dataIn_none (c : IC) (i : TopIn) : dataIn c i none = metaIn c i := by
  unfold dataIn
  dsimp only
  cases (metaIn c i).tags <;> rfl

theorem call_swap {c : IC} {i : TopIn} (hk : i.kill = false) (hs : c.r.st = .swapIn) :
    Is (call c i) { (swapOut c i).r with reqV := if (swapOut c i).rdy then false else c.r.reqV, ready := (swapOut c i).rdy }
      (c.t.write (swapOut c i).tw) (swapOut c i).o.resp (swapOut c i).o.mReq (swapOut c i).o.mRespReady (swapOut c i).o.probe
      (swapOut c i).rdy := by
  unfold call core
  simp only
  generalize (if i.refetch = true then none else _ : Option Xlat) = x
  have e : ∀ a l, evalSm a c.r (i.core x) l = swapStep c.r (i.core none) l (drop c.r (i.core none)) { mRespReady := dropped c.r (i.core none) } := by
    intro a l
    unfold evalSm
    rw [hs]
    rfl
  have hd : (lookup c.r (i.core x) (evalSm false c.r (i.core x) (metaIn c i))).2.dataReq = none := by
    rw [lookup_dataReq, e, swapStep_dataReq.1]
  rw [hd, dataIn_none, e]
  change Is (_, _) _ _ _ _ _ _ _
  have hsi : slotIdle c.r = false := by simp [slotIdle, hs]
  have hf : (swapOut c i).fast = false := swapStep_dataReq.2.2
  have hkk : (i.core x).kill = false := hk
  unfold lookup
  simp only [hkk, hsi, Bool.false_eq_true, if_false, Bool.and_false]
  unfold swapOut at hf ⊢
  simp only [hf, Bool.false_eq_true, if_false]
  constructor <;> simp
  exact Or.inl

theorem call_wait {c : IC} {i : TopIn} (hk : i.kill = false) (hs : c.r.st = .waitDc) :
    Is (call c i) { (waitOut c i).r with reqV := if (waitOut c i).rdy then false else c.r.reqV, ready := (waitOut c i).rdy }
      (c.t.write (waitOut c i).tw) (waitOut c i).o.resp (waitOut c i).o.mReq (waitOut c i).o.mRespReady (waitOut c i).o.probe
      (waitOut c i).rdy := by
  unfold call core
  simp only
  generalize (if i.refetch = true then none else _ : Option Xlat) = x
  have e : ∀ a l, evalSm a c.r (i.core x) l = waitStep c.r (i.core none) (drop c.r (i.core none)) { mRespReady := dropped c.r (i.core none) } := by
    intro a l
    unfold evalSm
    rw [hs]
    rfl
  rw [e]
  have hsi : slotIdle c.r = false := by simp [slotIdle, hs]
  have hf : (waitOut c i).fast = false := waitStep_dataReq.2.2
  have hkk : (i.core x).kill = false := hk
  unfold lookup
  simp only [hkk, hsi, Bool.false_eq_true, if_false, Bool.and_false]
  unfold waitOut at hf ⊢
  simp only [hf, Bool.false_eq_true, if_false]
  constructor <;> simp
  exact Or.inl

/-! ### `IDLE` -/

/-- The way of the set that holds the page. -/
def tabWay (t : Tabs) (x : Idx) (p : Ppn) : Option Way :=
  (List.finRange 8).find? fun w => decide ((if t.valid x w then some (t.tag x w) else none) = some p)

theorem tabWay_some {t : Tabs} {x : Idx} {p : Ppn} {w : Way} (h : tabWay t x p = some w) : t.valid x w = true ∧ t.tag x w = p := by
  have := List.find?_some h
  simp only [decide_eq_true_eq] at this
  split at this
  · rename_i hv; exact ⟨hv, by simpa using this⟩
  · cases this

/-- What an idle cache with a registered request does. -/
structure RegIs (c : IC) (i : TopIn) (x : IC × Out) : Prop where
  retry : i.mmu (vpnOf c.r.reqPc) = none →
    Is x { drop c.r (i.core none) with ready := false } c.t none none (dropped c.r (i.core none)) none false
  fault : i.mmu (vpnOf c.r.reqPc) = some .fault →
    Is x { drop c.r (i.core none) with reqV := false, ready := true } c.t (some (c.r.reqPc, none)) none
      (dropped c.r (i.core none)) none true
  hit : ∀ p w, i.mmu (vpnOf c.r.reqPc) = some (.page p) → tabWay c.t (idxOf c.r.reqPc) p = some w →
    Is x { drop c.r (i.core none) with reqV := false, ready := true, ppn := p } c.t
      (some (c.r.reqPc, some (c.t.data (idxOf c.r.reqPc) w))) none (dropped c.r (i.core none)) none true
  full : ∀ p, i.mmu (vpnOf c.r.reqPc) = some (.page p) → tabWay c.t (idxOf c.r.reqPc) p = none → freeTx c.r = none →
    Is x { drop c.r (i.core none) with ready := false, ppn := p } c.t none none (dropped c.r (i.core none)) none false
  miss : ∀ p t, i.mmu (vpnOf c.r.reqPc) = some (.page p) → tabWay c.t (idxOf c.r.reqPc) p = none → freeTx c.r = some t →
    Is x { (drop c.r (i.core none)).noProbe with ready := false, ppn := p, tx := some t, seen := false, st := .swapIn } c.t none none
      (dropped c.r (i.core none)) none false

theorem kill_false {i : TopIn} (hk : i.kill = false) : i.refetch = false ∧ i.inval = false ∧ i.fenceI = false := by
  simp only [TopIn.kill, Bool.or_eq_false_iff] at hk
  exact ⟨hk.1.1, hk.1.2, hk.2⟩

theorem metaIn_reg {c : IC} {i : TopIn} (hk : i.kill = false) (hv : c.r.reqV = true) :
    metaIn c i = { tags := some fun w => if c.t.valid (idxOf c.r.reqPc) w then some (c.t.tag (idxOf c.r.reqPc) w) else none, data := none } := by
  simp [metaIn, readIdx, hv, (kill_false hk).1]

theorem evalSm_idle {r : Regs} {i : TopIn} (hs : r.st = .idle) (a : Bool) (x : Option Xlat) (l : Look) :
    evalSm a r (i.core x) l = idleStep a r (i.core x) l (drop r (i.core none)) { mRespReady := dropped r (i.core none) } := by
  unfold evalSm
  rw [hs]
  rfl

theorem call_reg {c : IC} {i : TopIn} (hk : i.kill = false) (hs : c.r.st = .idle) (ht : c.r.tx = none) (hv : c.r.reqV = true) :
    RegIs c i (call c i) := by
  have hm := metaIn_reg hk hv
  have hsi : slotIdle c.r = false := by simp [slotIdle, hv]
  have hkk : ∀ x, (i.core x).kill = false := fun _ => hk
  have hfl : ∀ x, (i.core x).flush = false := fun _ => (kill_false hk).2.2
  have hxl : ∀ x, (i.core x).xl = x := fun _ => rfl
  have ev := evalSm_idle (i := i) hs
  have hask : (core false c.r (i.core none) (metaIn c i)).2.1.ask = some (vpnOf c.r.reqPc) := by
    unfold core
    simp only [ev]
    unfold idleStep
    simp only [hkk, hv, hxl, Bool.false_eq_true, if_false, if_true]
    unfold lookup
    simp [hkk, hsi, hv, hxl]
  have hx : (if i.refetch = true then none else ((core false c.r (i.core none) (metaIn c i)).2.1.ask).bind i.mmu) = i.mmu (vpnOf c.r.reqPc) := by
    rw [hask, (kill_false hk).1]; rfl
  have hw : ∀ p, hitWay (metaIn c i) p = tabWay c.t (idxOf c.r.reqPc) p := by
    intro p; rw [hm]; rfl
  have hrd : readIdx c i = idxOf c.r.reqPc := by simp [readIdx, hv]
  have hdn : ∀ q, hitData false q = fun _ => none := by
    intro q; funext w; unfold hitData; split <;> simp
  constructor
  · intro hmmu
    unfold call
    simp only [hx, hmmu]
    unfold core
    simp only [ev]
    unfold idleStep
    simp only [hkk, hv, Bool.false_eq_true, if_false, if_true, hxl, hfl]
    unfold lookup
    constructor <;> simp [hkk, hsi, hv, Tabs.write_none]
  · intro hmmu
    unfold call
    simp only [hx, hmmu]
    unfold core
    simp only [ev]
    unfold idleStep
    simp only [hkk, hv, Bool.false_eq_true, if_false, if_true, hxl, hfl]
    unfold lookup
    constructor <;> simp [hkk, hsi, Tabs.write_none]
  · intro p w hmmu htab
    have hq : (core false c.r (i.core (some (.page p))) (metaIn c i)).2.1.dataReq = some (idxOf c.r.reqPc, w) := by
      unfold core
      simp only [ev, lookup_dataReq]
      unfold idleStep
      simp only [hkk, hv, Bool.false_eq_true, if_false, if_true, hxl, regPath, hw, htab, hdn]
    have hl : dataIn c i (some (idxOf c.r.reqPc, w)) =
        { metaIn c i with data := some (w, c.t.data (idxOf c.r.reqPc) w) } := by
      unfold dataIn
      rw [hm, hrd]
      simp
    have hw' : hitWay { metaIn c i with data := some (w, c.t.data (idxOf c.r.reqPc) w) } p = some w := by
      rw [← htab, ← hw]; rfl
    unfold call
    simp only [hx, hmmu, hq, hl]
    unfold core
    simp only [ev]
    unfold idleStep
    simp only [hkk, hv, Bool.false_eq_true, if_false, if_true, hxl, regPath, hw', hitData, hfl, decide_true, Bool.and_self]
    unfold lookup
    constructor <;> simp [hkk, hsi, Tabs.write_none]
  · intro p hmmu htab hfr
    have hq : (core false c.r (i.core (some (.page p))) (metaIn c i)).2.1.dataReq = none := by
      unfold core
      simp only [ev, lookup_dataReq]
      unfold idleStep
      simp only [hkk, hv, Bool.false_eq_true, if_false, if_true, hxl, regPath, hw, htab, ht, hfr, Option.or]
    unfold call
    simp only [hx, hmmu, hq, dataIn_none]
    unfold core
    simp only [ev]
    unfold idleStep
    simp only [hkk, hv, Bool.false_eq_true, if_false, if_true, hxl, regPath, hw, htab, ht, hfr, Option.or, hfl]
    unfold lookup
    constructor <;> simp [hkk, hsi, hv, Tabs.write_none]
  · intro p t hmmu htab hfr
    have hq : (core false c.r (i.core (some (.page p))) (metaIn c i)).2.1.dataReq = none := by
      unfold core
      simp only [ev, lookup_dataReq]
      unfold idleStep
      simp only [hkk, hv, Bool.false_eq_true, if_false, if_true, hxl, regPath, hw, htab, ht, hfr, Option.or]
    unfold call
    simp only [hx, hmmu, hq, dataIn_none]
    unfold core
    simp only [ev]
    unfold idleStep
    simp only [hkk, hv, Bool.false_eq_true, if_false, if_true, hxl, regPath, hw, htab, ht, hfr, Option.or, hfl]
    unfold lookup
    constructor <;> simp [hkk, hsi, hv, Tabs.write_none]
    simp [hv, Regs.noProbe]

/-- What an idle cache without a registered request does. -/
structure FastIs (c : IC) (i : TopIn) (x : IC × Out) : Prop where
  none_ : i.req = none →
    Is x { drop c.r (i.core none) with reqV := false, ready := true } c.t none none (dropped c.r (i.core none)) none true
  retry : ∀ pc, i.req = some pc → i.mmu (vpnOf pc) = none →
    Is x { drop c.r (i.core none) with reqV := true, reqPc := pc, ready := false } c.t none none (dropped c.r (i.core none)) none true
  fault : ∀ pc, i.req = some pc → i.mmu (vpnOf pc) = some .fault →
    Is x { drop c.r (i.core none) with reqV := false, ready := true } c.t (some (pc, none)) none
      (dropped c.r (i.core none)) none true
  hit : ∀ pc p w, i.req = some pc → i.mmu (vpnOf pc) = some (.page p) → tabWay c.t (idxOf pc) p = some w →
    Is x { drop c.r (i.core none) with reqV := false, ready := true } c.t
      (some (pc, some (c.t.data (idxOf pc) w))) none (dropped c.r (i.core none)) none true
  miss : ∀ pc p, i.req = some pc → i.mmu (vpnOf pc) = some (.page p) → tabWay c.t (idxOf pc) p = none →
    Is x { drop c.r (i.core none) with reqV := true, reqPc := pc, ready := false } c.t none none (dropped c.r (i.core none)) none true

theorem call_fast {c : IC} {i : TopIn} (hk : i.kill = false) (hs : c.r.st = .idle) (ht : c.r.tx = none) (hb : c.r.busy = false)
    (hv : c.r.reqV = false) : FastIs c i (call c i) := by
  have hsi : slotIdle c.r = true := by simp [slotIdle, hv, hs, ht, hb]
  have hkk : ∀ x, (i.core x).kill = false := fun _ => hk
  have hfl : ∀ x, (i.core x).flush = false := fun _ => (kill_false hk).2.2
  have hxl : ∀ x, (i.core x).xl = x := fun _ => rfl
  have hrq : ∀ x, (i.core x).req = i.req := fun _ => rfl
  have ev := evalSm_idle (i := i) hs
  constructor
  · intro hr
    have e : ∀ a x l, idleStep a c.r (i.core x) l (drop c.r (i.core none)) { mRespReady := dropped c.r (i.core none) } =
        { r := drop c.r (i.core none), o := { mRespReady := dropped c.r (i.core none) }, tw := {}, rdy := true } := by
      intro a x l
      unfold idleStep
      simp only [hkk, hv, Bool.false_eq_true, if_false, hxl, hfl, hrq, hr]
    unfold call core
    simp only [ev, e]
    unfold lookup
    constructor <;> simp [hkk, hsi, hrq, hr, Tabs.write_none]
  all_goals
    intro pc
  · intro hr hmmu
    have hask : (core false c.r (i.core none) (metaIn c i)).2.1.ask = some (vpnOf pc) := by
      unfold core
      simp only [ev]
      unfold idleStep
      simp only [hkk, hv, hxl, hrq, hr, Bool.false_eq_true, if_false]
      unfold lookup
      simp [hkk, hsi, hrq, hr]
    have hx : (if i.refetch = true then none else ((core false c.r (i.core none) (metaIn c i)).2.1.ask).bind i.mmu) = i.mmu (vpnOf pc) := by
      rw [hask, (kill_false hk).1]; rfl
    unfold call
    simp only [hx, hmmu]
    unfold core
    simp only [ev]
    unfold idleStep
    simp only [hkk, hv, Bool.false_eq_true, if_false, hxl, hfl, hrq, hr]
    unfold lookup
    constructor <;> simp [hkk, hsi, hrq, hr, Tabs.write_none]
  · intro hr hmmu
    have hask : (core false c.r (i.core none) (metaIn c i)).2.1.ask = some (vpnOf pc) := by
      unfold core
      simp only [ev]
      unfold idleStep
      simp only [hkk, hv, hxl, hrq, hr, Bool.false_eq_true, if_false]
      unfold lookup
      simp [hkk, hsi, hrq, hr]
    have hx : (if i.refetch = true then none else ((core false c.r (i.core none) (metaIn c i)).2.1.ask).bind i.mmu) = i.mmu (vpnOf pc) := by
      rw [hask, (kill_false hk).1]; rfl
    unfold call
    simp only [hx, hmmu]
    unfold core
    simp only [ev]
    unfold idleStep
    simp only [hkk, hv, Bool.false_eq_true, if_false, hxl, hfl, hrq, hr]
    unfold lookup
    constructor <;> simp [hkk, Tabs.write_none]
  · intro p w hr hmmu htab
    have hask : (core false c.r (i.core none) (metaIn c i)).2.1.ask = some (vpnOf pc) := by
      unfold core
      simp only [ev]
      unfold idleStep
      simp only [hkk, hv, hxl, hrq, hr, Bool.false_eq_true, if_false]
      unfold lookup
      simp [hkk, hsi, hrq, hr]
    have hx : (if i.refetch = true then none else ((core false c.r (i.core none) (metaIn c i)).2.1.ask).bind i.mmu) = i.mmu (vpnOf pc) := by
      rw [hask, (kill_false hk).1]; rfl
    have hrd : readIdx c i = idxOf pc := by simp [readIdx, hv, hr]
    have hm : metaIn c i = { tags := some fun w => if c.t.valid (idxOf pc) w then some (c.t.tag (idxOf pc) w) else none, data := none } := by
      simp [metaIn, hrd, hr, (kill_false hk).1]
    have hw : hitWay (metaIn c i) p = some w := by rw [hm, ← htab]; rfl
    have hdn : ∀ q, hitData false q = fun _ => none := by
      intro q; funext w; unfold hitData; split <;> simp
    have hq : (core false c.r (i.core (some (.page p))) (metaIn c i)).2.1.dataReq = some (idxOf pc, w) := by
      unfold core
      simp only [ev, lookup_dataReq]
      unfold idleStep
      simp only [hkk, hv, Bool.false_eq_true, if_false, hxl, hrq, hr, hw, hdn]
    have hl : dataIn c i (some (idxOf pc, w)) = { metaIn c i with data := some (w, c.t.data (idxOf pc) w) } := by
      unfold dataIn
      rw [hm, hrd]
      simp
    have hw' : hitWay { metaIn c i with data := some (w, c.t.data (idxOf pc) w) } p = some w := by
      rw [← hw]; rfl
    unfold call
    simp only [hx, hmmu, hq, hl]
    unfold core
    simp only [ev]
    unfold idleStep
    simp only [hkk, hv, Bool.false_eq_true, if_false, hxl, hrq, hr, hw', hitData, hfl, decide_true, Bool.and_self, if_true]
    unfold lookup
    constructor <;> simp [hkk, Tabs.write_none]
  · intro p hr hmmu htab
    have hask : (core false c.r (i.core none) (metaIn c i)).2.1.ask = some (vpnOf pc) := by
      unfold core
      simp only [ev]
      unfold idleStep
      simp only [hkk, hv, hxl, hrq, hr, Bool.false_eq_true, if_false]
      unfold lookup
      simp [hkk, hsi, hrq, hr]
    have hx : (if i.refetch = true then none else ((core false c.r (i.core none) (metaIn c i)).2.1.ask).bind i.mmu) = i.mmu (vpnOf pc) := by
      rw [hask, (kill_false hk).1]; rfl
    have hrd : readIdx c i = idxOf pc := by simp [readIdx, hv, hr]
    have hm : metaIn c i = { tags := some fun w => if c.t.valid (idxOf pc) w then some (c.t.tag (idxOf pc) w) else none, data := none } := by
      simp [metaIn, hrd, hr, (kill_false hk).1]
    have hw : hitWay (metaIn c i) p = none := by rw [hm, ← htab]; rfl
    have hq : (core false c.r (i.core (some (.page p))) (metaIn c i)).2.1.dataReq = none := by
      unfold core
      simp only [ev, lookup_dataReq]
      unfold idleStep
      simp only [hkk, hv, Bool.false_eq_true, if_false, hxl, hrq, hr, hw]
    unfold call
    simp only [hx, hmmu, hq, dataIn_none]
    unfold core
    simp only [ev]
    unfold idleStep
    simp only [hkk, hv, Bool.false_eq_true, if_false, hxl, hrq, hr, hw, hfl]
    unfold lookup
    constructor <;> simp [hkk, hsi, hrq, hr, Tabs.write_none]

end Verif.ICache

import Verif.Proofs.TlbKernelLane
import Verif.Spec.TlbKernel

/-
The TLB through the arrays of bits stays in step with the rules.
-/
namespace Verif.TlbKernel
open Verif.Tlb (Ctx Result Ask Entry Walk Refill LaneOut Mid)

theorem eff_lt (c : Ctx) (t : Nat) : c.eff t < 4 := by
  simp only [Tlb.Ctx.eff]; split <;> exact Nat.mod_lt _ (by omega)

/-! ### The rules keep fields small -/

theorem lane_fits {cap repl : Nat} {c : Ctx} {q : Ask} {look : Option Entry} {walk : Option Walk} {refill : Option Refill}
    {v : Ptw.View} (hq : q.type < 4) (hw : WalkFits walk) (hf : RefillFits cap refill) (hc : 0 < cap) :
    WalkFits (Tlb.lane cap repl c q look walk refill v).walk ∧ RefillFits cap (Tlb.lane cap repl c q look walk refill v).refill := by
  have hnone : WalkFits none := fun _ h => nomatch h
  unfold Tlb.lane
  split
  · exact ⟨hw, hf⟩
  · split
    · split <;> exact ⟨hw, hf⟩
    · split
      · exact ⟨hw, hf⟩
      · rename_i w ho
        have hwo : w.type < 4 ∧ w.eff < 4 := by
          cases walk with
          | none =>
            simp only [Tlb.ownWalk, Option.some.injEq] at ho
            subst ho
            exact ⟨hq, eff_lt c _⟩
          | some w0 =>
            simp only [Tlb.ownWalk] at ho
            split at ho
            · cases ho
            · cases ho; exact hw w rfl
        have hws : WalkFits (some w) := fun x h => by cases h; exact hwo
        split
        · split
          · exact ⟨hws, hf⟩
          · exact ⟨fun x h => by cases h; exact hwo, hf⟩
        · split
          · exact ⟨hws, hf⟩
          · split
            · exact ⟨hws, hf⟩
            · unfold Tlb.finishWalk
              split
              · exact ⟨hnone, hf⟩
              · split
                · exact ⟨hnone, hf⟩
                · exact ⟨hnone, fun x h => by cases h; exact Nat.mod_lt _ hc⟩

/-! ### The look-up -/

theorem lookupTable_eq (cap : Nat) (tab : Nat → Option Entry) (v satp : BitVec 32) :
    lookupTable cap (fun i => KEntry.of (tab i)) v (asidOf satp) = KLookup.of (Tlb.lookup cap tab v (Tlb.asidOf satp)) := by
  unfold lookupTable Tlb.lookup
  generalize List.range cap = l
  induction l with
  | nil => rfl
  | cons a l ih =>
    simp only [List.find?_cons, List.findSome?_cons, entryMatches_eq] at ih ⊢
    cases ht : tab a with
    | none => simpa using ih
    | some e =>
      cases hh : e.hits v (Tlb.asidOf satp)
      · simpa [hh] using ih
      · simp [hh, ht, KLookup.of]

/-! ### The loop -/

structure AccRel (cap : Nat) (l : Tlb.Loop) (a : Acc) : Prop where
  walk : a.walk = KWalk.of l.walk
  refill : a.refill = KRefill.of cap l.refill
  view : a.view.Shows l.view
  req : ∃ t < 4, a.req = KReq.of (l.req.map (·, t))
  consumed : a.consumed = l.consumed
  wfits : WalkFits l.walk
  rfits : RefillFits cap l.refill

theorem Shows.quiet {k : KView} {v : Ptw.View} (hr : k.ready = v.ready) (hv : k.respValid = false) (h : v.resp = none) : k.Shows v :=
  ⟨hr, by rw [hv, h]; rfl, (fun _ e => by rw [h] at e; cases e), (fun _ e => by rw [h] at e; cases e),
    (fun _ e => by rw [h] at e; cases e), (fun _ e => by rw [h] at e; cases e), (fun _ e => by rw [h] at e; cases e)⟩

theorem Shows.noResp {k : KView} {v : Ptw.View} (h : k.Shows v) : KView.Shows { k with respValid := false } { v with resp := none } :=
  Shows.quiet h.ready rfl rfl

theorem AccRel.next {cap : Nat} {l : Tlb.Loop} {a : Acc} (h : AccRel cap l a) {o : LaneOut} {k : CoreOut} (ho : OutRel cap o k)
    (hw : WalkFits o.walk) (hf : RefillFits cap o.refill) : AccRel cap (l.next o) (a.next k) := by
  obtain ⟨t, ht, hreq⟩ := ho.req
  have hv : k.req.valid = o.req.isSome := by
    rw [hreq]; cases o.req <;> rfl
  refine ⟨ho.walk, ho.refill, ?_, ?_, ?_, hw, hf⟩
  · simp only [Acc.next, Tlb.Loop.next, hv, ho.consumed]
    have h1 : KView.Shows (if o.req.isSome = true then { a.view with ready := false, respValid := false } else a.view)
        (if o.req.isSome = true then { ready := false, resp := none } else l.view) := by
      cases o.req.isSome
      · exact h.view
      · exact Shows.quiet rfl rfl rfl
    cases o.consumed
    · exact h1
    · exact Shows.noResp h1
  · simp only [Acc.next, Tlb.Loop.next, hv]
    cases hr : o.req with
    | none => exact h.req
    | some r =>
      refine ⟨t, ht, ?_⟩
      simp only [Option.isSome_some, if_true]
      rw [hreq, hr]
  · simp only [Acc.next, Tlb.Loop.next, h.consumed, ho.consumed]

/-- The input of the loop stands for the rules' context. -/
structure TopRel (cap repl : Nat) (c : Ctx) (i : TopIn) : Prop where
  satp : i.satp = c.satp
  priv : trunc 2 i.priv = trunc 2 (BitVec.ofNat 32 c.priv)
  mxr : i.mxr = c.mxr
  sum : i.sum = c.sum
  mprv : i.mprv = c.mprv
  mpp : trunc 2 i.mpp = trunc 2 (BitVec.ofNat 32 c.mpp)
  repl : i.repl = BitVec.ofNat 32 repl

/-- A port after the way through the array. -/
def seenPort (cap : Nat) (tab : Nat → Option Entry) (satp : BitVec 32) (p : Bool × BitVec 32) : PortIn :=
  { valid := p.1, vaddr := p.2, lookup := if p.1 then KLookup.of (Tlb.lookup cap tab p.2 (Tlb.asidOf satp)) else {} }

theorem loop_rel {cap repl : Nat} {c : Ctx} {i : TopIn} (d : Bool) (ldu : Nat) (tab : Nat → Option Entry) (hi : TopRel cap repl c i)
    (hc : 0 < cap) (hc' : cap < 2 ^ 31) (hr : repl < cap) : ∀ (ps : List (Bool × BitVec 32)) (k : Nat) (l : Tlb.Loop) (a : Acc),
    AccRel cap l a →
    AccRel cap (Tlb.runLanes cap repl tab c l (asks d ldu k ps)).1 (topLoop cap d ldu i k a (ps.map (seenPort cap tab c.satp))).1 ∧
    (topLoop cap d ldu i k a (ps.map (seenPort cap tab c.satp))).2.map PortOut.answer
      = (Tlb.runLanes cap repl tab c l (asks d ldu k ps)).2 := by
  intro ps
  induction ps with
  | nil => intro k l a h; exact ⟨h, rfl⟩
  | cons p ps ih =>
    intro k l a h
    obtain ⟨pv, pa⟩ := p
    cases pv with
    | false =>
      simp only [List.map_cons, topLoop, asks, seenPort, Tlb.runLanes, Bool.false_eq_true, if_false]
      have hn : a.next (coreComb (laneIn cap (portType d ldu k) i a { valid := false, vaddr := pa })) = a := by
        simp [coreComb, laneIn, Acc.next]
      rw [hn]
      obtain ⟨h1, h2⟩ := ih (k + 1) l a h
      refine ⟨h1, ?_⟩
      rw [h2]
      simp [coreComb, laneIn, PortOut.answer]
    | true =>
      simp only [List.map_cons, topLoop, asks, seenPort, Tlb.runLanes, if_true]
      have hq : (if d = true then (if k < ldu then 1 else 2) else 0) < 4 := by
        split
        · split <;> omega
        · omega
      have hl : LaneRel cap repl c ⟨pa, if d = true then (if k < ldu then 1 else 2) else 0⟩ (Tlb.lookup cap tab pa (Tlb.asidOf c.satp))
          l.walk l.refill l.view (laneIn cap (portType d ldu k) i a
            { valid := true, vaddr := pa, lookup := KLookup.of (Tlb.lookup cap tab pa (Tlb.asidOf c.satp)) }) := by
        refine ⟨rfl, rfl, ?_, hi.satp, hi.priv, hi.mxr, hi.sum, hi.mprv, hi.mpp, rfl, h.walk, h.refill, hi.repl, ?_, h.view⟩
        · simp only [laneIn, portType]
          cases d
          · rfl
          · simp only [if_true]; split <;> rfl
        · simp only [laneIn, if_pos hc]
      have ho := lane_rel hl hq h.wfits hc hc' hr
      have hfit := lane_fits (v := l.view) (look := Tlb.lookup cap tab pa (Tlb.asidOf c.satp)) (repl := repl) (c := c)
        (q := ⟨pa, if d = true then (if k < ldu then 1 else 2) else 0⟩) hq h.wfits h.rfits hc
      obtain ⟨h1, h2⟩ := ih (k + 1) _ _ (h.next ho hfit.1 hfit.2)
      refine ⟨h1, ?_⟩
      rw [h2, ho.answer]

/-! ### Cycles -/

/-- The TLB through the arrays stands for the one by the rules, during a cycle. -/
structure Rel (cap : Nat) (m : Mid) (k : KMid) : Prop where
  tab : k.tab = fun i => KEntry.of (m.tab i)
  repl : k.repl = BitVec.ofNat 32 m.repl
  walk : k.walk = KWalk.of m.walk
  refill : k.refill = KRefill.of cap m.refill
  flushed : k.flushed = m.flushed
  view : k.view.Shows m.view
  calls : k.calls = m.calls
  bad : k.bad = m.bad
  rlt : m.repl < cap
  wfits : WalkFits m.walk
  rfits : RefillFits cap m.refill

/-- The same between cycles. -/
structure StRel (cap : Nat) (s : Tlb.State) (k : KState) : Prop where
  tab : k.tab = fun i => KEntry.of (s.tab i)
  repl : k.repl = BitVec.ofNat 32 s.repl
  walk : k.walk = KWalk.of s.walk
  rlt : s.repl < cap
  wfits : WalkFits s.walk

theorem StRel.start {cap : Nat} {s : Tlb.State} {k : KState} (h : StRel cap s k) (v : Ptw.View) (junk : KResp) :
    Rel cap (s.start v) (k.start (KView.of junk v)) :=
  ⟨h.tab, h.repl, h.walk, rfl, rfl, KView.of_shows junk v, rfl, rfl, h.rlt, h.wfits, fun _ h => nomatch h⟩

theorem StRel.init {cap : Nat} (hc : 0 < cap) : StRel cap .init {} :=
  ⟨rfl, rfl, rfl, hc, fun _ h => nomatch h⟩

theorem Rel.seq {cap : Nat} {m : Mid} {k : KMid} (h : Rel cap m k) (hc : 0 < cap) (hc' : cap < 2 ^ 31) : StRel cap (m.seq cap) k.seq := by
  simp only [Mid.seq, KMid.seq, h.flushed]
  cases m.flushed with
  | true => exact StRel.init hc
  | false =>
    simp only [Bool.false_eq_true, if_false, h.refill]
    cases hr : m.refill with
    | none => exact ⟨h.tab, h.repl, h.walk, h.rlt, h.wfits⟩
    | some r =>
      have hs := h.rfits r hr
      have hb : (BitVec.ofNat 32 r.slot).toNat = r.slot := by
        rw [BitVec.toNat_ofNat]; exact Nat.mod_eq_of_lt (by omega)
      refine ⟨?_, rfl, h.walk, Nat.mod_lt _ hc, h.wfits⟩
      funext j
      simp only [KRefill.of, if_true, hb, h.tab]
      split <;> rfl

theorem Rel.consume {cap : Nat} {m : Mid} {k : KMid} (h : Rel cap m k) : Rel cap m.consume k.consume :=
  ⟨h.tab, h.repl, h.walk, h.refill, h.flushed,
    Shows.quiet h.view.ready rfl rfl,
    by simp only [KMid.consume, Mid.consume, h.calls], h.bad, h.rlt, h.wfits, h.rfits⟩

theorem Rel.flushClient {cap : Nat} {m : Mid} {k : KMid} (h : Rel cap m k) : Rel cap m.flushClient k.flushClient :=
  ⟨h.tab, h.repl, h.walk, h.refill, h.flushed,
    Shows.quiet rfl rfl rfl,
    by simp only [KMid.flushClient, Mid.flushClient, h.calls], h.bad, h.rlt, h.wfits, h.rfits⟩

theorem Rel.send {cap : Nat} {m : Mid} {k : KMid} (h : Rel cap m k) (r : Ptw.Req) (t : Nat) :
    Rel cap (m.send r) (k.send (KReq.of (some (r, t)))) := by
  simp only [Mid.send, KMid.send, h.view.ready, h.calls]
  split
  · exact ⟨h.tab, h.repl, h.walk, h.refill, h.flushed, h.view, rfl, rfl, h.rlt, h.wfits, h.rfits⟩
  · exact ⟨h.tab, h.repl, h.walk, h.refill, h.flushed,
      Shows.quiet rfl rfl rfl,
      rfl, h.bad, h.rlt, h.wfits, h.rfits⟩

theorem Rel.setWalk {cap : Nat} {m : Mid} {k : KMid} (h : Rel cap m k) {w : Option Walk} (hw : WalkFits w) :
    Rel cap { m with walk := w } { k with walk := KWalk.of w } :=
  ⟨h.tab, h.repl, rfl, h.refill, h.flushed, h.view, h.calls, h.bad, h.rlt, hw, h.rfits⟩

theorem Rel.setBoth {cap : Nat} {m : Mid} {k : KMid} (h : Rel cap m k) {w : Option Walk} {r : Option Refill} (hw : WalkFits w)
    (hr : RefillFits cap r) :
    Rel cap { m with walk := w, refill := r } { k with walk := KWalk.of w, refill := KRefill.of cap r } :=
  ⟨h.tab, h.repl, rfl, rfl, h.flushed, h.view, h.calls, h.bad, h.rlt, hw, hr⟩

theorem Rel.setRefill {cap : Nat} {m : Mid} {k : KMid} (h : Rel cap m k) {r : Option Refill} (hr : RefillFits cap r) :
    Rel cap { m with refill := r } { k with refill := KRefill.of cap r } :=
  ⟨h.tab, h.repl, h.walk, rfl, h.flushed, h.view, h.calls, h.bad, h.rlt, h.wfits, hr⟩

theorem Rel.schedule {cap : Nat} {m : Mid} {k : KMid} (h : Rel cap m k) (hc' : cap < 2 ^ 31) {w : Walk} {r : Ptw.Resp}
    (hw : m.walk = some w) (hv : m.view.resp = some r) : Rel cap (m.schedule w r) (k.schedule cap) := by
  refine ⟨h.tab, h.repl, h.walk, ?_, h.flushed, h.view, h.calls, h.bad, h.rlt, h.wfits, fun x hx => by cases hx; exact h.rlt⟩
  have hg : (k.view.resp.pte &&& 32#32 != 0#32) = r.pte.getLsbD 5 := by
    rw [global_eq]
    have := congrArg (fun x => x.getLsbD 5) (h.view.perm r hv)
    simpa [BitVec.getLsbD_setWidth] using this
  have hn : (BitVec.ofNat 32 m.repl + 1#32) % BitVec.ofNat 32 cap = BitVec.ofNat 32 ((m.repl + 1) % cap) := by
    have hlt := h.rlt
    apply BitVec.eq_of_toNat_eq
    rw [BitVec.toNat_umod, BitVec.toNat_add]
    simp only [BitVec.toNat_ofNat]
    have h2 := Nat.mod_lt (m.repl + 1) (show cap > 0 by omega)
    rw [Nat.mod_eq_of_lt (by omega : m.repl < 2 ^ 32), Nat.mod_eq_of_lt (by omega : cap < 2 ^ 32),
      Nat.mod_eq_of_lt (by omega : 1 < 2 ^ 32), Nat.mod_eq_of_lt (by omega : m.repl + 1 < 2 ^ 32),
      Nat.mod_eq_of_lt (by omega : (m.repl + 1) % cap < 2 ^ 32)]
  have hp : k.view.resp.pte &&& 0xFF#32 = (r.pte.setWidth 8).setWidth 32 := by rw [and_FF, h.view.perm r hv]
  have hpp : (k.view.resp.pte >>> 10) &&& 0x3FFFFF#32 = ((r.pte >>> 10).setWidth 22).setWidth 32 := by rw [and_3FFFFF, h.view.ppn r hv]
  simp only [KMid.schedule, Mid.schedule, hg, hp, hpp, h.view.level r hv, h.walk, hw, KWalk.of, asid_eq, vpn1_eq, vpn0_eq, h.repl, hn,
    KRefill.of, KEntry.of, Tlb.mkEntry]

theorem Rel.complete {cap : Nat} {m : Mid} {k : KMid} (h : Rel cap m k) (hc' : cap < 2 ^ 31) (b : Bool) :
    Rel cap (m.complete b).1 (k.complete cap b).1 ∧ (k.complete cap b).2 = (m.complete b).2 := by
  have hno : m.done = none → (!k.walk.active || !k.walk.sent || !k.view.respValid || k.view.resp.vaddr >>> 12 != k.walk.vaddr >>> 12) = true →
      Rel cap (m.complete b).1 (k.complete cap b).1 ∧ (k.complete cap b).2 = (m.complete b).2 := by
    intro hd hk
    rw [Mid.complete, KMid.complete, hd, if_pos hk]
    exact ⟨h, rfl⟩
  cases hw : m.walk with
  | none =>
    have : k.walk.active = false := by rw [h.walk, hw]; rfl
    exact hno (by simp only [Mid.done, hw]) (by simp [this])
  | some w =>
    have hka : k.walk = KWalk.of (some w) := by rw [h.walk, hw]
    cases hv : m.view.resp with
    | none =>
      have : k.view.respValid = false := by rw [h.view.valid, hv]; rfl
      exact hno (by simp only [Mid.done, hw, hv]) (by simp [this])
    | some r =>
      have hkv : k.view.respValid = true := by rw [h.view.valid, hv]; rfl
      have ha : k.walk.active = true := by rw [hka]; rfl
      have hs : k.walk.sent = w.sent := by rw [hka]; rfl
      have hva : k.walk.vaddr = w.vaddr := by rw [hka]; rfl
      have hwf := h.wfits w hw
      have hchk : checkPerm (k.view.resp.pte &&& 0xFF#32) k.walk.type k.walk.eff k.walk.sum k.walk.mxr
          = Tlb.checkPerm (r.pte.setWidth 8) w.type w.eff w.sum w.mxr := by
        rw [and_FF, h.view.perm r hv, hka]
        exact checkPerm_eq _ hwf.1 hwf.2 _ _
      have hcond : (!k.walk.active || !k.walk.sent || !k.view.respValid || k.view.resp.vaddr >>> 12 != k.walk.vaddr >>> 12)
          = (!w.sent || r.vaddr >>> 12 != w.vaddr >>> 12) := by
        simp only [ha, hs, hkv, hva, h.view.page r hv, Bool.not_true, Bool.false_or, Bool.or_false]
      by_cases hd : w.sent = true ∧ r.vaddr >>> 12 = w.vaddr >>> 12
      · have hdone : m.done = some (w, r) := by simp only [Mid.done, hw, hv]; rw [if_pos hd]
        have hf : (!w.sent || r.vaddr >>> 12 != w.vaddr >>> 12) = false := by simp [hd.1, hd.2]
        rw [Mid.complete, KMid.complete, hdone, hcond, hf, h.view.fault r hv, hchk]
        simp only [Bool.false_eq_true, if_false]
        cases r.fault
        · simp only [Bool.false_eq_true, if_false]
          cases Tlb.checkPerm (r.pte.setWidth 8) w.type w.eff w.sum w.mxr
          · simp only [Bool.false_eq_true, if_false]
            cases b
            · exact ⟨h, rfl⟩
            · exact ⟨h.consume, rfl⟩
          · simp only [if_true]
            exact ⟨(h.schedule hc' hw hv).consume, trivial⟩
        · simp only [if_true]
          cases b
          · exact ⟨h, rfl⟩
          · exact ⟨h.consume, rfl⟩
      · refine hno (by simp only [Mid.done, hw, hv]; rw [if_neg hd]) ?_
        rw [hcond]
        cases hsent : w.sent
        · rfl
        · simp only [hsent, true_and] at hd
          simp [hd]

theorem trunc_trunc (w : Nat) (v : BitVec 32) : trunc w (trunc w v) = trunc w v := by
  apply BitVec.eq_of_getLsbD_eq
  intro j _
  simp only [trunc_getLsbD]
  cases decide (j < w) <;> simp

theorem answer_trunc (p : PortOut) : p.trunc.answer = p.answer := by
  simp only [PortOut.answer, PortOut.trunc, and_3, trunc_trunc]

/-- The table flush: the rules' `flush`. -/
theorem Rel.flush {cap : Nat} {m : Mid} {k : KMid} (h : Rel cap m k) (d : Bool) (ldu : Nat) {n : Nat} (hn : n ≤ 16) :
    ∃ k', k.control cap d ldu n true false = some k' ∧ Rel cap m.flush k' := by
  have hr := runPacked_eq cap d ldu { k.common none with flush := true, cancel := false, ports := List.replicate n {} }
    (by simpa using hn)
  simp only [List.length_replicate] at hr
  refine ⟨_, by rw [KMid.control, hr]; rfl, ?_⟩
  have hw : WalkFits none := fun _ h => nomatch h
  have hf : RefillFits cap none := fun _ h => nomatch h
  have e1 : KWalk.trunc {} = KWalk.of none := KWalk.trunc_of hw
  have e2 : KRefill.trunc (slotWidth cap) {} = KRefill.of cap none := KRefill.trunc_of hf
  have hfl := h.flushClient
  simp only [topComb, TopIn.trunc, if_true, TopOut.trunc, KMid.apply, KReq.trunc, Bool.false_eq_true, if_false, e1, e2]
  exact ⟨hfl.tab, hfl.repl, rfl, rfl, rfl, hfl.view, hfl.calls, hfl.bad, hfl.rlt, hw, hf⟩

theorem Rel.cancel {cap : Nat} {m : Mid} {k : KMid} (h : Rel cap m k) (hc' : cap < 2 ^ 31) (d : Bool) (ldu : Nat) {n : Nat} (hn : n ≤ 16) :
    ∃ k', k.cancel cap d ldu n = some k' ∧ Rel cap m.cancel k' := by
  have hcm := (h.complete hc' true).1
  rw [KMid.cancel, Mid.cancel]
  revert hcm
  generalize (k.complete cap true).1 = k1
  generalize (m.complete true).1 = m1
  intro hcm
  have hr := runPacked_eq cap d ldu { k1.common none with flush := false, cancel := true, ports := List.replicate n {} }
    (by simpa using hn)
  simp only [List.length_replicate] at hr
  refine ⟨_, by rw [KMid.control, hr]; rfl, ?_⟩
  have hw : WalkFits none := fun _ h => nomatch h
  have e1 : KWalk.trunc {} = KWalk.of none := KWalk.trunc_of hw
  have e2 : k1.refill = KRefill.of cap m1.refill := hcm.refill
  have e3 : (KRefill.of cap m1.refill).trunc (slotWidth cap) = KRefill.of cap m1.refill := KRefill.trunc_of hcm.rfits
  have hfl := hcm.flushClient
  simp only [topComb, TopIn.trunc, if_true, TopOut.trunc, KMid.apply, KReq.trunc, Bool.false_eq_true, if_false, e1, KMid.common, e2, e3]
  exact ⟨hfl.tab, hfl.repl, rfl, rfl, hfl.flushed, hfl.view, hfl.calls, hfl.bad, hfl.rlt, hw, hcm.rfits⟩

theorem KReq.trunc_of {x : Option (Ptw.Req × Nat)} (h : ∀ y, x = some y → y.2 < 4) : (KReq.of x).trunc = KReq.of x := by
  cases x with
  | none => rfl
  | some y =>
    simp only [KReq.of, KReq.trunc]
    rw [trunc_ofNat (show y.2 < 2 ^ 2 from h y rfl)]

theorem Rel.apply {cap : Nat} {m : Mid} {k : KMid} (h : Rel cap m k) {l : Tlb.Loop} {a : Acc} (ha : AccRel cap l a) (ps : List PortOut) :
    Rel cap (m.applyTop l) (k.apply (TopOut.trunc (slotWidth cap)
      { walk := a.walk, refill := a.refill, req := a.req, consumed := a.consumed, ports := ps })) := by
  obtain ⟨t, ht, hq⟩ := ha.req
  have e1 : a.walk.trunc = KWalk.of l.walk := by rw [ha.walk]; exact KWalk.trunc_of ha.wfits
  have e2 : a.refill.trunc (slotWidth cap) = KRefill.of cap l.refill := by rw [ha.refill]; exact KRefill.trunc_of ha.rfits
  have e3 : a.req.trunc = KReq.of (l.req.map (·, t)) := by
    rw [hq]
    apply KReq.trunc_of
    intro y hy
    cases hl : l.req with
    | none => rw [hl] at hy; cases hy
    | some r => rw [hl] at hy; cases hy; exact ht
  simp only [Mid.applyTop, KMid.apply, TopOut.trunc, e1, e2, e3, ha.consumed, Bool.false_eq_true, if_false]
  cases l.req with
  | none =>
    simp only [Option.map_none, KReq.of, Bool.false_eq_true, if_false]
    cases l.consumed
    · exact h.setBoth ha.wfits ha.rfits
    · exact h.consume.setBoth ha.wfits ha.rfits
  | some r =>
    have h1 := h.send r t
    simp only [Option.map_some]
    have hv : (KReq.of (some (r, t))).valid = true := rfl
    simp only [hv, if_true]
    cases l.consumed
    · exact h1.setBoth ha.wfits ha.rfits
    · exact h1.consume.setBoth ha.wfits ha.rfits

theorem trunc_slot {cap n : Nat} (h : n < cap) : trunc (slotWidth cap) (BitVec.ofNat 32 n) = BitVec.ofNat 32 n :=
  trunc_ofNat (slotWidth_fits cap n h)

theorem Rel.translate {cap : Nat} {m : Mid} {k : KMid} (h : Rel cap m k) (hc : 0 < cap) (hc' : cap < 2 ^ 31) (d : Bool) (ldu : Nat)
    (c : Ctx) (ps : List (Bool × BitVec 32)) (hn : ps.length ≤ 16) :
    ∃ k', k.translate cap d ldu c ps = some (k', (m.translate cap c (asks d ldu 0 ps)).2) ∧
      Rel cap (m.translate cap c (asks d ldu 0 ps)).1 k' := by
  have hports : (k.ports cap c.satp ps).map PortIn.trunc = ps.map (seenPort cap m.tab c.satp) := by
    simp only [KMid.ports, List.map_map]
    apply List.map_congr_left
    intro p _
    simp only [Function.comp_apply, PortIn.trunc, seenPort, h.tab, lookupTable_eq]
    cases p.1
    · rfl
    · simp only [if_true]
      rw [KLookup.trunc_of]
  have hlen : (k.ports cap c.satp ps).length = ps.length := by simp [KMid.ports]
  have hr := runPacked_eq cap d ldu { k.common (some c) with ports := k.ports cap c.satp ps } (by simpa [hlen] using hn)
  simp only [hlen] at hr
  have hi : TopRel cap m.repl c (TopIn.trunc (slotWidth cap) { k.common (some c) with ports := k.ports cap c.satp ps }) := by
    refine ⟨rfl, ?_, rfl, rfl, rfl, ?_, ?_⟩
    · simp only [TopIn.trunc, KMid.common, trunc_trunc]
    · simp only [TopIn.trunc, KMid.common, trunc_trunc]
    · simp only [TopIn.trunc, KMid.common, h.repl]
      exact trunc_slot h.rlt
  have ha : AccRel cap { walk := m.walk, refill := m.refill, view := m.view }
      { walk := k.walk.trunc, refill := k.refill.trunc (slotWidth cap), view := k.view.trunc } := by
    refine ⟨?_, ?_, h.view.trunc, ⟨0, by omega, rfl⟩, rfl, h.wfits, h.rfits⟩
    · rw [h.walk]; exact KWalk.trunc_of h.wfits
    · rw [h.refill]; exact KRefill.trunc_of h.rfits
  obtain ⟨h1, h2⟩ := loop_rel d ldu m.tab hi hc hc' h.rlt ps 0 _ _ ha
  rw [KMid.translate, hr]
  have htop : topComb cap d ldu (TopIn.trunc (slotWidth cap) { k.common (some c) with ports := k.ports cap c.satp ps })
      = (let r := topLoop cap d ldu (TopIn.trunc (slotWidth cap) { k.common (some c) with ports := k.ports cap c.satp ps }) 0
          { walk := k.walk.trunc, refill := k.refill.trunc (slotWidth cap), view := k.view.trunc } (ps.map (seenPort cap m.tab c.satp))
         { walk := r.1.walk, refill := r.1.refill, req := r.1.req, consumed := r.1.consumed, ports := r.2 }) := by
    rw [← hports]; rfl
  rw [htop]
  refine ⟨_, ?_, h.apply h1 (topLoop cap d ldu (TopIn.trunc (slotWidth cap) { k.common (some c) with ports := k.ports cap c.satp ps }) 0
    { walk := k.walk.trunc, refill := k.refill.trunc (slotWidth cap), view := k.view.trunc } (ps.map (seenPort cap m.tab c.satp))).2⟩
  · simp only [Option.map_some, Option.some.injEq, Prod.mk.injEq, TopOut.trunc, List.map_map, Mid.translate]
    refine ⟨trivial, ?_⟩
    rw [← h2]
    apply List.map_congr_left
    intro p _
    exact answer_trunc p

/-! ### Whole cycles -/

theorem Rel.dcycle {cap : Nat} {m : Mid} {k : KMid} (h : Rel cap m k) (hc : 0 < cap) (hc' : cap < 2 ^ 31) (ldu : Nat) {n : Nat} (hn : n ≤ 16) (o : KOp) (ho : o.Fits n) :
    ∃ k', kdtlbCycle cap ldu n k o = some (k', (Tlb.dtlbCycle cap m (o.plain ldu)).2) ∧ Rel cap (Tlb.dtlbCycle cap m (o.plain ldu)).1 k' := by
  cases o with
  | fence =>
    obtain ⟨k', e, hk⟩ := h.flush true ldu hn
    exact ⟨k', by rw [kdtlbCycle, e]; rfl, hk⟩
  | cancel =>
    obtain ⟨k', e, hk⟩ := h.cancel hc' true ldu hn
    exact ⟨k', by rw [kdtlbCycle, e]; rfl, hk⟩
  | translate c ps =>
    obtain ⟨h1, h2⟩ := h.complete hc' false
    simp only [kdtlbCycle, KOp.plain, Tlb.dtlbCycle, KMid.translateLsu, Mid.translateLsu, h2]
    refine Rel.translate ?_ hc hc' true ldu c ps (by rw [show ps.length = n from ho]; exact hn)
    split
    · exact h1.setWalk (w := none) (fun _ h => nomatch h)
    · exact h1

theorem kitlb_eq (cap ldu : Nat) (k : KMid) (o : Tlb.IOp) : kitlbCycle cap ldu k o =
    (if o.flush then k.control cap false ldu 1 true false else some k).bind (fun k1 =>
      (if o.cancel then k1.cancel cap false ldu 1 else some k1).bind (fun k2 =>
        match (if o.cancel then none else o.ask) with
        | some (c, v) => k2.translate cap false ldu c [(true, v)]
        | none => some (k2, []))) := by
  obtain ⟨f, c, a⟩ := o
  cases f <;> cases c <;> rfl

theorem Rel.icycle {cap : Nat} {m : Mid} {k : KMid} (h : Rel cap m k) (hc : 0 < cap) (hc' : cap < 2 ^ 31) (ldu : Nat) (o : Tlb.IOp) :
    ∃ k', kitlbCycle cap ldu k o = some (k', (Tlb.itlbCycle cap m o).2) ∧ Rel cap (Tlb.itlbCycle cap m o).1 k' := by
  have h1 : ∃ k', (if o.flush then k.control cap false ldu 1 true false else some k) = some k' ∧
      Rel cap (if o.flush then m.flush else m) k' := by
    cases o.flush
    · exact ⟨k, rfl, h⟩
    · exact h.flush false ldu (by omega)
  obtain ⟨k1, e1, h1⟩ := h1
  have h2 : ∃ k', (if o.cancel then k1.cancel cap false ldu 1 else some k1) = some k' ∧
      Rel cap (if o.cancel then (if o.flush then m.flush else m).cancel else (if o.flush then m.flush else m)) k' := by
    cases o.cancel
    · exact ⟨k1, rfl, h1⟩
    · exact h1.cancel hc' false ldu (by omega)
  obtain ⟨k2, e2, h2⟩ := h2
  rw [kitlb_eq, e1, Option.bind_some, e2, Option.bind_some]
  simp only [Tlb.itlbCycle]
  revert h2
  generalize (if o.cancel then (if o.flush then m.flush else m).cancel else (if o.flush then m.flush else m)) = m2
  intro h2
  cases (if o.cancel then none else o.ask) with
  | none => exact ⟨k2, rfl, h2⟩
  | some q =>
    obtain ⟨c, v⟩ := q
    exact h2.translate hc hc' false ldu c [(true, v)] (by simp)

theorem packedD_rel {cap : Nat} (hc : 0 < cap) (hc' : cap < 2 ^ 31) (ldu : Nat) {n : Nat} (hn : n ≤ 16) : ∀ (xs : List (Cyc KOp)) (s : Tlb.State) (k : KState),
    (∀ x ∈ xs, x.op.Fits n) → StRel cap s k → ∃ k', packedD cap ldu n k xs = some (k', (plainD cap ldu s xs).2) ∧ StRel cap (plainD cap ldu s xs).1 k' := by
  intro xs
  induction xs with
  | nil => intro s k _ h; exact ⟨k, rfl, h⟩
  | cons x xs ih =>
    intro s k hf h
    obtain ⟨k1, e1, h1⟩ := (h.start x.view x.junk).dcycle hc hc' ldu hn x.op (hf x List.mem_cons_self)
    obtain ⟨k2, e2, h2⟩ := ih _ _ (fun y hy => hf y (List.mem_cons_of_mem _ hy)) (h1.seq hc hc')
    refine ⟨k2, ?_, h2⟩
    simp only [packedD, plainD, e1, e2, Option.bind_eq_bind, Option.bind_some, h1.calls, h1.bad, Option.pure_def]

theorem packedI_rel {cap : Nat} (hc : 0 < cap) (hc' : cap < 2 ^ 31) (ldu : Nat) : ∀ (xs : List (Cyc Tlb.IOp)) (s : Tlb.State) (k : KState),
    StRel cap s k → ∃ k', packedI cap ldu k xs = some (k', (plainI cap s xs).2) ∧ StRel cap (plainI cap s xs).1 k' := by
  intro xs
  induction xs with
  | nil => intro s k h; exact ⟨k, rfl, h⟩
  | cons x xs ih =>
    intro s k h
    obtain ⟨k1, e1, h1⟩ := (h.start x.view x.junk).icycle hc hc' ldu x.op
    obtain ⟨k2, e2, h2⟩ := ih _ _ (h1.seq hc hc')
    refine ⟨k2, ?_, h2⟩
    simp only [packedI, plainI, e1, e2, Option.bind_eq_bind, Option.bind_some, h1.calls, h1.bad, Option.pure_def]

/-! ### The lane in two pieces -/

theorem map_idle (i : CoreIn) (hv : i.valid = false) : mapComb (mapIn i) = coreComb i := by
  rw [mapComb, coreComb, if_pos (by rw [mapIn, hv]; rfl), if_pos (by rw [hv]; rfl)]; rfl

theorem map_bare (i : CoreIn) (hv : i.valid = true) (hp : (effPriv i == 3#32 || i.satp &&& 0x80000000#32 == 0#32) = true) :
    mapComb (mapIn i) = coreComb i := by
  have hv' : (!(mapIn i).valid) = true → False := by rw [show (mapIn i).valid = i.valid from rfl, hv]; simp
  have hp' : ((mapIn i).eff == 3#32 || (mapIn i).satp &&& 0x80000000#32 == 0#32) = true := hp
  rw [mapComb, coreComb, if_neg hv', if_neg (show ¬ (!i.valid) = true by simp [hv]), if_pos hp', if_pos hp]; rfl

theorem map_live (i : CoreIn) (hv : i.valid = true) (hp : ¬ (effPriv i == 3#32 || i.satp &&& 0x80000000#32 == 0#32) = true) :
    mapComb (mapIn i) = coreComb i := by
  have hv' : (!(mapIn i).valid) = true → False := by rw [show (mapIn i).valid = i.valid from rfl, hv]; simp
  have hp' : ¬ ((mapIn i).eff == 3#32 || (mapIn i).satp &&& 0x80000000#32 == 0#32) = true := hp
  rw [mapComb, coreComb, if_neg hv', if_neg (show ¬ (!i.valid) = true by simp [hv]), if_neg hp', if_neg hp]
  clear hp' hv'
  have e1 : (mapIn i).hitValid = (hitOf i).isSome := rfl
  have e2 : (mapIn i).hitPermOk = ((hitOf i).isSome && checkPerm (((hitOf i).getD {}).perm &&& 0xFF#32) i.type (effPriv i) i.sum i.mxr) := rfl
  have e3 : (mapIn i).hitLevel = ((hitOf i).getD {}).level := rfl
  have e4 : (mapIn i).hitPerm = ((hitOf i).getD {}).perm &&& 0xFF#32 := rfl
  have e5 : (mapIn i).hitPaddr = composePaddr i.vaddr ((hitOf i).getD {}) := rfl
  have e6 : (mapIn i).walk = i.walk := rfl
  have e7 : (mapIn i).refill = i.refill := rfl
  have e8 : (mapIn i).sameRequest = (i.walk.vaddr >>> 12 == i.vaddr >>> 12 && i.walk.satp == i.satp) := rfl
  have e9 : (mapIn i).ready = i.view.ready := rfl
  have e10 : (mapIn i).respValid = i.view.respValid := rfl
  have e11 : (mapIn i).pageMatch = (i.view.resp.vaddr >>> 12 == i.walk.vaddr >>> 12) := rfl
  have e12 : (mapIn i).respFault = i.view.resp.fault := rfl
  have e13 : (mapIn i).respPermOk = checkPerm (i.view.resp.pte &&& 0xFF#32) i.type (effPriv i) i.sum i.mxr := rfl
  have e14 : (mapIn i).respPerm = i.view.resp.pte &&& 0xFF#32 := rfl
  have e15 : (mapIn i).respPpn = (i.view.resp.pte >>> 10) &&& 0x3FFFFF#32 := rfl
  have e16 : (mapIn i).respLevel = i.view.resp.level := rfl
  have e17 : (mapIn i).vaddr = i.vaddr ∧ (mapIn i).satp = i.satp ∧ (mapIn i).type = i.type ∧ (mapIn i).eff = effPriv i ∧
    (mapIn i).mxr = i.mxr ∧ (mapIn i).sum = i.sum := ⟨rfl, rfl, rfl, rfl, rfl, rfl⟩
  obtain ⟨f1, f2, f3, f4, f5, f6⟩ := e17
  have e18 : (mapIn i).slot = i.repl % i.cap := rfl
  have e19 : (mapIn i).next = (i.repl % i.cap + 1#32) % i.cap := rfl
  rw [e1, e2, e3, e4, e5, e6, e7, e8, e9, e10, e11, e12, e13, e14, e15, e16, e18, e19, f1, f2, f3, f4, f5, f6]
  have hff : ∀ x : BitVec 32, x &&& 0xFF#32 &&& 0xFF#32 = x &&& 0xFF#32 := fun x => by rw [BitVec.and_assoc]; rfl
  have h20 : ∀ x : BitVec 32, x &&& 0xFF#32 &&& 32#32 = x &&& 32#32 := fun x => by rw [BitVec.and_assoc]; rfl
  have h3f : ∀ x : BitVec 32, x &&& 0x3FFFFF#32 &&& 0x3FFFFF#32 = x &&& 0x3FFFFF#32 := fun x => by rw [BitVec.and_assoc]; rfl
  rw [hff, hff, h20, h3f]
  cases hitOf i with
  | some e => rfl
  | none =>
    unfold ownWalk
    cases ha : i.walk.active with
    | false => rfl
    | true =>
      cases hs : (i.walk.vaddr >>> 12 == i.vaddr >>> 12 && i.walk.satp == i.satp) with
      | false =>
        have h2 : (i.walk.vaddr >>> 12 != i.vaddr >>> 12 || i.walk.satp != i.satp) = true := by
          simp only [bne, ← Bool.not_and, hs, Bool.not_false]
        rw [h2]; rfl
      | true =>
        have h2 : (i.walk.vaddr >>> 12 != i.vaddr >>> 12 || i.walk.satp != i.satp) = false := by
          simp only [bne, ← Bool.not_and, hs, Bool.not_true]
        rw [h2]
        rfl

theorem map_eq (i : CoreIn) : mapComb (mapIn i) = coreComb i := by
  by_cases hv : i.valid = true
  · by_cases hp : (effPriv i == 3#32 || i.satp &&& 0x80000000#32 == 0#32) = true
    · exact map_bare i hv hp
    · exact map_live i hv hp
  · exact map_idle i (by simpa using hv)
end Verif.TlbKernel

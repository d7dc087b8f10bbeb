import Verif.Proofs.ICacheWent
import Verif.Spec.FetchMem
/-
The instruction cache: requests, translations and contents.
-/
namespace Verif.ICache

theorem lineAddr_phys (p : Ppn) (pc : W32) : lineAddr p (idxOf pc) = lineOf (phys p pc) := by
  unfold lineAddr lineOf phys idxOf
  apply BitVec.eq_of_getLsbD_eq
  intro k hk
  have h63 : (63#32).getLsbD k = decide (k < 6) := by
    revert hk; revert k; decide
  simp only [BitVec.getLsbD_or, BitVec.getLsbD_shiftLeft, BitVec.getLsbD_and, BitVec.getLsbD_not, h63, BitVec.getLsbD_append,
    BitVec.getLsbD_setWidth, BitVec.getLsbD_extractLsb', hk]
  by_cases h1 : k < 6
  · have : k < 12 := by omega
    simp [h1, this]
  · by_cases h2 : k < 12
    · have e1 : k - 6 < 6 := by omega
      have e2 : 6 + (k - 6) = k := by omega
      have e3 : k - 6 < 32 := by omega
      simp [h1, h2, e1, e2, e3]
    · have e1 : ¬k - 6 < 6 := by omega
      have e3 : k - 12 < 32 := by omega
      simp [h1, h2, e1, e3]

/-- The tables hold lines the surroundings have reported. -/
def TabOk (w : World) (t : Tabs) : Prop := ∀ x y, t.valid x y = true → Fill w (lineAddr (t.tag x y) x) (t.data x y)

/-- The probe of the line at `a`. -/
structure ProbeOk (w : World) (a : W32) (r : Regs) (p1 p2 : Option (W32 × Bool)) : Prop where
  infl : r.pInfl = true → (p1 = some (wordAt a r.pWord, true) ∧ p2 = none) ∨ (p1 = none ∧ p2 = some (wordAt a r.pWord, true))
  free : r.pInfl = false → p1 = none ∧ p2 = none
  done : r.pDone = true → r.pInfl = false
  words : ∀ k : Fin 16, k.val < r.pWord.val → w.hit (wordAt a k) (r.pData k)
  hit : r.pDone = true → r.pHit = true → ∀ k, w.hit (wordAt a k) (r.pData k)
  miss : r.pDone = true → r.pHit = false → ∃ k, w.miss (wordAt a k)

/-- The line that is fetched. -/
def Regs.base (r : Regs) : W32 := lineAddr r.ppn (idxOf r.reqPc)

/-- The registers, the ports and the tables between two cycles. -/
structure Dat (w : World) (s : Sys) : Prop where
  tab : TabOk w s.c.t
  rdy1 : s.c.r.ready = true → s.e.p1 = none
  idle : s.c.r.st = .idle → s.c.r.reqV = true → s.e.p1 = none ∧ s.e.p2 = none
  xlat : s.c.r.st = .swapIn ∨ s.c.r.st = .waitDc → w.xlat (vpnOf s.c.r.reqPc) (.page s.c.r.ppn)
  probe : s.c.r.st = .swapIn ∨ s.c.r.st = .waitDc → ProbeOk w s.c.r.base s.c.r s.e.p1 s.e.p2
  owedA : s.c.r.st = .swapIn → s.c.r.busy = true → ∀ t, s.c.r.tx = some t → s.e.owed t = some (s.c.r.base, true)
  offA : ∀ f, s.e.offer = some f → f.held = false → f.addr = s.c.r.base
  mem : s.c.r.st = .waitDc → w.mem s.c.r.base s.c.r.resp

/-- The request that is outstanding. -/
def outst (r : Regs) : Option W32 := if r.reqV then some r.reqPc else none

/-- A call that withdraws nothing, with the outputs as the front end sees them. -/
structure Good (w : World) (s : Sys) (i : Cyc) (x : IC × Out) : Prop where
  resp : ∀ pc l, x.2.resp = some (pc, l) → (outst s.c.r).or i.req = some pc ∧ Answer w pc l ∧ x.1.r.reqV = false
  quiet : x.2.resp = none → outst x.1.r = (outst s.c.r).or i.req
  dat : Dat w ⟨x.1, s.e.next i x.2⟩

theorem Fill.of_world {w w' : World} (h : w'.hit = w.hit ∧ w'.miss = w.miss ∧ w'.mem = w.mem) {a : W32} {l : Line} (hf : Fill w a l) :
    Fill w' a l := by
  unfold Fill at hf ⊢
  rw [h.1, h.2.1, h.2.2]; exact hf

/-- A call that withdraws everything leaves an empty slot. -/
theorem Dat.killed {w' : World} {c : IC} {r : Regs} {e : Env} {i : Cyc} {o : Out} (hk : Killed r c.r e i) (ho : o.mReq = none)
    (ht : TabOk w' c.t) : Dat w' ⟨c, e.next i o⟩ := by
  have hst : ¬(c.r.st = .swapIn ∨ c.r.st = .waitDc) := by
    rcases hk.st with ⟨h, _⟩ | ⟨h, _⟩ <;> rw [h] <;> simp
  refine ⟨ht, ?_, ?_, fun h => absurd h hst, fun h => absurd h hst, fun h => absurd (.inl h) hst, ?_, fun h => absurd (.inr h) hst⟩
  · intro h; rw [hk.ready] at h; cases h
  · intro _ h; rw [hk.reqV] at h; cases h
  · intro f hf hh
    obtain ⟨_, _, _, _, _, rfl⟩ := offer_next_none ho hf
    cases hh

theorem TabOk.flushed {w w' : World} {t : Tabs} (h : TabOk w t) (b : Bool)
    (hw : b = false → w'.hit = w.hit ∧ w'.miss = w.miss ∧ w'.mem = w.mem) : TabOk w' (t.flushed b) := by
  unfold Tabs.flushed Tabs.write
  cases b with
  | true => intro x y hv; simp at hv
  | false =>
    intro x y hv
    exact (h x y hv).of_world (hw rfl)

theorem TabOk.write {w : World} {t : Tabs} (h : TabOk w t) {x : Idx} {y : Way} {p : Ppn} {d : Line} (hf : Fill w (lineAddr p x) d) :
    TabOk w (t.write { we := some (x, y, p, d) }) := by
  unfold Tabs.write
  intro x' y' hv
  simp only [Bool.false_eq_true, if_false] at hv ⊢
  by_cases hc : x' = x ∧ y' = y
  · obtain ⟨rfl, rfl⟩ := hc
    simp only [and_self, if_true]
    exact hf
  · simp only [hc, if_false] at hv ⊢
    exact h x' y' hv

variable {w : World} {s : Sys} {i : Cyc}

/-- A call that ends in an idle cache. -/
theorem dat_idle {x : IC × Out} {r : Regs} {t : Tabs} {resp : Option (W32 × Option Line)} {mrr : Bool} {pr : Option W32} {rdy : Bool} (h : Is x r t resp none mrr pr rdy)
    (ht : TabOk w t) (hs : r.st = .idle) (hp : r.ready = true → pr = none) (hp1 : r.reqV = true → pr = none ∧ s.e.p1 = none) : Dat w ⟨x.1, s.e.next i x.2⟩ := by
  have hst : ¬(x.1.r.st = .swapIn ∨ x.1.r.st = .waitDc) := by rw [h.r, hs]; simp
  refine ⟨by rw [h.t]; exact ht, ?_, ?_, fun h => absurd h hst, fun h => absurd h hst, fun h => absurd (.inl h) hst, ?_, fun h => absurd (.inr h) hst⟩
  · intro hr
    simp only [h.r] at hr
    unfold Env.next
    simp only [h.probe, hp hr]; rfl
  · intro _ hv
    simp only [h.r] at hv
    unfold Env.next
    simp only [h.probe, hp1 hv]; exact ⟨rfl, rfl⟩
  · intro f hf hh
    obtain ⟨_, _, _, _, _, rfl⟩ := offer_next_none h.mReq hf
    cases hh

theorem answer_hit {p : Ppn} {pc : W32} {y : Way} (ht : TabOk w s.c.t) (hx : w.xlat (vpnOf pc) (.page p))
    (hy : tabWay s.c.t (idxOf pc) p = some y) : Answer w pc (some (s.c.t.data (idxOf pc) y)) := by
  obtain ⟨h1, h2⟩ := tabWay_some hy
  refine ⟨p, hx, ?_⟩
  have := ht _ _ h1
  rw [h2, lineAddr_phys] at this
  exact this

theorem outst_none {r : Regs} (h : r.reqV = false) : outst r = none := by simp [outst, h]
theorem outst_some {r : Regs} (h : r.reqV = true) : outst r = some r.reqPc := by simp [outst, h]

/-- A request comes only to a ready cache. -/
theorem Valid.slot (hv : Valid w s i) {pc : W32} (h : i.req = some pc) : s.c.r.ready = true ∧ s.c.r.reqV = false ∧ s.c.r.st = .idle := by
  have := (hv.req (by rw [h]; rfl)).1
  simp only [peek, Bool.not_false, Bool.true_and, Bool.and_eq_true, Bool.not_eq_true', Bool.or_eq_false_iff, decide_eq_false_iff_not,
    Decidable.not_not] at this
  exact ⟨this.1.1, this.1.2.1.1.1, this.1.2.1.2⟩

theorem Valid.noReq (hv : Valid w s i) (h : s.c.r.reqV = true ∨ s.c.r.st ≠ .idle) : i.req = none := by
  cases hr : i.req with
  | none => rfl
  | some pc =>
    have := hv.slot hr
    rcases h with h | h
    · rw [this.2.1] at h; cases h
    · exact absurd this.2.2 h

theorem good_fast (hd : Dat w s) (hc : Ctl s.c.r s.e) (hv : Valid w s i) (hk : (call1 s.e i).kill = false) (hst : s.c.r.st = .idle)
    (hq : s.c.r.reqV = false) : Good w s i (call s.c (call1 s.e i)) := by
  obtain ⟨ht, hb⟩ := hc.sh.idle hst
  have h := call_fast hk hst ht hb hq
  have hmu : ∀ v, (call1 s.e i).mmu v = i.mmu v := fun _ => rfl
  have hrq : (call1 s.e i).req = i.req := rfl
  cases hr : i.req with
  | none =>
    have x := h.none_ hr
    refine ⟨?_, ?_, dat_idle x hd.tab (by simp [hst]) (by simp) (by simp)⟩
    · intro pc l hx; rw [x.resp] at hx; cases hx
    · intro _; rw [x.r, outst_none hq, hr]; rfl
  | some pc =>
    obtain ⟨hrd, _, _⟩ := hv.slot hr
    have hp1 := hd.rdy1 hrd
    have hreg : ∀ {o : Option (W32 × Option Line)} {m : Bool} {b : Bool}, Is (call s.c (call1 s.e i)) { drop s.c.r ((call1 s.e i).core none) with reqV := true, reqPc := pc, ready := false } s.c.t
        none none m none b → Good w s i (call s.c (call1 s.e i)) := by
      intro o m b x
      refine ⟨?_, ?_, dat_idle x hd.tab (by simp [hst]) (by simp) (by simp [hp1])⟩
      · intro pc l hx; rw [x.resp] at hx; cases hx
      · intro _; rw [x.r, outst_none hq, hr]; rfl
    cases hmm : i.mmu (vpnOf pc) with
    | none => exact hreg (o := none) (h.retry pc hr hmm)
    | some xl =>
      have hxl := hv.mmu _ _ hmm
      cases xl with
      | fault =>
        have x := h.fault pc hr hmm
        refine ⟨?_, ?_, dat_idle x hd.tab (by simp [hst]) (by simp) (by simp)⟩
        · intro pc' l hx
          rw [x.resp] at hx
          cases hx
          exact ⟨by rw [outst_none hq, hr]; rfl, hxl, by rw [x.r]⟩
        · intro hx; rw [x.resp] at hx; cases hx
      | page p =>
        cases htab : tabWay s.c.t (idxOf pc) p with
        | some y =>
          have x := h.hit pc p y hr hmm htab
          refine ⟨?_, ?_, dat_idle x hd.tab (by simp [hst]) (by simp) (by simp)⟩
          · intro pc' l hx
            rw [x.resp] at hx
            cases hx
            exact ⟨by rw [outst_none hq, hr]; rfl, answer_hit hd.tab hxl htab, by rw [x.r]⟩
          · intro hx; rw [x.resp] at hx; cases hx
        | none => exact hreg (o := none) (h.miss pc p hr hmm htab)

theorem good_reg (hd : Dat w s) (hc : Ctl s.c.r s.e) (hv : Valid w s i) (hk : (call1 s.e i).kill = false) (hst : s.c.r.st = .idle)
    (hq : s.c.r.reqV = true) : Good w s i (call s.c (call1 s.e i)) := by
  obtain ⟨ht, hb⟩ := hc.sh.idle hst
  have h := call_reg hk hst ht hq
  have hr := hv.noReq (.inl hq)
  obtain ⟨hp1, hp2⟩ := hd.idle hst hq
  have hor : (outst s.c.r).or i.req = some s.c.r.reqPc := by rw [outst_some hq]; rfl
  cases hmm : i.mmu (vpnOf s.c.r.reqPc) with
  | none =>
    have x := h.retry hmm
    refine ⟨?_, ?_, dat_idle x hd.tab (by simp [hst]) (by simp) (by simp [hp1])⟩
    · intro pc l hx; rw [x.resp] at hx; cases hx
    · intro _; rw [x.r, hor]; simp [outst, hq]
  | some xl =>
    have hxl := hv.mmu _ _ hmm
    cases xl with
    | fault =>
      have x := h.fault hmm
      refine ⟨?_, ?_, dat_idle x hd.tab (by simp [hst]) (by simp) (by simp)⟩
      · intro pc' l hx
        rw [x.resp] at hx
        cases hx
        exact ⟨hor, hxl, by rw [x.r]⟩
      · intro hx; rw [x.resp] at hx; cases hx
    | page p =>
      cases htab : tabWay s.c.t (idxOf s.c.r.reqPc) p with
      | some y =>
        have x := h.hit p y hmm htab
        refine ⟨?_, ?_, dat_idle x hd.tab (by simp [hst]) (by simp) (by simp)⟩
        · intro pc' l hx
          rw [x.resp] at hx
          cases hx
          exact ⟨hor, answer_hit hd.tab hxl htab, by rw [x.r]⟩
        · intro hx; rw [x.resp] at hx; cases hx
      | none =>
        cases hf : freeTx s.c.r with
        | none =>
          have x := h.full p hmm htab hf
          refine ⟨?_, ?_, dat_idle x hd.tab (by simp [hst]) (by simp) (by simp [hp1])⟩
          · intro pc l hx; rw [x.resp] at hx; cases hx
          · intro _; rw [x.r, hor]; simp [outst, hq]
        | some t =>
          have x := h.miss p t hmm htab hf
          refine ⟨?_, ?_, ?_⟩
          · intro pc l hx; rw [x.resp] at hx; cases hx
          · intro _; rw [x.r, hor]; simp [outst, hq, Regs.noProbe]
          · have e1 : (s.e.next i (call s.c (call1 s.e i)).2).p1 = none := by
              unfold Env.next; simp only [x.probe]; rfl
            have e2 : (s.e.next i (call s.c (call1 s.e i)).2).p2 = none := by
              unfold Env.next; simp only [hp1]; rfl
            refine ⟨by rw [x.t]; exact hd.tab, fun _ => e1, fun _ _ => ⟨e1, e2⟩, ?_, ?_, ?_, ?_, ?_⟩
            · intro _; rw [x.r]; simp only [Regs.noProbe, drop_reqPc]; exact hxl
            · intro _
              simp only [e1, e2]
              rw [x.r]
              constructor <;> simp [Regs.noProbe]
            · intro _ hb'; rw [x.r] at hb'; simp [Regs.noProbe, hb] at hb'
            · intro f hf hh
              obtain ⟨_, _, _, _, _, rfl⟩ := offer_next_none x.mReq hf
              cases hh
            · intro h; rw [x.r] at h; cases h

theorem good_cancel (hd : Dat w s) (hc : Ctl s.c.r s.e) (hv : Valid w s i) (hk : (call1 s.e i).kill = false) (hst : s.c.r.st = .cancelWait) :
    Good w s i (call s.c (call1 s.e i)) := by
  have x := call_cancel hst (i := call1 s.e i)
  have hr := hv.noReq (.inr (by rw [hst]; simp))
  have hf := (kill_false hk).2.2
  have hq := (hc.sh.cw hst).2.2.1
  rw [hf] at x
  refine ⟨?_, ?_, dat_idle x (hd.tab.flushed false fun _ => ⟨rfl, rfl, rfl⟩) ?_ (by simp) (by simp)⟩
  · intro pc l hx; rw [x.resp] at hx; cases hx
  · intro _; rw [x.r, outst_none hq, hr]; simp [outst]
  · unfold cancelDone
    split <;> (try split) <;> rfl

end Verif.ICache

import Verif.Proofs.ICacheCall
/-
The instruction cache and the read port: the control invariant.
-/
namespace Verif.ICache

/-- The number of the answer on the port. -/
def Cyc.T (i : Cyc) : Option Tx := i.mResp.map (·.1)

/-- The shape of the registers. -/
structure Shape (r : Regs) : Prop where
  idle : r.st = .idle → r.tx = none ∧ r.busy = false
  wait : r.st = .waitDc → r.tx = none ∧ r.busy = false ∧ r.reqV = true
  swap : r.st = .swapIn → r.tx ≠ none ∧ r.reqV = true
  cw : r.st = .cancelWait → r.tx ≠ none ∧ r.busy = false ∧ r.reqV = false ∧ r.ready = false
  canc : ∀ u, r.canc u = true ↔ r.infl u = true ∧ ¬(r.busy = true ∧ r.tx = some u)
  onB : ∀ u, r.tx = some u → r.infl u = r.busy
  rdy : r.ready = true → r.reqV = false ∧ r.st = .idle

/-- The registers and the port between two cycles. -/
structure Ctl (r : Regs) (e : Env) : Prop where
  sh : Shape r
  owed : ∀ u, r.infl u = (e.owed u).isSome
  last : ∀ u, e.last = some u → r.infl u = false ∧ r.tx ≠ some u
  held : ∀ f, e.offer = some f → f.held = true → r.st = .cancelWait ∧ r.tx = some f.tx
  offer : ∀ f, e.offer = some f → f.held = false →
    r.st = .swapIn ∧ r.busy = false ∧ r.tx = some f.tx ∧ (f.rdy = true → r.seen = true)

/-- The registers at a point of a cycle, and the port at its beginning. -/
structure Mid (r : Regs) (e : Env) (i : Cyc) : Prop where
  sh : Shape r
  inn : ∀ u, r.infl u = true → (e.owed u).isSome = true ∨ accTx e i = some u
  out : ∀ u, (e.owed u).isSome = true → r.infl u = true ∨ i.T = some u
  acc : ∀ u, accTx e i = some u → i.T ≠ some u ∧ (r.infl u = true ∨ (r.tx = some u ∧ r.busy = false))
  new : ∀ u, r.tx = some u → r.busy = false → e.owed u = none
  offer : ∀ f, e.offer = some f → i.acc = false → f.held = true ∨
    (r.st = .swapIn ∧ r.busy = false ∧ r.tx = some f.tx ∧ (f.rdy = true → r.seen = true))
  held : r.st = .cancelWait → ∀ f, e.offer = some f → f.held = true

/-- The inputs of a call show the port of the cycle. -/
structure Same (j : TopIn) (e : Env) (i : Cyc) : Prop where
  mReady : j.mReady = i.mReady
  mAcc : j.mAcc = accTx e i
  mResp : j.mResp = i.mResp

theorem same1 (e : Env) (i : Cyc) : Same (call1 e i) e i := ⟨rfl, rfl, rfl⟩
theorem same2 (e : Env) (i : Cyc) : Same (call2 e i) e i := ⟨rfl, rfl, rfl⟩

theorem accTx_some {e : Env} {i : Cyc} {u : Tx} (h : accTx e i = some u) : i.acc = true ∧ ∃ f, e.offer = some f ∧ f.tx = u := by
  unfold accTx at h
  split at h
  · rename_i ha
    refine ⟨ha, ?_⟩
    cases ho : e.offer with
    | none => rw [ho] at h; cases h
    | some f => rw [ho] at h; exact ⟨f, rfl, by simpa using h⟩
  · cases h

theorem T_some {i : Cyc} {u : Tx} (h : i.T = some u) : ∃ d, i.mResp = some (u, d) := by
  unfold Cyc.T at h
  cases hm : i.mResp with
  | none => rw [hm] at h; cases h
  | some x => rw [hm] at h; obtain ⟨v, d⟩ := x; simp at h; exact ⟨d, by rw [h]⟩

theorem Mid.of_ctl {w : World} {s : Sys} {i : Cyc} (h : Ctl s.c.r s.e) (hv : Valid w s i) : Mid s.c.r s.e i := by
  have hacc : ∀ u, accTx s.e i = some u → s.c.r.tx = some u ∧ s.c.r.busy = false := by
    intro u hu
    obtain ⟨_, f, hf, rfl⟩ := accTx_some hu
    cases hh : f.held
    · exact ⟨(h.offer f hf hh).2.2.1, (h.offer f hf hh).2.1⟩
    · have := h.held f hf hh
      exact ⟨this.2, (h.sh.cw this.1).2.1⟩
  refine ⟨h.sh, ?_, ?_, ?_, ?_, ?_, ?_⟩
  · intro u hu; exact .inl (by rw [← h.owed, hu])
  · intro u hu; exact .inl (by rw [h.owed, hu])
  · intro u hu
    have h1 := hacc u hu
    refine ⟨fun ht => ?_, .inr h1⟩
    obtain ⟨d, hd⟩ := T_some ht
    rcases hv.resp u d hd with ⟨a, f, ho, _⟩ | hl
    · have := h.sh.onB u h1.1
      rw [h.owed, ho, h1.2] at this; cases this
    · exact (h.last u hl).2 h1.1
  · intro u hu hb
    have := h.sh.onB u hu
    rw [h.owed, hb] at this
    simpa using this
  · intro f hf _
    cases hh : f.held
    · exact .inr (h.offer f hf hh)
    · exact .inl rfl
  · intro hs f hf
    cases hh : f.held
    · have := (h.offer f hf hh).1
      rw [hs] at this; cases this
    · rfl

section
variable {r : Regs} {e : Env} {i : Cyc} {j : TopIn}

theorem accNow_iff (h : Same j e i) : accNow r (j.core none) = true ↔ r.busy = false ∧ ∃ u, r.tx = some u ∧ accTx e i = some u := by
  have : (j.core none).mAcc = accTx e i := h.mAcc
  unfold accNow
  rw [this]
  cases r.tx <;> simp

theorem act_iff (hm : Mid r e i) (h : Same j e i) (d : Line) :
    active r (j.core none) = some d ↔ ∃ u, i.mResp = some (u, d) ∧ r.tx = some u ∧ r.busy = true := by
  have e1 : (j.core none).mResp = i.mResp := h.mResp
  unfold active
  rw [e1]
  cases hr : i.mResp with
  | none => simp
  | some x =>
    obtain ⟨t, d'⟩ := x
    have hT : i.T = some t := by simp [Cyc.T, hr]
    simp only
    constructor
    · intro hx
      split at hx
      · rename_i hc
        simp only [Bool.and_eq_true, decide_eq_true_eq, Bool.or_eq_true, Bool.not_eq_true'] at hc
        obtain ⟨⟨ht, hi⟩, hc⟩ := hc
        refine ⟨t, by simpa using hx, ht, ?_⟩
        rcases hi with hi | ⟨_, ha⟩
        · rw [← hm.sh.onB t ht]; exact hi
        · obtain ⟨_, u, hu, hau⟩ := (accNow_iff h).1 ha
          rw [ht] at hu; cases hu
          exact absurd hT (hm.acc t hau).1
      · cases hx
    · rintro ⟨u, hu, ht, hb⟩
      simp only [Option.some.injEq, Prod.mk.injEq] at hu
      obtain ⟨rfl, rfl⟩ := hu
      have hi : r.infl t = true := by rw [hm.sh.onB t ht, hb]
      have hc : r.canc t = false := by
        rw [← Bool.not_eq_true, hm.sh.canc]
        intro h'; exact h'.2 ⟨hb, ht⟩
      rw [if_pos]
      simp [ht, hi, hc]

theorem act_none (hm : Mid r e i) (h : Same j e i) : active r (j.core none) = none ↔
    ∀ u, i.T = some u → ¬(r.tx = some u ∧ r.busy = true) := by
  constructor
  · rintro hn u hT ⟨ht, hb⟩
    obtain ⟨d, hd⟩ := T_some hT
    have := (act_iff hm h d).2 ⟨u, hd, ht, hb⟩
    rw [hn] at this; cases this
  · intro hu
    cases ha : active r (j.core none) with
    | none => rfl
    | some d =>
      obtain ⟨u, h1, h2, h3⟩ := (act_iff hm h d).1 ha
      exact absurd ⟨h2, h3⟩ (hu u (by simp [Cyc.T, h1]))

theorem dropped_iff (hm : Mid r e i) (h : Same j e i) : dropped r (j.core none) = true ↔
    ∃ u, i.T = some u ∧ ¬(r.tx = some u ∧ r.busy = true) := by
  have e1 : (j.core none).mResp = i.mResp := h.mResp
  unfold dropped cancResp orphan
  rw [e1]
  cases hr : i.mResp with
  | none => simp [Cyc.T, hr]
  | some x =>
    obtain ⟨t, d'⟩ := x
    have hT : i.T = some t := by simp [Cyc.T, hr]
    simp only [Bool.or_eq_true, Bool.and_eq_true, Bool.not_eq_true']
    rw [Option.isNone_iff_eq_none, act_none hm h]
    have hc := hm.sh.canc t
    constructor
    · rintro (h1 | ⟨⟨h1, _⟩, _⟩)
      · exact ⟨t, hT, fun hx => (hc.1 h1).2 ⟨hx.2, hx.1⟩⟩
      · exact ⟨t, hT, h1 t hT⟩
    · rintro ⟨u, hu, hx⟩
      rw [hT] at hu; cases hu
      by_cases hi : r.infl t = true
      · exact .inl (hc.2 ⟨hi, fun hy => hx ⟨hy.2, hy.1⟩⟩)
      · have : r.canc t = false := by
          rw [← Bool.not_eq_true]; intro hy; exact hi (hc.1 hy).1
        exact .inr ⟨⟨fun u hu => by rw [hT] at hu; cases hu; exact hx, this⟩, by simpa using hi⟩

theorem drop_infl (h : Same j e i) (u : Tx) : (drop r (j.core none)).infl u =
    (r.infl u && !(dropped r (j.core none) && decide (i.T = some u))) := by
  have e1 : (j.core none).mResp = i.mResp := h.mResp
  have e2 : dropped r (j.core none) = (cancResp r (j.core none) || orphan r (j.core none)) := rfl
  rw [e2]
  unfold drop
  rw [e1]
  cases hr : i.mResp with
  | none => simp [Cyc.T, hr]
  | some x =>
    obtain ⟨t, d'⟩ := x
    have hT : i.T = some t := by simp [Cyc.T, hr]
    rw [hT]
    simp only
    by_cases hd : (cancResp r (j.core none) || orphan r (j.core none)) = true
    · rw [if_pos hd, hd]
      by_cases hu : t = u
      · subst hu; simp [setB]
      · have : ¬u = t := fun h => hu h.symm
        simp [setB, hu, this]
    · rw [if_neg hd, (Bool.not_eq_true _).mp hd]; simp

theorem drop_canc (h : Same j e i) (u : Tx) : (drop r (j.core none)).canc u =
    (r.canc u && !(dropped r (j.core none) && decide (i.T = some u))) := by
  have e1 : (j.core none).mResp = i.mResp := h.mResp
  have e2 : dropped r (j.core none) = (cancResp r (j.core none) || orphan r (j.core none)) := rfl
  rw [e2]
  unfold drop
  rw [e1]
  cases hr : i.mResp with
  | none => simp [Cyc.T, hr]
  | some x =>
    obtain ⟨t, d'⟩ := x
    have hT : i.T = some t := by simp [Cyc.T, hr]
    rw [hT]
    simp only
    by_cases hd : (cancResp r (j.core none) || orphan r (j.core none)) = true
    · rw [if_pos hd, hd]
      by_cases hu : t = u
      · subst hu; simp [setB]
      · have : ¬u = t := fun h => hu h.symm
        simp [setB, hu, this]
    · rw [if_neg hd, (Bool.not_eq_true _).mp hd]; simp

/-- What is owed after the cycle. -/
theorem owed_next (e : Env) (i : Cyc) (o : Out) (u : Tx) : ((e.next i o).owed u).isSome = true ↔
    ¬(o.mRespReady = true ∧ i.T = some u) ∧ (accTx e i = some u ∨ (e.owed u).isSome = true) := by
  unfold Env.next
  simp only
  have e1 : i.mResp.map (·.1) = i.T := rfl
  rw [e1]
  by_cases hd : o.mRespReady = true ∧ i.T = some u
  · rw [if_pos (by simp [hd])]
    simp [hd]
  · rw [if_neg (by simpa using hd)]
    simp only [hd, not_false_eq_true, true_and]
    unfold accTx
    cases ho : e.offer with
    | none => simp [old]
    | some f =>
      simp only
      by_cases ha : i.acc = true ∧ f.tx = u
      · rw [if_pos (by simp [ha])]; simp [ha]
      · rw [if_neg (by simpa using ha)]
        have : ¬((if i.acc = true then Option.map (fun x => x.tx) (some f) else none) = some u) := by
          intro hx; split at hx
          · rename_i h1; exact ha ⟨h1, by simpa using hx⟩
          · cases hx
        simp only [this, false_or]
        simp [old]

theorem last_next {e : Env} {i : Cyc} {o : Out} {u : Tx} (h : (e.next i o).last = some u) :
    i.T = some u ∧ o.mRespReady = true ∧ (e.owed u).isSome = true := by
  unfold Env.next at h
  simp only at h
  cases hr : i.mResp with
  | none => rw [hr] at h; cases h
  | some x =>
    obtain ⟨t, d⟩ := x
    rw [hr] at h
    simp only at h
    split at h
    · rename_i hc
      cases h
      simp only [Bool.and_eq_true] at hc
      exact ⟨by simp [Cyc.T, hr], hc⟩
    · cases h

/-- The offer after a cycle in which the cache puts nothing on the port. -/
theorem offer_next_none {e : Env} {i : Cyc} {o : Out} (ho : o.mReq = none) {f' : Offer} (h : (e.next i o).offer = some f') :
    ∃ f, e.offer = some f ∧ i.acc = false ∧ f.held = false ∧ (f.rdy = true ∨ i.mReady = true) ∧ f' = ⟨f.addr, f.tx, true, true⟩ := by
  unfold Env.next at h
  simp only [ho] at h
  cases hf : e.offer with
  | none => rw [hf] at h; cases h
  | some f =>
    rw [hf] at h
    simp only at h
    split at h
    · rename_i hc
      simp only [Bool.and_eq_true, Bool.not_eq_true', Bool.or_eq_true] at hc
      exact ⟨f, rfl, hc.1.1, hc.1.2, hc.2, by cases h; rfl⟩
    · cases h

/-- The registers after a call that withdraws everything. -/
structure Killed (r r' : Regs) (e : Env) (i : Cyc) : Prop where
  reqV : r'.reqV = false
  ready : r'.ready = false
  busy : r'.busy = false
  canc : ∀ u, r'.canc u = r'.infl u
  infl : ∀ u, r'.infl u = true ↔ (i.T = some u → r.tx = some u ∧ r.busy = true) ∧ (r.infl u = true ∨ accTx e i = some u)
  st : (r'.st = .idle ∧ r'.tx = none ∧ ∀ f, e.offer = some f → i.acc = false → f.held = false → f.rdy = false ∧ i.mReady = false) ∨
    (r'.st = .cancelWait ∧ r'.tx ≠ none ∧ r'.tx = r.tx ∧ r.busy = false ∧ r.st = .swapIn ∧ accTx e i ≠ r.tx)

theorem drop_infl_iff (hm : Mid r e i) (hs : Same j e i) (u : Tx) : (drop r (j.core none)).infl u = true ↔
    r.infl u = true ∧ (i.T = some u → r.tx = some u ∧ r.busy = true) := by
  rw [drop_infl hs]
  simp only [Bool.and_eq_true, Bool.not_eq_true', Bool.and_eq_false_iff, decide_eq_false_iff_not]
  rw [← Bool.not_eq_true, dropped_iff hm hs]
  constructor
  · rintro ⟨h1, h2⟩
    refine ⟨h1, fun hT => ?_⟩
    rcases h2 with h2 | h2
    · exact Decidable.not_not.1 fun hc => h2 ⟨u, hT, hc⟩
    · exact absurd hT h2
  · rintro ⟨h1, h2⟩
    refine ⟨h1, ?_⟩
    by_cases hT : i.T = some u
    · left
      rintro ⟨v, hv, hc⟩
      rw [hT] at hv; cases hv
      exact hc (h2 hT)
    · exact .inr hT

theorem drop_canc_iff (hm : Mid r e i) (hs : Same j e i) (u : Tx) : (drop r (j.core none)).canc u = true ↔
    (drop r (j.core none)).infl u = true ∧ ¬(r.busy = true ∧ r.tx = some u) := by
  rw [drop_infl hs, drop_canc hs]
  simp only [Bool.and_eq_true]
  rw [hm.sh.canc]
  constructor
  · rintro ⟨⟨a, b⟩, c⟩; exact ⟨⟨a, c⟩, b⟩
  · rintro ⟨⟨a, c⟩, b⟩; exact ⟨⟨a, b⟩, c⟩

theorem killed_idle (hm : Mid r e i) (hs : Same j e i) (ht : r.tx = none) (hb : r.busy = false) (r' : Regs)
    (hi : r'.infl = (drop r (j.core none)).infl) (hc : r'.canc = (drop r (j.core none)).canc)
    (h1 : r'.reqV = false) (h2 : r'.ready = false) (h3 : r'.busy = false) (h4 : r'.st = .idle) (h5 : r'.tx = none) : Killed r r' e i := by
  refine ⟨h1, h2, h3, ?_, ?_, .inl ⟨h4, h5, ?_⟩⟩
  · intro u
    rw [Bool.eq_iff_iff, hi, hc, drop_canc_iff hm hs]
    simp [hb]
  · intro u
    rw [hi, drop_infl_iff hm hs]
    constructor
    · rintro ⟨a, b⟩; exact ⟨b, .inl a⟩
    · rintro ⟨b, a | a⟩
      · exact ⟨a, b⟩
      · rcases (hm.acc u a).2 with h | h
        · exact ⟨h, b⟩
        · rw [ht] at h; cases h.1
  · intro f hf ha hh
    rcases hm.offer f hf ha with h | h
    · rw [hh] at h; cases h
    · rw [ht] at h; cases h.2.2.1

theorem killed {c : IC} (hm : Mid c.r e i) (hs : Same j e i) (hk : j.kill = true) : Killed c.r (call c j).1.r e i := by
  have hsh := hm.sh
  cases hst : c.r.st with
  | idle =>
    have x := call_idle_kill hk hst
    rw [x.r]
    apply killed_idle hm hs (hsh.idle hst).1 (hsh.idle hst).2 <;> simp [hst, hsh.idle hst]
  | waitDc =>
    have x := call_wait_kill hk hst
    rw [x.r]
    apply killed_idle hm hs (hsh.wait hst).1 (hsh.wait hst).2.1 <;> simp [Regs.noMiss, Regs.noProbe]
  | swapIn =>
    have x := call_swap_kill hk hst
    rw [x.r]
    obtain ⟨t, ht⟩ := Option.ne_none_iff_exists'.1 (hsh.swap hst).1
    unfold swapKill
    simp only [ht]
    by_cases h1 : (c.r.busy || accNow c.r (j.core none)) = true
    · rw [if_pos h1]
      have hor : c.r.busy = true ∨ accTx e i = some t := by
        simp only [Bool.or_eq_true] at h1
        refine h1.imp id fun h => ?_
        obtain ⟨_, u, hu, ha⟩ := (accNow_iff hs).1 h
        rw [ht] at hu; cases hu; exact ha
      refine ⟨rfl, rfl, rfl, ?_, ?_, .inl ⟨rfl, rfl, ?_⟩⟩
      · intro u
        simp only [Regs.noMiss, Regs.noProbe, setB]
        by_cases hu : u = t
        · simp [hu]
        · simp only [hu, if_false]
          rw [Bool.eq_iff_iff, drop_canc_iff hm hs, ht]
          have : ¬t = u := fun h => hu h.symm
          simp [this]
      · intro u
        simp only [Regs.noMiss, Regs.noProbe, setB]
        by_cases hu : u = t
        · subst hu
          simp only [if_true, true_iff]
          refine ⟨fun hT => ⟨ht, ?_⟩, ?_⟩
          · rcases hor with h | h
            · exact h
            · exact absurd hT (hm.acc _ h).1
          · refine hor.imp (fun h => ?_) id
            rw [hsh.onB u ht, h]
        · simp only [hu, if_false]
          rw [drop_infl_iff hm hs]
          constructor
          · rintro ⟨a, b⟩; exact ⟨b, .inl a⟩
          · rintro ⟨b, a | a⟩
            · exact ⟨a, b⟩
            · rcases (hm.acc u a).2 with h | h
              · exact ⟨h, b⟩
              · rw [ht] at h; cases h.1; exact absurd rfl hu
      · intro f hf ha hh
        rcases hm.offer f hf ha with h | h
        · rw [hh] at h; cases h
        · rcases hor with h' | h'
          · rw [h.2.1] at h'; cases h'
          · rw [(accTx_some h').1] at ha; cases ha
    · rw [if_neg h1]
      simp only [Bool.or_eq_true, not_or, Bool.not_eq_true] at h1
      have hib : c.r.infl t = false := by rw [hsh.onB t ht, h1.1]
      have hA : ∀ u, accTx e i = some u → c.r.infl u = true := by
        intro u hu
        rcases (hm.acc u hu).2 with h | h
        · exact h
        · have := (accNow_iff (r := c.r) hs).2 ⟨h1.1, u, h.1, hu⟩
          rw [h1.2] at this; cases this
      have hI : ∀ u, (drop c.r (j.core none)).infl u = true ↔
          (i.T = some u → c.r.tx = some u ∧ c.r.busy = true) ∧ (c.r.infl u = true ∨ accTx e i = some u) := by
        intro u
        rw [drop_infl_iff hm hs]
        constructor
        · rintro ⟨a, b⟩; exact ⟨b, .inl a⟩
        · rintro ⟨b, a | a⟩
          · exact ⟨a, b⟩
          · exact ⟨hA u a, b⟩
      have hC : ∀ u, (drop c.r (j.core none)).canc u = (drop c.r (j.core none)).infl u := by
        intro u
        rw [Bool.eq_iff_iff, drop_canc_iff hm hs, h1.1]
        simp
      by_cases h2 : (c.r.seen || (j.core none).mReady) = true
      · rw [if_pos h2]
        refine ⟨rfl, rfl, rfl, hC, hI, .inr ⟨rfl, ?_, ?_, h1.1, hst, ?_⟩⟩
        · show (drop c.r (j.core none)).tx ≠ none
          simp [ht]
        · show (drop c.r (j.core none)).tx = c.r.tx
          simp
        · rw [ht]; intro hx; have := hA t hx; rw [hib] at this; cases this
      · rw [if_neg h2]
        simp only [Bool.or_eq_true, not_or, Bool.not_eq_true] at h2
        refine ⟨rfl, rfl, rfl, hC, hI, .inl ⟨rfl, rfl, ?_⟩⟩
        intro f hf ha hh
        rcases hm.offer f hf ha with h | h
        · rw [hh] at h; cases h
        · refine ⟨?_, ?_⟩
          · rw [← Bool.not_eq_true]; intro hx
            have := h.2.2.2 hx
            rw [h2.1] at this; cases this
          · rw [← hs.mReady]; exact h2.2
  | cancelWait =>
    have x := call_cancel hst (i := j)
    rw [x.r, hk]
    obtain ⟨t, ht⟩ := Option.ne_none_iff_exists'.1 (hsh.cw hst).1
    have hb := (hsh.cw hst).2.1
    have hj : (j.core none).mAcc = accTx e i := hs.mAcc
    have hoff : ∀ f, e.offer = some f → i.acc = false → f.held = false → f.rdy = false ∧ i.mReady = false := by
      intro f hf _ hh
      rw [hm.held hst f hf] at hh; cases hh
    have hC : ∀ u, (drop c.r (j.core none)).canc u = (drop c.r (j.core none)).infl u := by
      intro u
      rw [Bool.eq_iff_iff, drop_canc_iff hm hs, hb]
      simp
    unfold cancelDone
    simp only [ht, hj]
    by_cases hA : accTx e i = some t
    · rw [if_pos hA]
      refine ⟨rfl, rfl, rfl, ?_, ?_, .inl ⟨rfl, rfl, hoff⟩⟩
      · intro u
        simp only [Regs.noMiss, Regs.noProbe, setB, hC]
      · intro u
        simp only [Regs.noMiss, Regs.noProbe, setB]
        by_cases hu : u = t
        · subst hu
          simp only [if_true, true_iff]
          exact ⟨fun hT => absurd hT (hm.acc _ hA).1, .inr hA⟩
        · simp only [hu, if_false]
          rw [drop_infl_iff hm hs, hA]
          have : ¬t = u := fun h => hu h.symm
          simp only [Option.some.injEq, this, or_false]
          exact and_comm
    · rw [if_neg hA]
      refine ⟨rfl, rfl, rfl, hC, ?_, .inl ⟨rfl, rfl, hoff⟩⟩
      intro u
      show (drop c.r (j.core none)).infl u = true ↔ _
      rw [drop_infl_iff hm hs]
      constructor
      · rintro ⟨a, b⟩; exact ⟨b, .inl a⟩
      · rintro ⟨b, a | a⟩
        · exact ⟨a, b⟩
        · rcases (hm.acc u a).2 with h | h
          · exact ⟨h, b⟩
          · rw [ht] at h; cases h.1; exact absurd a hA

/-- After a call that withdraws everything. -/
theorem Killed.ctl {r' : Regs} (hm : Mid r e i) (hk : Killed r r' e i) (o : Out) (ho : o.mReq = none)
    (hr : ∀ u, i.T = some u → (o.mRespReady = true ↔ ¬(r.tx = some u ∧ r.busy = true))) : Ctl r' (e.next i o) := by
  have hno : ∀ u, r'.tx = some u → r'.infl u = false := by
    intro u hu
    rcases hk.st with ⟨_, h, _⟩ | ⟨_, _, h, hb, _, ha⟩
    · rw [h] at hu; cases hu
    · rw [hu] at h
      rw [← Bool.not_eq_true, hk.infl]
      rintro ⟨_, h1 | h1⟩
      · rw [hm.sh.onB u h.symm, hb] at h1; cases h1
      · exact ha (h1.trans h)
  have hsh : Shape r' := by
    refine ⟨?_, ?_, ?_, ?_, ?_, ?_, ?_⟩
    · intro hs
      rcases hk.st with h | h
      · exact ⟨h.2.1, hk.busy⟩
      · rw [hs] at h; cases h.1
    · intro hs
      rcases hk.st with h | h <;> (rw [hs] at h; cases h.1)
    · intro hs
      rcases hk.st with h | h <;> (rw [hs] at h; cases h.1)
    · intro hs
      rcases hk.st with h | h
      · rw [hs] at h; cases h.1
      · exact ⟨h.2.1, hk.busy, hk.reqV, hk.ready⟩
    · intro u; rw [hk.canc, hk.busy]; simp
    · intro u hu; rw [hk.busy, hno u hu]
    · intro h; rw [hk.ready] at h; cases h
  refine ⟨hsh, ?_, ?_, ?_, ?_⟩
  · intro u
    rw [Bool.eq_iff_iff, owed_next, hk.infl]
    constructor
    · rintro ⟨h1, h2⟩
      refine ⟨fun h => (hr u h.2).1 h.1 (h1 h.2), ?_⟩
      rcases h2 with h2 | h2
      · exact (hm.inn u h2).symm
      · exact .inl h2
    · rintro ⟨h1, h2⟩
      have hT : i.T = some u → r.tx = some u ∧ r.busy = true := fun hT =>
        Decidable.not_not.1 fun hc => h1 ⟨(hr u hT).2 hc, hT⟩
      refine ⟨hT, ?_⟩
      rcases h2 with h2 | h2
      · exact .inr h2
      · rcases hm.out u h2 with h3 | h3
        · exact .inl h3
        · left; rw [hm.sh.onB u (hT h3).1, (hT h3).2]
  · intro u hu
    obtain ⟨hT, hrr, how⟩ := last_next hu
    have hna := (hr u hT).1 hrr
    refine ⟨?_, ?_⟩
    · rw [← Bool.not_eq_true, hk.infl]
      exact fun h => hna (h.1 hT)
    · intro hx
      rcases hk.st with ⟨_, h, _⟩ | ⟨_, _, h, hb, _⟩
      · rw [h] at hx; cases hx
      · rw [h] at hx
        rw [hm.new u hx hb] at how; cases how
  · intro f' hf' _
    obtain ⟨f, hf, ha, hh, hrd, rfl⟩ := offer_next_none ho hf'
    rcases hk.st with ⟨_, _, h⟩ | ⟨h1, _, h, _⟩
    · have := h f hf ha hh
      rcases hrd with h | h
      · rw [this.1] at h; cases h
      · rw [this.2] at h; cases h
    · refine ⟨h1, ?_⟩
      rcases hm.offer f hf ha with h2 | h2
      · rw [hh] at h2; cases h2
      · rw [h]; exact h2.2.2.1
  · intro f' hf' hh'
    obtain ⟨f, _, _, _, _, rfl⟩ := offer_next_none ho hf'
    cases hh'

/-- The outputs of a call that withdraws everything. -/
theorem killed_out {c : IC} (hm : Mid c.r e i) (hs : Same j e i) (hk : j.kill = true) :
    (call c j).2.mReq = none ∧ (call c j).2.resp = none ∧ (call c j).1.outRdy = false ∧ (call c j).1.t = c.t.flushed j.fenceI ∧
      ∀ u, i.T = some u → ((call c j).2.mRespReady = true ↔ ¬(c.r.tx = some u ∧ c.r.busy = true)) := by
  have hd : ∀ u, i.T = some u → (dropped c.r (j.core none) = true ↔ ¬(c.r.tx = some u ∧ c.r.busy = true)) := by
    intro u hu
    rw [dropped_iff hm hs]
    constructor
    · rintro ⟨v, hv, h⟩; rw [hu] at hv; cases hv; exact h
    · exact fun h => ⟨u, hu, h⟩
  cases hst : c.r.st with
  | idle => have x := call_idle_kill hk hst; exact ⟨x.mReq, x.resp, x.rdy, x.t, by rw [x.mrr]; exact hd⟩
  | waitDc => have x := call_wait_kill hk hst; exact ⟨x.mReq, x.resp, x.rdy, x.t, by rw [x.mrr]; exact hd⟩
  | swapIn => have x := call_swap_kill hk hst; exact ⟨x.mReq, x.resp, x.rdy, x.t, by rw [x.mrr]; exact hd⟩
  | cancelWait =>
    have x := call_cancel hst (i := j)
    refine ⟨x.mReq, x.resp, by rw [x.rdy, hk]; rfl, x.t, ?_⟩
    rw [x.mrr]
    intro u _
    simp [(hm.sh.cw hst).2.1]

theorem kill_ctl {c : IC} (hm : Mid c.r e i) (hs : Same j e i) (hk : j.kill = true) :
    Ctl (call c j).1.r (e.next i (call c j).2) :=
  (killed hm hs hk).ctl hm _ (killed_out hm hs hk).1 (killed_out hm hs hk).2.2.2.2

/-! ### Calls that withdraw nothing -/

/-- The registers after a call that withdraws nothing. -/
structure Went (r r' : Regs) (e : Env) (i : Cyc) (o : Out) : Prop where
  sh : Shape r'
  infl : ∀ u, r'.infl u = true ↔ i.T ≠ some u ∧ (r.infl u = true ∨ accTx e i = some u)
  mrr : i.T ≠ none → o.mRespReady = true
  tx : ∀ u, r'.tx = some u → i.T = some u → r.infl u = false
  new : ∀ u, r'.tx = some u → r'.busy = false → r.infl u = false
  off : ∀ f, e.offer = some f → i.acc = false → f.held = false → o.mReq ≠ none
  req : ∀ a t, o.mReq = some (a, t) → r'.st = .swapIn ∧ r'.busy = false ∧ r'.tx = some t ∧ r.tx = some t ∧ r.st = .swapIn ∧
    (i.mReady = true → r'.seen = true) ∧ (r.seen = true → r'.seen = true)
  noCw : r'.st ≠ .cancelWait

theorem Went.ctl {r' : Regs} {o : Out} (hc : Ctl r e) (h : Went r r' e i o) : Ctl r' (e.next i o) := by
  refine ⟨h.sh, ?_, ?_, ?_, ?_⟩
  · intro u
    rw [Bool.eq_iff_iff, owed_next, h.infl, ← hc.owed]
    constructor
    · rintro ⟨h1, h2⟩; exact ⟨fun hx => h1 hx.2, h2.symm⟩
    · rintro ⟨h1, h2⟩; exact ⟨fun hx => h1 ⟨h.mrr (by rw [hx]; simp), hx⟩, h2.symm⟩
  · intro u hu
    obtain ⟨hT, _, how⟩ := last_next hu
    refine ⟨?_, fun hx => ?_⟩
    · rw [← Bool.not_eq_true, h.infl]; exact fun hx => hx.1 hT
    · have := h.tx u hx hT
      rw [hc.owed, how] at this; cases this
  · intro f' hf' hh
    cases hq : o.mReq with
    | none =>
      obtain ⟨f, hf, ha, hh', _, rfl⟩ := offer_next_none hq hf'
      exact absurd hq (h.off f hf ha hh')
    | some x =>
      unfold Env.next at hf'
      simp only [hq] at hf'
      cases hf'; cases hh
  · intro f' hf' hh
    cases hq : o.mReq with
    | none =>
      obtain ⟨f, hf, ha, hh', _, rfl⟩ := offer_next_none hq hf'
      cases hh
    | some x =>
      obtain ⟨a, t⟩ := x
      have h' := h.req a t hq
      unfold Env.next at hf'
      simp only [hq, Option.some.injEq] at hf'
      subst hf'
      refine ⟨h'.1, h'.2.1, h'.2.2.1, ?_⟩
      simp only [Bool.or_eq_true]
      rintro (hx | hx)
      · cases hf : e.offer with
        | none => rw [hf] at hx; cases hx
        | some f =>
          rw [hf] at hx
          simp only [Bool.and_eq_true] at hx
          apply h'.2.2.2.2.2.2
          cases hfh : f.held
          · exact (hc.offer f hf hfh).2.2.2 hx.2
          · have := (hc.held f hf hfh).1
            rw [h'.2.2.2.2.1] at this; cases this
      · exact h'.2.2.2.2.2.1 hx

theorem Went.mid {r' : Regs} {o : Out} (hc : Ctl r e) (hm : Mid r e i) (h : Went r r' e i o) : Mid r' e i := by
  refine ⟨h.sh, ?_, ?_, ?_, ?_, ?_, fun hx => absurd hx h.noCw⟩
  · intro u hu
    rcases ((h.infl u).1 hu).2 with h1 | h1
    · exact .inl (by rw [← hc.owed]; exact h1)
    · exact .inr h1
  · intro u hu
    by_cases hT : i.T = some u
    · exact .inr hT
    · exact .inl ((h.infl u).2 ⟨hT, .inl (by rw [hc.owed]; exact hu)⟩)
  · intro u hu
    have := (hm.acc u hu).1
    exact ⟨this, .inl ((h.infl u).2 ⟨this, .inr hu⟩)⟩
  · intro u hu hb
    have := h.new u hu hb
    rw [hc.owed] at this
    simpa using this
  · intro f hf ha
    cases hh : f.held with
    | true => exact .inl rfl
    | false =>
      right
      obtain ⟨⟨a, t⟩, hq⟩ := Option.ne_none_iff_exists'.1 (h.off f hf ha hh)
      have h' := h.req a t hq
      have h0 := hc.offer f hf hh
      refine ⟨h'.1, h'.2.1, ?_, fun hx => h'.2.2.2.2.2.2 (h0.2.2.2 hx)⟩
      rw [h'.2.2.1, ← h'.2.2.2.1, h0.2.2.1]

end

end Verif.ICache

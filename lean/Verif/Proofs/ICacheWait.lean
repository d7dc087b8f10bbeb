import Verif.Proofs.ICacheInv
/-
How long the instruction cache takes.
-/
namespace Verif.ICache

variable {w : World} {s : Sys} {i : Cyc} {q : Option W32}

/-- How many cycles the probe still takes. -/
def probeLeft (r : Regs) (p1 : Option (W32 × Bool)) : Nat :=
  if r.pDone then 0 else 3 * (16 - r.pWord.val) - (if r.pInfl then (if p1.isSome then 1 else 2) else 0)

/-- How far the answer is. -/
def rank (s : Sys) : Nat := match s.c.r.st with
  | .idle => 52
  | .swapIn => probeLeft s.c.r s.e.p1 + if s.c.r.busy then 1 else if s.e.offer.isSome then 2 else 3
  | .waitDc => probeLeft s.c.r s.e.p1
  | .cancelWait => 0

theorem probeLeft_congr {r r' : Regs} {p : Option (W32 × Bool)} (h1 : r'.pInfl = r.pInfl) (h2 : r'.pDone = r.pDone) (h4 : r'.pWord = r.pWord) :
    probeLeft r' p = probeLeft r p := by
  simp [probeLeft, h1, h2, h4]

theorem probeLeft_step {r v : Regs} {j : In} {p1 p2 : Option (W32 × Bool)} {pr : Option W32} (h : ProbeOk w r.base r p1 p2) (hv : r.reqV = true)
    (hj : j.probe = if p2.isSome then some pr else none)
    (hvi : v.pInfl = r.pInfl) (hvd : v.pDone = r.pDone) (hvw : v.pWord = r.pWord) :
    (r.pDone = true → (probeStep r j v).pDone = true) ∧
    (r.pDone = false → probeLeft (probeStep r j v) ((probeReq r).map fun a => (a, true)) + 1 ≤ probeLeft r p1) := by
  have hlt := r.pWord.isLt
  cases hi : r.pInfl with
  | true =>
    have hq : probeReq r = none := by simp [probeReq, hi]
    have hdn : r.pDone = false := by
      rw [← Bool.not_eq_true]; intro hx; have := h.done hx; rw [hi] at this; cases this
    refine ⟨(fun hx => by rw [hdn] at hx; cases hx), fun _ => ?_⟩
    rcases h.infl hi with ⟨h1, h2⟩ | ⟨h1, h2⟩
    · have e : probeStep r j v = v := by
        unfold probeStep
        rw [hj, h2, hq]
        simp [hi]
      rw [e, hq, h1]
      simp only [probeLeft, hvd, hdn, hvw, hvi, hi]
      simp
      omega
    · rw [h1, hq]
      cases pr with
      | none =>
        have e : probeStep r j v = { v with pInfl := false, pDone := true, pHit := false } := by
          unfold probeStep
          rw [hj, h2, hq]
          simp [hi]
        rw [e]
        simp only [probeLeft, hdn, hi]
        simp
        omega
      | some d =>
        by_cases hlt' : r.pWord.val + 1 < 16
        · have e : probeStep r j v = { v with pInfl := false, pHit := true, pData := (fun j => if j = r.pWord then d else v.pData j), pWord := ⟨r.pWord.val + 1, hlt'⟩ } := by
            unfold probeStep
            rw [hj, h2, hq]
            simp [hi, hlt']
          rw [e]
          simp only [probeLeft, hvd, hdn, hi]
          simp
          omega
        · have e : probeStep r j v = { v with pInfl := false, pHit := true, pData := (fun j => if j = r.pWord then d else v.pData j), pDone := true } := by
            unfold probeStep
            rw [hj, h2, hq]
            simp [hi, hlt']
          rw [e]
          simp only [probeLeft, hdn, hi]
          simp
          omega
  | false =>
    obtain ⟨h1, h2⟩ := h.free hi
    cases hdn : r.pDone with
    | true =>
      refine ⟨fun _ => ?_, (fun hx => by cases hx)⟩
      have hq : probeReq r = none := by simp [probeReq, hdn]
      have e : probeStep r j v = v := by
        unfold probeStep
        rw [hj, h2, hq]
        simp [hi]
      rw [e, hvd, hdn]
    | false =>
      refine ⟨(fun hx => by cases hx), fun _ => ?_⟩
      have hq := probeReq_base hv hdn hi
      have e : probeStep r j v = { v with pInfl := true } := by
        unfold probeStep
        rw [hj, h2, hq]
        simp [hi]
      rw [e, hq, h1]
      simp only [probeLeft, hvd, hdn, hvw, hi]
      simp
      omega

theorem probeLeft_le {r v : Regs} {j : In} {p1 p2 : Option (W32 × Bool)} {pr : Option W32} (h : ProbeOk w r.base r p1 p2) (hv : r.reqV = true)
    (hj : j.probe = if p2.isSome then some pr else none)
    (hvi : v.pInfl = r.pInfl) (hvd : v.pDone = r.pDone) (hvw : v.pWord = r.pWord) :
    probeLeft (probeStep r j v) ((probeReq r).map fun a => (a, true)) ≤ probeLeft r p1 := by
  obtain ⟨h1, h2⟩ := probeLeft_step (v := v) (j := j) h hv hj hvi hvd hvw
  cases hd : r.pDone with
  | true => simp [probeLeft, h1 hd]
  | false => have := h2 hd; omega

theorem rank_step (h : Inv w s q) (hv : Valid w s i) (hk : i.kill = false) (hr : (s.cycle i).2.resp = none) {pc : W32} (hq : q = some pc) :
    rank (s.cycle i).1 ≤ rank s ∧ (¬Excused s pc i → rank (s.cycle i).1 + 1 ≤ rank s) := by
  have hki := hk
  simp only [Cyc.kill, Bool.or_eq_false_iff] at hki
  obtain ⟨⟨hrf, hfe⟩, hiv⟩ := hki
  have hk1 : (call1 s.e i).kill = false := by rw [call1_kill, hrf, hfe]; rfl
  rw [cycle_out] at hr
  rw [cycle_one s i hiv]
  have hm := Mid.of_ctl h.ctl hv
  have hs := same1 s.e i
  have hc := h.ctl
  have hd := h.dat
  have hreq := h.req
  rw [hq] at hreq
  have hqv : s.c.r.reqV = true ∧ s.c.r.reqPc = pc := by
    unfold outst at hreq
    split at hreq
    · rename_i hx; exact ⟨hx, by simpa using hreq.symm⟩
    · cases hreq
  obtain ⟨hqv, hpc⟩ := hqv
  cases hst : s.c.r.st with
  | cancelWait => have := (hc.sh.cw hst).2.2.1; rw [hqv] at this; cases this
  | idle =>
    obtain ⟨ht, hb⟩ := hc.sh.idle hst
    have hreg := call_reg hk1 hst ht hqv
    have r0 : rank s = 52 := by simp [rank, hst]
    rw [r0]
    have hidle : ∀ {r : Regs} {t : Tabs} {o m p b}, Is (call s.c (call1 s.e i)) r t o none m p b → r.st = .idle → Excused s pc i →
        rank ⟨(call s.c (call1 s.e i)).1, s.e.next i (call s.c (call1 s.e i)).2⟩ ≤ 52 ∧
        (¬Excused s pc i → rank ⟨(call s.c (call1 s.e i)).1, s.e.next i (call s.c (call1 s.e i)).2⟩ + 1 ≤ 52) := by
      intro r t o m p b x hst' hx
      refine ⟨?_, fun hn => absurd hx hn⟩
      simp [rank, x.r, hst']
    cases hmm : i.mmu (vpnOf s.c.r.reqPc) with
    | none =>
      apply hidle (hreg.retry hmm)
      · simp [hst]
      · unfold Excused; rw [hst]; left; rw [← hpc]; exact hmm
    | some xl =>
      cases xl with
      | fault =>
        have x := hreg.fault hmm
        rw [x.resp] at hr; cases hr
      | page p =>
        cases htab : tabWay s.c.t (idxOf s.c.r.reqPc) p with
        | some y =>
          have x := hreg.hit p y hmm htab
          rw [x.resp] at hr; cases hr
        | none =>
          cases hf : freeTx s.c.r with
          | none =>
            apply hidle (hreg.full p hmm htab hf)
            · simp [hst]
            · unfold Excused; rw [hst]; right
              intro t
              rw [← hc.owed]
              have := List.find?_eq_none.1 hf t (List.mem_finRange t)
              simpa using this
          | some t =>
            have x := hreg.miss p t hmm htab hf
            have ho : (s.e.next i (call s.c (call1 s.e i)).2).offer = none := by
              cases ho : (s.e.next i (call s.c (call1 s.e i)).2).offer with
              | none => rfl
              | some f' =>
                obtain ⟨f, hf, _, hh, _⟩ := offer_next_none x.mReq ho
                have := (hc.offer f hf hh).1
                rw [hst] at this; cases this
            have : rank ⟨(call s.c (call1 s.e i)).1, s.e.next i (call s.c (call1 s.e i)).2⟩ = 51 := by
              simp [rank, x.r, Regs.noProbe, ho, probeLeft, hb]
            rw [this]
            exact ⟨by omega, fun _ => by omega⟩
  | waitDc =>
    have x := call_wait hk1 hst
    obtain ⟨ht, hb, _⟩ := hc.sh.wait hst
    have hkk : ((call1 s.e i).core none).kill = false := hk1
    have hfl : ((call1 s.e i).core none).flush = false := hfe
    have hpr := probeLeft_step (v := drop s.c.r ((call1 s.e i).core none)) (j := (call1 s.e i).core none) (pr := i.probe) (hd.probe (.inr hst)) hqv rfl
      (by simp) (by simp) (by simp)
    have c3 : (probeStep s.c.r ((call1 s.e i).core none) (drop s.c.r ((call1 s.e i).core none))).st = .waitDc := by simp [hst]
    generalize hP : probeStep s.c.r ((call1 s.e i).core none) (drop s.c.r ((call1 s.e i).core none)) = P at hpr c3
    by_cases hdn : P.pDone = true
    · have e : waitOut s.c (call1 s.e i) = finish s.c.r ((call1 s.e i).core none) P { mRespReady := dropped s.c.r ((call1 s.e i).core none), probe := probeReq s.c.r }
          (if P.pHit then P.pData else s.c.r.resp) s.c.r.repl := by
        unfold waitOut waitStep
        simp only [hkk, Bool.false_eq_true, if_false, hP]
        rw [if_pos hdn]
      rw [e] at x
      unfold finish at x
      simp only [ht, hkk, hfl, Bool.not_false, Bool.and_self, if_true, Bool.false_eq_true, if_false] at x
      rw [x.resp] at hr; cases hr
    · have e : waitOut s.c (call1 s.e i) = { r := P, o := { mRespReady := dropped s.c.r ((call1 s.e i).core none), probe := probeReq s.c.r }, tw := {}, rdy := false } := by
        unfold waitOut waitStep
        simp only [hkk, hfl, Bool.false_eq_true, if_false, hP]
        rw [if_neg hdn]
      rw [e] at x
      simp only at x
      have hn := next_p s.e i (call s.c (call1 s.e i)).2 hfe
      rw [x.probe] at hn
      have hnd : s.c.r.pDone = false := by
        rw [← Bool.not_eq_true]; exact fun hx => hdn (hpr.1 hx)
      have h2 := hpr.2 hnd
      have r0 : rank s = probeLeft s.c.r s.e.p1 := by simp [rank, hst]
      have r1 : rank ⟨(call s.c (call1 s.e i)).1, s.e.next i (call s.c (call1 s.e i)).2⟩ = probeLeft P ((probeReq s.c.r).map fun a => (a, true)) := by
        unfold rank
        simp only [x.r, c3, hn.1]
        exact probeLeft_congr rfl rfl rfl
      rw [r0, r1]
      exact ⟨by omega, fun _ => h2⟩
  | swapIn =>
    have x := call_swap hk1 hst
    obtain ⟨hne, _⟩ := hc.sh.swap hst
    obtain ⟨t, ht⟩ := Option.ne_none_iff_exists'.1 hne
    have hpr := probeLeft_le (v := drop s.c.r ((call1 s.e i).core none)) (j := (call1 s.e i).core none) (pr := i.probe) (hd.probe (.inl hst)) hqv rfl
      (by simp) (by simp) (by simp)
    have c3 : (probeStep s.c.r ((call1 s.e i).core none) (drop s.c.r ((call1 s.e i).core none))).st = .swapIn := by simp [hst]
    have c4 : (probeStep s.c.r ((call1 s.e i).core none) (drop s.c.r ((call1 s.e i).core none))).busy = s.c.r.busy := by simp
    by_cases hb : s.c.r.busy = true
    · have r0 : rank s = probeLeft s.c.r s.e.p1 + 1 := by simp [rank, hst, hb]
      cases hn : active s.c.r ((call1 s.e i).core none) with
      | none =>
        rw [swapOut_busy hk1 hb hn] at x
        simp only [Bool.false_eq_true, if_false] at x
        have hnx := next_p s.e i (call s.c (call1 s.e i)).2 hfe
        rw [x.probe] at hnx
        have r1 : rank ⟨(call s.c (call1 s.e i)).1, s.e.next i (call s.c (call1 s.e i)).2⟩ =
            probeLeft (probeStep s.c.r ((call1 s.e i).core none) (drop s.c.r ((call1 s.e i).core none))) ((probeReq s.c.r).map fun a => (a, true)) + 1 := by
          unfold rank
          simp only [x.r, c3, hnx.1, c4, hb, if_true]
          exact congrArg (· + 1) (probeLeft_congr rfl rfl rfl)
        rw [r0, r1]
        refine ⟨by omega, fun hx => absurd ?_ hx⟩
        unfold Excused
        rw [hst]
        right
        refine ⟨t, ht, ?_, fun h => (act_none hm hs).1 hn t h ⟨ht, hb⟩⟩
        rw [← hc.owed, hc.sh.onB t ht, hb]
      | some d =>
        have hg := swapOut_got hk1 hb ht hn
        dsimp only at hg
        generalize hP : probeStep s.c.r ((call1 s.e i).core none) (drop s.c.r ((call1 s.e i).core none)) = P at hpr hg c3 c4
        by_cases hdn : P.pDone = true
        · rw [if_pos hdn] at hg
          rw [hg] at x
          rw [x.resp] at hr; cases hr
        · rw [if_neg hdn] at hg
          rw [hg] at x
          simp only [Bool.false_eq_true, if_false] at x
          have hnx := next_p s.e i (call s.c (call1 s.e i)).2 hfe
          rw [x.probe] at hnx
          have r1 : rank ⟨(call s.c (call1 s.e i)).1, s.e.next i (call s.c (call1 s.e i)).2⟩ = probeLeft P ((probeReq s.c.r).map fun a => (a, true)) := by
            unfold rank
            simp only [x.r, hnx.1]
            exact probeLeft_congr rfl rfl rfl
          rw [r0, r1]
          exact ⟨by omega, fun _ => by omega⟩
    · simp only [Bool.not_eq_true] at hb
      have hn : active s.c.r ((call1 s.e i).core none) = none := (act_none hm hs).2 fun u _ h => by rw [hb] at h; cases h.2
      by_cases ha : accNow s.c.r ((call1 s.e i).core none) = true
      · obtain ⟨_, u, htu, hau⟩ := (accNow_iff hs).1 ha
        obtain ⟨hacc, f, hfo, hft⟩ := accTx_some hau
        obtain ⟨b, hg⟩ := swapOut_acc hk1 hb ha ht hn
        rw [hg] at x
        simp only [Bool.false_eq_true, if_false] at x
        have hnx := next_p s.e i (call s.c (call1 s.e i)).2 hfe
        rw [x.probe] at hnx
        have r0 : rank s = probeLeft s.c.r s.e.p1 + 2 := by simp [rank, hst, hb, hfo]
        have r1 : rank ⟨(call s.c (call1 s.e i)).1, s.e.next i (call s.c (call1 s.e i)).2⟩ =
            probeLeft (probeStep s.c.r ((call1 s.e i).core none) (drop s.c.r ((call1 s.e i).core none))) ((probeReq s.c.r).map fun a => (a, true)) + 1 := by
          unfold rank
          simp only [x.r, c3, hnx.1, if_true]
          exact congrArg (· + 1) (probeLeft_congr rfl rfl rfl)
        rw [r0, r1]
        exact ⟨by omega, fun _ => by omega⟩
      · simp only [Bool.not_eq_true] at ha
        rw [swapOut_offer hk1 hb ha] at x
        simp only [Bool.false_eq_true, if_false] at x
        have hnx := next_p s.e i (call s.c (call1 s.e i)).2 hfe
        rw [x.probe] at hnx
        have ho : (s.e.next i (call s.c (call1 s.e i)).2).offer.isSome = true := by
          unfold Env.next
          simp only [x.mReq, ht, Option.map_some, Option.isSome_some]
        have r1 : rank ⟨(call s.c (call1 s.e i)).1, s.e.next i (call s.c (call1 s.e i)).2⟩ =
            probeLeft (probeStep s.c.r ((call1 s.e i).core none) (drop s.c.r ((call1 s.e i).core none))) ((probeReq s.c.r).map fun a => (a, true)) + 2 := by
          unfold rank
          simp only [x.r, c3, hnx.1, ho, c4, hb, if_true, Bool.false_eq_true, if_false]
          exact congrArg (· + 2) (probeLeft_congr rfl rfl rfl)
        rw [r1]
        cases hof : s.e.offer with
        | none =>
          have r0 : rank s = probeLeft s.c.r s.e.p1 + 3 := by simp [rank, hst, hb, hof]
          rw [r0]
          exact ⟨by omega, fun _ => by omega⟩
        | some f =>
          have r0 : rank s = probeLeft s.c.r s.e.p1 + 2 := by simp [rank, hst, hb, hof]
          rw [r0]
          refine ⟨by omega, fun hx => absurd ?_ hx⟩
          unfold Excused
          rw [hst]
          left
          refine ⟨by rw [hof]; rfl, ?_⟩
          rw [← Bool.not_eq_true]
          intro hacc
          have hau : accTx s.e i = some f.tx := by simp [accTx, hacc, hof]
          have htx : s.c.r.tx = some f.tx := by
            cases hh : f.held
            · exact (hc.offer f hof hh).2.2.1
            · exact (hc.held f hof hh).2
          have := (accNow_iff (r := s.c.r) hs).2 ⟨hb, f.tx, htx, hau⟩
          rw [ha] at this; cases this

theorem rank_le (s : Sys) : rank s ≤ 52 := by
  unfold rank probeLeft
  repeat' split
  all_goals omega

theorem waits_rank {pc : W32} {s0 s1 : Sys} {n : Nat} (h : Inv w s0 (some pc)) (hw : Waits w pc s0 n s1) :
    Inv w s1 (some pc) ∧ n + rank s1 ≤ rank s0 := by
  induction hw with
  | nil => exact ⟨h, by omega⟩
  | excused i _ hv hk hr _ ih =>
    obtain ⟨h1, h2⟩ := ih
    have h3 := rank_step h1 hv hk hr rfl
    have h4 := inv_step h1 hv (w' := w) ⟨fun _ => rfl, fun _ => ⟨rfl, rfl, rfl⟩⟩
    rw [hk, hr] at h4
    exact ⟨h4, by omega⟩
  | step i _ hv hk hr hx ih =>
    obtain ⟨h1, h2⟩ := ih
    have h3 := (rank_step h1 hv hk hr rfl).2 hx
    have h4 := inv_step h1 hv (w' := w) ⟨fun _ => rfl, fun _ => ⟨rfl, rfl, rfl⟩⟩
    rw [hk, hr] at h4
    exact ⟨h4, by omega⟩

end Verif.ICache

import Verif.Proofs.Settle
/-
C125: the back end does not come to a halt: in a cycle in which the rest of the machine is open to it, something moves unless something
is outstanding outside; and over an endless run in which the rest of the machine does its part, the oldest instruction retires, and
every instruction retires or is squashed.
-/
namespace Verif.Props
open Verif.Spine Verif.SpineProofs Verif.AliveProofs Verif.Alive
open Verif.Decode (Iq decompose MicroOp DecInst)
open Verif.RobQueue (insts)
open Verif.IssueWindow (queued)
open Verif.DispatchGroup (fired waiting)
open Verif.Waker (Alu)

section
variable {n : Nat} {k : Waker.Cfg} {s s' : Waker.State n} {c : Waker.Cyc n}

/-- The empty queues have room. -/
theorem room_of (hz : Sized n k) {bw : BranchWindow.Sys n} (I : SchedProofs.Inv k.sc s.sc bw) (he : robIds k.sc.sp s.sc.sp = []) (q : Iq) :
    0 < IssueQueue.freeSlots (k.sc.size q) (s.sc.iq q) := by
  have hi := Proofs.IssueQueue.inv_reach (I.iqr q)
  have hq : queued (s.sc.iq q) = [] := by
    rw [List.eq_nil_iff_forall_not_mem]
    intro x hx
    have := SchedProofs.queued_rob I hx
    rw [he] at this; cases this
  unfold IssueQueue.freeSlots
  rw [hi.count, hq]
  exact hz.slots q

/-- With an instruction waiting and an empty reorder buffer, one is dispatched. -/
theorem to_rob (hk : Good k.sc.sp) (hz : Sized n k) {bw rw Z g} (hl : Link k.sc.sp s.sc.sp bw rw Z g) (I : SchedProofs.Inv k.sc s.sc bw)
    (he : insts k.sc.sp.L s.sc.sp.rob = []) (hr : Room c) (hw : waiting s.sc.sp.dis ≠ []) (ws : List Nat) :
    ∃ u ∈ disIds s.sc.sp, u ∈ robIds k.sc.sp (Spine.step k.sc.sp s.sc.sp (Sched.hw k.sc s.sc (Waker.cyc c ws))) := by
  have hf := dispatches hk hl he (Sched.hw k.sc s.sc (Waker.cyc c ws))
    (fun q => ⟨hz.dports q, room_of hz I (by unfold robIds; rw [he]; rfl) q⟩) hz.loads hz.stores hr.1 hr.2.1 hr.2.2 hw
  obtain ⟨a, ha⟩ := List.exists_mem_of_ne_nil _ hf
  exact ⟨_, SchedProofs.fired_dis hl ha, ProgressProofs.fired_rob hk hl ha⟩

/-- The kind of an operation in a queue has a port. -/
theorem port_of (hz : Sized n k) {bw : BranchWindow.Sys n} (I : SchedProofs.Inv k.sc s.sc bw) {q : Iq} {x : IssueQueue.Uop n} (hx : x ∈ queued (s.sc.iq q)) :
    ∃ p ∈ k.sc.ports q, p.cap x.op = true := by
  obtain ⟨m, hm, m1, m2, _⟩ := (I.ops q x hx).op
  obtain ⟨p, h1, h2⟩ := hz.ports _ m hm
  exact ⟨p, by rw [← m1]; exact h1, by rw [m2]; exact h2⟩

/-- If an operation in a queue is ready, the queue issues something. -/
theorem some_issue (hz : Sized n k) {bw : BranchWindow.Sys n} (I : SchedProofs.Inv k.sc s.sc bw) {q : Iq} {x : IssueQueue.Uop n}
    (hx : x ∈ queued (s.sc.iq q)) (hrd : IssueWindow.ready x) (c : Sched.Cyc n) (hf : flush s.sc.sp (Sched.hw k.sc s.sc c) = false)
    (hm : s.sc.sp.idu.latch.mispred = false) (hu : ∀ p o, c.fuReady p o = true) : Sched.issued k.sc s.sc c q ≠ [] := by
  have hblk : (Sched.iqIn k.sc s.sc c q).block = false := by
    show (flush s.sc.sp (Sched.hw k.sc s.sc c) || s.sc.sp.idu.latch.mispred) = false
    rw [hf, hm]; rfl
  obtain ⟨i, hi⟩ := Proofs.IssueQueue.mem_queued.1 hx
  obtain ⟨p, hpp, hcap⟩ := port_of hz I hx
  have : ∃ e, e ∈ IssueQueue.granted (k.sc.policy q) (k.sc.ports q) (s.sc.iq q)
      (Sched.iqIn k.sc s.sc c q).fuReady (Sched.iqIn k.sc s.sc c q).block := by
    by_cases hg : ∃ p, (i, p) ∈ IssueQueue.granted (k.sc.policy q) (k.sc.ports q) (s.sc.iq q)
      (Sched.iqIn k.sc s.sc c q).fuReady (Sched.iqIn k.sc s.sc c q).block
    · obtain ⟨p, hg⟩ := hg; exact ⟨_, hg⟩
    · obtain ⟨y, hy⟩ := C23_work_conserving (I.iqr q) (Sched.iqIn k.sc s.sc c q) hi hrd hblk hu
        (fun r hr => hg ⟨r, hr⟩) hpp hcap
      exact ⟨_, hy⟩
  obtain ⟨e, he⟩ := this
  obtain ⟨u, _, hu', _⟩ := C23_sound (I.iqr q) (Sched.iqIn k.sc s.sc c q) he
  exact List.ne_nil_of_mem (a := u) (List.mem_filterMap.2 ⟨_, he, by rw [hu']; rfl⟩)

/-- C125: in a cycle without misprediction in which the units accept work, the instruction buffer offers an instruction and, if the reorder
buffer is empty, the load and store queues have room: something moves, or something is outstanding outside. -/
theorem C125_never_stuck (hk : Good k.sc.sp) (ha : Alu k) (hz : Sized n k) (h : Progress.Reach k s) (hs : Waker.step k s c = some s')
    (hm : s.sc.sp.idu.latch.mispred = false) (hu : ∀ p o, c.fuReady p o = true)
    (hr : robIds k.sc.sp s.sc.sp = [] → Room c) (hib : c.hw.ib.filterMap id ≠ []) : Outstanding k s c ∨ Moves k s c s' := by
  obtain ⟨_, hrs, bw, rw, Z, g, hl, I, W⟩ := WakerProofs.reach hk ha (ProgressProofs.base h)
  obtain ⟨ws, _, hst, _⟩ := WakerProofs.step_some hs
  obtain ⟨_, hsp, _⟩ := SchedProofs.step_some hst
  cases hi : insts k.sc.sp.L s.sc.sp.rob with
  | nil =>
    right
    by_cases hwt : waiting s.sc.sp.dis = []
    · by_cases hlt : latIds s.sc.sp = []
      · refine .inr (.inr (.inr (.inr ?_)))
        rw [hsp]
        exact decodes hk hl hi hwt hz.tags hz.brs _ hlt hib
      · refine .inr (.inr (.inr (.inl ?_)))
        rw [hsp]
        exact renames hk hrs hl hi hwt hz.pregs _ hlt
    · refine .inr (.inr (.inl ?_))
      rw [hsp]
      exact to_rob hk hz hl I hi (hr (by unfold robIds; rw [hi]; rfl)) hwt ws
  | cons v rest =>
    have hvm : v ∈ insts k.sc.sp.L s.sc.sp.rob := by rw [hi]; exact List.mem_cons_self ..
    by_cases hret : retired s.sc.sp (hw k s c) ≠ []
    · exact .inr (.inl hret)
    · have hret : retired s.sc.sp (hw k s c) = [] := Classical.not_not.1 hret
      cases hc : Rob.complete v with
      | true =>
        by_cases hg : Rob.isFence v = true ∧ c.hw.storePending = true
        · exact .inl (.inr (.inr ⟨v, by rw [hi]; rfl, hg.1, hg.2⟩))
        · refine absurd hret (retires hk hl hm (hw k s c) hi (.inr ⟨hc, fun hfe => ?_⟩))
          cases hp : c.hw.storePending with
          | false => exact hp
          | true => exact absurd ⟨hfe, hp⟩ hg
      | false =>
        by_cases his : Issued s v.id
        · exact .inl (.inl ⟨v, hvm, his, hc⟩)
        · have : ∃ q m, Sched.part s.sc v.id q = some m ∧ v.id ∉ s.sc.out q :=
            Classical.byContradiction fun hn => his fun q m hp =>
              Classical.byContradiction fun ho => hn ⟨q, m, hp, ho⟩
          obtain ⟨q, m, hp, ho⟩ := this
          have hon := I.once v.id (List.mem_map_of_mem hvm) q
          rw [hp, if_pos (show (some m).isSome = true from rfl), List.count_eq_zero.2 ho] at hon
          obtain ⟨x, hx, _⟩ := List.mem_map.1 (List.count_pos_iff.1 (by omega : 0 < ((queued (s.sc.iq q)).map (·.id)).count v.id))
          rcases C124_no_deadlock hk ha h hx with ⟨q', y, hy, _, hrd⟩ | ⟨j, hj, _, hn, how⟩
          · right; right; left
            refine ⟨q', ?_⟩
            have hfl : flush s.sc.sp (hw k s c) = false := by
              cases hf : flush s.sc.sp (hw k s c) with
              | false => rfl
              | true => exact absurd hret (flush_retires hf)
            exact some_issue hz I hy hrd ⟨c.hw, c.fuReady⟩ hfl hm hu
          · exact .inl (.inr (.inl ⟨j, hj, hn, how⟩))
end

/-! ### Endless runs -/

section
variable {n : Nat} {k : Waker.Cfg} {s : Nat → Waker.State n} {c : Nat → Waker.Cyc n}

theorem run_reach (R : Run k s c) : ∀ t, Progress.Reach k (s t)
  | 0 => by rw [R.init]; exact .init
  | t + 1 => .step (c t) (run_reach R t) (R.valid t) (R.step t)

/-- Everything known of one cycle. -/
theorem run_step (hk : Good k.sc.sp) (ha : Alu k) (R : Run k s c) (t : Nat) :
    ∃ ws bw rw Z g, Spine.Reach k.sc.sp (s t).sc.sp ∧ Link k.sc.sp (s t).sc.sp bw rw Z g ∧ SchedProofs.Inv k.sc (s t).sc bw ∧
      Sched.Valid k.sc (s t).sc (Waker.cyc (c t) ws) ∧ Sched.step k.sc (s t).sc (Waker.cyc (c t) ws) = some (s (t + 1)).sc ∧
      (s (t + 1)).sc.sp = Spine.step k.sc.sp (s t).sc.sp (Sched.hw k.sc (s t).sc (Waker.cyc (c t) ws)) := by
  obtain ⟨_, hr, bw, rw, Z, g, hl, I, W⟩ := WakerProofs.reach hk ha (ProgressProofs.base (run_reach R t))
  obtain ⟨ws, hw, hst, _⟩ := WakerProofs.step_some (R.step t)
  exact ⟨ws, bw, rw, Z, g, hr, hl, I, WakerProofs.sched_valid hk hr (R.valid t).base I W hw, hst, (SchedProofs.step_some hst).2.1⟩

/-- The oldest instruction stays where it is until it retires. -/
theorem oldest_stays (hk : Good k.sc.sp) (ha : Alu k) (R : Run k s c) {t : Nat} {v : Rob.Uop} {rest}
    (hi : insts k.sc.sp.L (s t).sc.sp.rob = v :: rest) (hn : v.id ∉ (retired (s t).sc.sp (hw k (s t) (c t))).map (·.id)) :
    retired (s t).sc.sp (hw k (s t) (c t)) = [] ∧ ∃ v' rest', insts k.sc.sp.L (s (t + 1)).sc.sp.rob = v' :: rest' ∧ v'.id = v.id := by
  obtain ⟨ws, bw, rw, Z, g, hr, hl, _, _, _, hsp⟩ := run_step hk ha R t
  obtain ⟨_, _, rst, _, hins, _, _, _, hs⟩ := hl.split hk (Sched.hw k.sc (s t).sc (Waker.cyc (c t) ws))
  have hret : retired (s t).sc.sp (hw k (s t) (c t)) = [] := by
    have hins : insts k.sc.sp.L (s t).sc.sp.rob = retired (s t).sc.sp (hw k (s t) (c t)) ++ rst := hins
    cases hx : retired (s t).sc.sp (hw k (s t) (c t)) with
    | nil => rfl
    | cons a l =>
      rw [hx, hi, List.cons_append, List.cons.injEq] at hins
      rw [hx, ← hins.1] at hn
      exact absurd (List.mem_cons_self ..) hn
  refine ⟨hret, ?_⟩
  have hfl : flush (s t).sc.sp (Sched.hw k.sc (s t).sc (Waker.cyc (c t) ws)) = false := by
    cases hf : flush (s t).sc.sp (Sched.hw k.sc (s t).sc (Waker.cyc (c t) ws)) with
    | false => rfl
    | true => exact absurd hret (flush_retires hf)
  have hret : retired (s t).sc.sp (Sched.hw k.sc (s t).sc (Waker.cyc (c t) ws)) = [] := hret
  rw [hret, List.nil_append] at hins
  rw [hfl, if_neg (by simp), ← hsp] at hs
  have : ∃ l, (insts k.sc.sp.L (s (t + 1)).sc.sp.rob).map RobQueue.sig = RobQueue.sig v :: l := by
    rw [hs]
    split
    · rw [hi]
      unfold RobQueue.upTo
      split <;> exact ⟨_, rfl⟩
    · rw [← hins, hi]; exact ⟨_, rfl⟩
  obtain ⟨l, hl'⟩ := this
  cases hx : insts k.sc.sp.L (s (t + 1)).sc.sp.rob with
  | nil => rw [hx] at hl'; cases hl'
  | cons v' rest' =>
    rw [hx, List.map_cons, List.cons.injEq] at hl'
    exact ⟨v', rest', rfl, congrArg Prod.fst hl'.1⟩

/-- Only atomic instructions have an operation that reads what the instruction itself loads. -/
theorem amo_of {d : DecInst} {m : MicroOp} (hm : m ∈ decompose d) (hf : m.src1FromDest = true) : d.type = .amo := by
  unfold decompose at hm
  cases ht : d.type <;> simp only [ht] at hm <;> first
    | rfl
    | (simp only [List.mem_cons, List.not_mem_nil, or_false] at hm
       rcases hm with rfl | rfl | rfl <;> simp at hf)
    | (simp only [List.mem_cons, List.not_mem_nil, or_false] at hm
       rcases hm with rfl | rfl <;> simp at hf)
    | (simp only [List.mem_cons, List.not_mem_nil, or_false] at hm
       subst hm; simp at hf)
    | cases hm

/-- While nothing retires, the reorder buffer is filled in order and cut off behind branches that are resolved thereby. -/
theorem grows (hk : Good k.sc.sp) (ha : Alu k) (R : Run k s c) {t : Nat} (hnr : ∀ t' ≥ t, retired (s t').sc.sp (hw k (s t') (c t')) = []) :
    SettleProofs.Grows (fun t => robIds k.sc.sp (s t).sc.sp) (fun t => (s t).sc.sp.idu.latch.mispred)
      (fun t u => ∃ v ∈ insts k.sc.sp.L (s t).sc.sp.rob, v.id = u ∧ v.cplt.getLsbD 1 = true) (k.sc.sp.L * k.sc.sp.dis.banks) t := by
  have hnf : ∀ t' ≥ t, flush (s t').sc.sp (hw k (s t') (c t')) = false := by
    intro t' ht'
    cases hf : flush (s t').sc.sp (hw k (s t') (c t')) with
    | false => rfl
    | true => exact absurd (hnr t' ht') (flush_retires hf)
  refine ⟨fun t' _ => ?_, fun t' _ => ?_, fun t' ht' hm => ?_, fun t' ht' u hu hD hu' => ?_, fun t' ht' hm => ?_⟩
  · obtain ⟨_, _, _, _, _, hr, _⟩ := run_step hk ha R t'
    exact SettleProofs.rob_sorted hk hr
  · obtain ⟨_, _, _, _, _, _, hl, _⟩ := run_step hk ha R t'
    exact SettleProofs.rob_bound hk hl
  · obtain ⟨ws, _, _, _, _, hr, hl, _, _, _, hsp⟩ := run_step hk ha R t'
    have he := SettleProofs.rob_ext (c := Sched.hw k.sc (s t').sc (Waker.cyc (c t') ws)) hk hl (hnf t' ht') hm (hnr t' ht')
    rw [← hsp] at he
    exact ⟨_, he⟩
  · obtain ⟨ws, _, _, _, _, hr, hl, _, hv, _, hsp⟩ := run_step hk ha R t'
    obtain ⟨v, hvm, e, hb⟩ := hD
    obtain ⟨v', hvm', e'⟩ := List.mem_map.1 hu'
    refine ⟨v', hvm', e', ?_⟩
    rw [hsp] at hvm'
    exact (SettleProofs.cplt_next hk hr hl hv.hw hvm hvm' (e'.trans e.symm)).2.2 (.inl hb)
  · obtain ⟨ws, _, _, _, _, hr, hl, _, hv, _, hsp⟩ := run_step hk ha R t'
    obtain ⟨ws', _, _, _, _, hr', hl', _, hv', _, hsp'⟩ := run_step hk ha R (t' + 1)
    obtain ⟨b, hb, hbr, hcut⟩ := SettleProofs.rob_cut hk hr' hv'.hw hm
    have hm : (s (t' + 1)).sc.sp.idu.latch.mispred = true := hm
    rw [hsp] at hm
    obtain ⟨u, hu, hnc, hres⟩ := SettleProofs.resolves hk hr hl hv.hw (hnf t' ht') (hnr t' ht') hm
    obtain ⟨e1, e2⟩ := hres b (by rw [← hsp]; exact hb) (by rw [← hsp]; exact hbr)
    refine ⟨b.id, ?_, ?_, ⟨b, hb, rfl, e2⟩, List.mem_map_of_mem hb, ?_⟩
    · rw [e1]; exact List.mem_map_of_mem hu
    · rintro ⟨x, hx, ex, hc⟩
      rw [SchedProofs.id_inj hk hr hx hu (ex.trans e1), hnc] at hc; cases hc
    · show robIds k.sc.sp (s (t' + 1 + 1)).sc.sp = _
      rw [hsp']; exact hcut

/-- C125: over an endless run in which the rest of the machine does its part, the oldest instruction in the reorder buffer retires. -/
theorem C125_oldest_retires (hk : Good k.sc.sp) (ha : Alu k) (hz : Sized n k) (R : Run k s c)
    (F : Fair k s c) {t : Nat} {v : Rob.Uop} (hv : (insts k.sc.sp.L (s t).sc.sp.rob).head? = some v) :
    ∃ t' ≥ t, v.id ∈ (retired (s t').sc.sp (hw k (s t') (c t'))).map (·.id) := by
  refine Classical.byContradiction fun hno => ?_
  have hno : ∀ t' ≥ t, v.id ∉ (retired (s t').sc.sp (hw k (s t') (c t'))).map (·.id) := fun t' h1 h2 => hno ⟨t', h1, h2⟩
  -- it is the oldest for ever
  have hold : ∀ t' ≥ t, ∃ v' rest', insts k.sc.sp.L (s t').sc.sp.rob = v' :: rest' ∧ v'.id = v.id := by
    intro t' ht'
    induction t', ht' using le_ind with
    | base =>
      cases hx : insts k.sc.sp.L (s t).sc.sp.rob with
      | nil => rw [hx] at hv; cases hv
      | cons a l => rw [hx] at hv; cases hv; exact ⟨_, _, rfl, rfl⟩
    | succ t' ht' ih =>
      obtain ⟨v', rest', h1, h2⟩ := ih
      obtain ⟨_, v'', r'', h3, h4⟩ := oldest_stays hk ha R h1 (by rw [h2]; exact hno t' ht')
      exact ⟨v'', r'', h3, h4.trans h2⟩
  have hin : ∀ t' ≥ t, v.id ∈ robIds k.sc.sp (s t').sc.sp := by
    intro t' ht'
    obtain ⟨v', rest', h1, h2⟩ := hold t' ht'
    unfold robIds
    rw [h1, ← h2]; exact List.mem_cons_self ..
  have hmin : ∀ t' ≥ t, ∀ j ∈ robIds k.sc.sp (s t').sc.sp, v.id ≤ j := by
    intro t' ht' j hj
    obtain ⟨v', rest', h1, h2⟩ := hold t' ht'
    obtain ⟨_, _, _, _, _, hr, _⟩ := run_step hk ha R t'
    have ho := (C106_ordered hk hr).1
    unfold inflight at ho
    rw [List.append_assoc, List.pairwise_append] at ho
    have ho := ho.1
    unfold robIds at ho hj
    rw [h1, List.map_cons] at ho hj
    rw [← h2]
    rcases List.mem_cons.1 hj with e | hj
    · exact Nat.le_of_eq e.symm
    · exact Nat.le_of_lt ((List.pairwise_cons.1 ho).1 j hj)
  have hnr : ∀ t' ≥ t, retired (s t').sc.sp (hw k (s t') (c t')) = [] := by
    intro t' ht'
    obtain ⟨v', rest', h1, h2⟩ := hold t' ht'
    exact (oldest_stays hk ha R h1 (by rw [h2]; exact hno t' ht')).1
  have hnf : ∀ t' ≥ t, flush (s t').sc.sp (hw k (s t') (c t')) = false := by
    intro t' ht'
    cases hf : flush (s t').sc.sp (hw k (s t') (c t')) with
    | false => rfl
    | true => exact absurd (hnr t' ht') (flush_retires hf)
  -- what is kept
  have hinst : ∀ t' ≥ t, (s t').sc.inst v.id = (s t).sc.inst v.id := by
    intro t' ht'
    induction t', ht' using le_ind with
    | base => rfl
    | succ t' ht' ih =>
      obtain ⟨_, _, _, _, _, hr, hl, _, _, hst, _⟩ := run_step hk ha R t'
      rw [SchedProofs.inst_old hst hl hk hr (hin t' ht'), ih]
  have hpart : ∀ t' ≥ t, ∀ q, Sched.part (s t').sc v.id q = Sched.part (s t).sc v.id q := by
    intro t' ht' q
    unfold Sched.part; rw [hinst t' ht']
  have hout : ∀ q, ∀ t1, ∀ t2 ≥ t1, v.id ∈ (s t1).sc.out q → v.id ∈ (s t2).sc.out q := by
    intro q t1 t2 h12 ho
    induction t2, h12 using le_ind with
    | base => exact ho
    | succ t2 _ ih =>
      obtain ⟨_, _, _, _, _, _, _, _, _, hst, _⟩ := run_step hk ha R t2
      rw [(SchedProofs.step_some hst).2.2.2.2 q]
      exact List.mem_append_left _ ih
  have hann : ∀ t1 ≥ t, ∀ t2 ≥ t1, (s t1).sc.ann v.id = true → (s t2).sc.ann v.id = true := by
    intro t1 h1 t2 h12 ho
    induction t2, h12 using le_ind with
    | base => exact ho
    | succ t2 h2 ih =>
      obtain ⟨_, _, _, _, _, _, _, _, _, hst, _⟩ := run_step hk ha R t2
      rw [(SchedProofs.step_some hst).2.2.2.1 v.id, ih, decide_eq_true (hin t2 (by omega))]; rfl
  -- an operation that does not wait for the instruction's own load is issued
  have go : ∀ t1 ≥ t, ∀ q m, Sched.part (s t).sc v.id q = some m →
      (m.src1FromDest = false ∨ ((s t).sc.inst v.id).dec.destEn = false ∨ (s t1).sc.ann v.id = true) →
      ∃ t2 ≥ t1, v.id ∈ (s t2).sc.out q := by
    intro t1 h1 q m hm hc
    refine Classical.byContradiction fun hnever => ?_
    have hnever : ∀ t2 ≥ t1, v.id ∉ (s t2).sc.out q := fun t2 h2 ho => hnever ⟨t2, h2, ho⟩
    -- its operation is in the queue, ready
    have there : ∀ t2 ≥ t1, ∃ x ∈ queued ((s t2).sc.iq q), IssueWindow.ready x := by
      intro t2 h12
      have h2 : t2 ≥ t := Nat.le_trans h1 h12
      obtain ⟨ws, bw, rw, Z, g, hr, hl, I, _, hst, _⟩ := run_step hk ha R t2
      have hon := I.once v.id (hin t2 h2) q
      rw [hpart t2 h2, hm, if_pos (show (some m).isSome = true from rfl), List.count_eq_zero.2 (hnever t2 h12)] at hon
      obtain ⟨x, hx, e⟩ := List.mem_map.1 (List.count_pos_iff.1 (by omega : 0 < ((queued ((s t2).sc.iq q)).map (·.id)).count v.id))
      refine ⟨x, hx, ?_⟩
      obtain ⟨m', hm', hw'⟩ := C124_waits hk ha (run_reach R t2) hx
      rw [e, hpart t2 h2, hm, Option.some.injEq] at hm'
      subst hm'
      intro b p hwt
      obtain ⟨j, hj, hf, hn⟩ := (hw' b).1 ⟨p, hwt⟩
      have h3 := hf.2.2
      rw [e] at h3
      split at h3
      · rename_i hcond
        rw [h3.1] at hn hf
        rcases hc with hc | hc | hc
        · rw [hcond.1] at hc; cases hc
        · have := hf.1
          rw [hinst t2 h2, hc] at this; cases this
        · rw [hann t1 h1 t2 h12 hc] at hn; cases hn
      · have := hmin t2 h2 j hj
        omega
    -- from some cycle on nothing is dispatched any more
    obtain ⟨T, hT, l, hset⟩ := SettleProofs.settles (grows hk ha R hnr)
    have less : ∀ t2 ≥ T, (queued ((s (t2 + 1)).sc.iq q)).length ≤ (queued ((s t2).sc.iq q)).length ∧
        ((s t2).sc.sp.idu.latch.mispred = false → (∀ p o, (c t2).fuReady p o = true) → t2 ≥ t1 →
          (queued ((s (t2 + 1)).sc.iq q)).length < (queued ((s t2).sc.iq q)).length) := by
      intro t2 h2
      obtain ⟨ws, bw, rw, Z, g, hr, hl, I, _, hst, hsp⟩ := run_step hk ha R t2
      have hfire : fired (Sched.dis k.sc (s t2).sc (Waker.cyc (c t2) ws)) = [] := by
        cases hmi : (s t2).sc.sp.idu.latch.mispred with
        | true => exact (blocked (.inr (.inl hmi))).2
        | false =>
          have := SettleProofs.rob_ext (c := Sched.hw k.sc (s t2).sc (Waker.cyc (c t2) ws)) hk hl (hnf t2 (by omega)) hmi (hnr t2 (by omega))
          rw [← hsp, hset t2 h2, hset (t2 + 1) (by omega)] at this
          exact List.map_eq_nil_iff.1 (List.append_right_eq_self.1 this.symm)
      have henq : (Sched.iqIn k.sc (s t2).sc (Waker.cyc (c t2) ws) q).enq = [] := by
        rw [List.eq_nil_iff_forall_not_mem]
        intro x hx
        obtain ⟨a, ha', _⟩ := (SchedProofs.mem_enq hl).1 hx
        rw [hfire] at ha'; cases ha'
      obtain ⟨rest, p1, p2⟩ := SchedProofs.queue_step hk hr hl I hst q
      rw [henq, List.append_nil] at p2
      have l1 := p1.length_eq
      have l2 := p2.length_eq
      rw [List.length_append] at l1
      rw [List.length_map] at l2
      have l3 := List.length_filter_le (fun u => !IssueWindow.killed (Sched.iqIn k.sc (s t2).sc (Waker.cyc (c t2) ws) q) u)
        (rest.map (IssueWindow.hear (Waker.cyc (c t2) ws).hw.wakes))
      rw [List.length_map] at l3
      refine ⟨by omega, fun hmis hfu h21 => ?_⟩
      obtain ⟨x, hx, hrd⟩ := there t2 h21
      have := List.length_pos_iff.2 (some_issue hz I hx hrd (Waker.cyc (c t2) ws) (hnf t2 (by omega)) hmis hfu)
      omega
    have down : ∀ d, ∃ t2 ≥ T, (queued ((s t2).sc.iq q)).length + d ≤ (queued ((s T).sc.iq q)).length := by
      intro d
      induction d with
      | zero => exact ⟨T, Nat.le_refl _, Nat.le_refl _⟩
      | succ d ih =>
        obtain ⟨t2, h2, hd⟩ := ih
        obtain ⟨t3, h3, hmis, hfu⟩ := F.units (t2 + t1)
        have hle : (queued ((s t3).sc.iq q)).length ≤ (queued ((s t2).sc.iq q)).length := by
          have h32 : t3 ≥ t2 := by omega
          clear h3 hmis hfu
          induction t3, h32 using le_ind with
          | base => exact Nat.le_refl _
          | succ t3 h3 ih => exact Nat.le_trans (less t3 (by omega)).1 ih
        have := (less t3 (by omega)).2 hmis hfu (by omega)
        exact ⟨t3 + 1, by omega, by omega⟩
    obtain ⟨t2, _, hd⟩ := down ((queued ((s T).sc.iq q)).length + 1)
    omega
  -- every operation is issued
  have every : ∀ q m, Sched.part (s t).sc v.id q = some m → ∃ t2 ≥ t, v.id ∈ (s t2).sc.out q := by
    intro q m hm
    by_cases hc : m.src1FromDest = false ∨ ((s t).sc.inst v.id).dec.destEn = false
    · exact go t (Nat.le_refl _) q m hm (by rcases hc with h | h; exact .inl h; exact .inr (.inl h))
    · have hc1 : m.src1FromDest = true := by
        cases h : m.src1FromDest with
        | true => rfl
        | false => exact absurd (.inl h) hc
      have hc2 : ((s t).sc.inst v.id).dec.destEn = true := by
        cases h : ((s t).sc.inst v.id).dec.destEn with
        | true => rfl
        | false => exact absurd (.inr h) hc
      have hmem : m ∈ decompose ((s t).sc.inst v.id).dec := List.mem_of_find?_eq_some hm
      obtain ⟨w, hw1, hw2, hw3⟩ := writer hc2
      have hwp := OooProofs.part_mem (s := (s t).sc) (u := v.id) hw1
      obtain ⟨t2, h2, ho⟩ := go t (Nat.le_refl _) w.iq w hwp (.inl hw3)
      obtain ⟨t3, h3, hl3⟩ := F.loads t2 v.id (hin t2 h2) (by rw [hinst t2 h2]; exact amo_of hmem hc1)
        ⟨w.iq, w, by rw [hpart t2 h2]; exact hwp, hw2, ho⟩
      have h3' : t3 ≥ t := Nat.le_trans h2 h3
      obtain ⟨t4, h4, ho4⟩ := go t3 h3' q m hm (.inr (.inr (hl3 (hin t3 h3'))))
      exact ⟨t4, Nat.le_trans h3' h4, ho4⟩
  have all : ∀ l : List Iq, ∃ T ≥ t, ∀ q ∈ l, ∀ m, Sched.part (s t).sc v.id q = some m → v.id ∈ (s T).sc.out q := by
    intro l
    induction l with
    | nil => exact ⟨t, Nat.le_refl _, fun _ h => absurd h List.not_mem_nil⟩
    | cons q l ih =>
      obtain ⟨T, hT, h1⟩ := ih
      cases hm : Sched.part (s t).sc v.id q with
      | none =>
        refine ⟨T, hT, fun q' hq' m hm' => ?_⟩
        rcases List.mem_cons.1 hq' with rfl | hq'
        · rw [hm] at hm'; cases hm'
        · exact h1 q' hq' m hm'
      | some m0 =>
        obtain ⟨t2, h2, ho⟩ := every q m0 hm
        refine ⟨T + t2, by omega, fun q' hq' m hm' => ?_⟩
        rcases List.mem_cons.1 hq' with rfl | hq'
        · exact hout _ t2 _ (by omega) ho
        · exact hout _ T _ (by omega) (h1 q' hq' m hm')
  obtain ⟨T, hT, hall⟩ := all Waker.queues
  obtain ⟨T', hT', hfin⟩ := F.finishes T v.id (hin T hT) fun q m hm => by
    rw [hpart T hT] at hm
    exact hall q (by cases q <;> simp [Waker.queues]) m hm
  obtain ⟨t4, h4, hmis, hst⟩ := F.stores T'
  have h4' : t4 ≥ t := by omega
  obtain ⟨v', rest', h1, h2⟩ := hold t4 h4'
  obtain ⟨_, _, _, _, _, _, hl, _⟩ := run_step hk ha R t4
  refine retires hk hl hmis (hw k (s t4) (c t4)) h1 (.inr ⟨?_, ?_⟩) (hnr t4 h4')
  · exact hfin t4 h4 v' (by rw [h1]; exact List.mem_cons_self ..) h2
  · exact hst v' (by rw [h1]; rfl)

/-- With an instruction in flight, the reorder buffer does not stay empty. -/
theorem fills (hk : Good k.sc.sp) (ha : Alu k) (hz : Sized n k) (R : Run k s c) (F : Fair k s c) {t : Nat}
    (hi : inflight k.sc.sp (s t).sc.sp ≠ []) : ∃ t' ≥ t, insts k.sc.sp.L (s t').sc.sp.rob ≠ [] := by
  refine Classical.byContradiction fun hno => ?_
  have hno : ∀ t' ≥ t, insts k.sc.sp.L (s t').sc.sp.rob = [] := fun t' h1 =>
    Classical.byContradiction fun h2 => hno ⟨t', h1, h2⟩
  have hrob : ∀ t' ≥ t, robIds k.sc.sp (s t').sc.sp = [] := fun t' h1 => by unfold robIds; rw [hno t' h1]; rfl
  have hst : ∃ t0 ≥ t, disIds (s t0).sc.sp ≠ [] := by
    by_cases hd : disIds (s t).sc.sp = []
    · obtain ⟨ws, bw, rw, Z, g, hr, hl, I, _, _, hsp⟩ := run_step hk ha R t
      have hlat : latIds (s t).sc.sp ≠ [] := by
        intro he
        apply hi
        unfold inflight; rw [hrob t (Nat.le_refl _), hd, he]; rfl
      obtain ⟨u, _, hu⟩ := renames hk hr hl (hno t (Nat.le_refl _)) (List.map_eq_nil_iff.1 hd) hz.pregs
        (Sched.hw k.sc (s t).sc (Waker.cyc (c t) ws)) hlat
      refine ⟨t + 1, by omega, ?_⟩
      rw [hsp]; exact List.ne_nil_of_mem hu
    · exact ⟨t, Nat.le_refl _, hd⟩
  obtain ⟨t0, h0, hd⟩ := hst
  have hkeep : ∀ t' ≥ t0, disIds (s t').sc.sp ≠ [] := by
    intro t' ht'
    induction t', ht' using le_ind with
    | base => exact hd
    | succ t' ht' ih =>
      obtain ⟨ws, bw, rw, Z, g, hr, hl, I, _, _, hsp⟩ := run_step hk ha R t'
      obtain ⟨e1, e2, _⟩ := empty_facts hk hl (hno t' (by omega)) (Sched.hw k.sc (s t').sc (Waker.cyc (c t') ws))
      rw [hsp]
      refine waits_on hl _ e2 e1 ?_ (fun he => ih (by unfold disIds; rw [he]; rfl))
      rw [List.eq_nil_iff_forall_not_mem]
      intro a ha'
      have := ProgressProofs.fired_rob hk hl ha'
      rw [← hsp, hrob (t' + 1) (by omega)] at this
      cases this
  obtain ⟨t2, h2, hroom⟩ := F.room t0
  obtain ⟨ws, bw, rw, Z, g, hr, hl, I, _, _, hsp⟩ := run_step hk ha R t2
  obtain ⟨u, _, hu⟩ := to_rob hk hz hl I (hno t2 (by omega)) (hroom (hrob t2 (by omega)))
    (fun he => hkeep t2 h2 (by unfold disIds; rw [he]; rfl)) ws
  rw [← hsp, hrob (t2 + 1) (by omega)] at hu
  cases hu

/-- C125: …something retires as long as an instruction is in flight. -/
theorem C125_retires (hk : Good k.sc.sp) (ha : Alu k) (hz : Sized n k) (R : Run k s c)
    (F : Fair k s c) {t : Nat} (hi : inflight k.sc.sp (s t).sc.sp ≠ []) :
    ∃ t' ≥ t, retired (s t').sc.sp (hw k (s t') (c t')) ≠ [] := by
  obtain ⟨t1, h1, hr⟩ := fills hk ha hz R F hi
  obtain ⟨v, rest, he⟩ := List.exists_cons_of_ne_nil hr
  obtain ⟨t2, h2, hm⟩ := C125_oldest_retires hk ha hz R F (t := t1) (v := v) (by rw [he]; rfl)
  exact ⟨t2, by omega, fun hn => by rw [hn] at hm; cases hm⟩

/-- C125: …and every instruction in flight retires in the end or is squashed by a flush or a misprediction. -/
theorem C125_fate (hk : Good k.sc.sp) (ha : Alu k) (hz : Sized n k) (R : Run k s c)
    (F : Fair k s c) {t u : Nat} (hu : u ∈ inflight k.sc.sp (s t).sc.sp) :
    ∃ t' ≥ t, u ∈ inflight k.sc.sp (s t').sc.sp ∧ (u ∈ (retired (s t').sc.sp (hw k (s t') (c t'))).map (·.id) ∨
      (flush (s t').sc.sp (hw k (s t') (c t')) = true ∨ (s t').sc.sp.idu.latch.mispred = true) ∧
        u ∉ inflight k.sc.sp (s (t' + 1)).sc.sp) := by
  let cnt : Nat → Nat := fun t => ((inflight k.sc.sp (s t).sc.sp).filter (fun i => decide (i < u))).length
  -- a cycle in which it neither retires nor is squashed
  have one : ∀ t', u ∈ inflight k.sc.sp (s t').sc.sp → ¬ (u ∈ (retired (s t').sc.sp (hw k (s t') (c t'))).map (·.id) ∨
      (flush (s t').sc.sp (hw k (s t') (c t')) = true ∨ (s t').sc.sp.idu.latch.mispred = true) ∧
        u ∉ inflight k.sc.sp (s (t' + 1)).sc.sp) →
      u ∈ inflight k.sc.sp (s (t' + 1)).sc.sp ∧ cnt (t' + 1) + (retired (s t').sc.sp (hw k (s t') (c t'))).length ≤ cnt t' := by
    intro t' hin hnot
    obtain ⟨ws, bw, rw, Z, g, hr, hl, I, hv, _, hsp⟩ := run_step hk ha R t'
    have hnr : u ∉ (retired (s t').sc.sp (hw k (s t') (c t'))).map (·.id) := fun h => hnot (.inl h)
    cases hf : flush (s t').sc.sp (hw k (s t') (c t')) with
    | true =>
      refine absurd (.inr ⟨.inl hf, ?_⟩) hnot
      rw [hsp, C106_flush hk hr hv.hw hf]; exact List.not_mem_nil
    | false =>
      cases hm : (s t').sc.sp.idu.latch.mispred with
      | true =>
        obtain ⟨b, _, _, _, hret, _, _, hin'⟩ := C106_squash hk hr hv.hw hm
        have hin2 : u ∈ inflight k.sc.sp (s (t' + 1)).sc.sp :=
          Classical.byContradiction fun h => hnot (.inr ⟨.inr hm, h⟩)
        refine ⟨hin2, ?_⟩
        have hret : retired (s t').sc.sp (hw k (s t') (c t')) = [] := hret
        rw [hret]
        show ((inflight k.sc.sp (s (t' + 1)).sc.sp).filter _).length + 0 ≤ ((inflight k.sc.sp (s t').sc.sp).filter _).length
        rw [hsp, hin']
        exact (List.filter_sublist.filter _).length_le
      | false =>
        have hc := C106_conserved hk hr hv.hw hf hm
        rw [← hsp] at hc
        have hc : (retired (s t').sc.sp (hw k (s t') (c t'))).map (·.id) ++ inflight k.sc.sp (s (t' + 1)).sc.sp = _ := hc
        have hord := C106_ordered hk hr
        have hin2 : u ∈ inflight k.sc.sp (s (t' + 1)).sc.sp := by
          have : u ∈ (retired (s t').sc.sp (hw k (s t') (c t'))).map (·.id) ++ inflight k.sc.sp (s (t' + 1)).sc.sp := by
            rw [hc]; exact List.mem_append_left _ hin
          rcases List.mem_append.1 this with h | h
          · exact absurd h hnr
          · exact h
        refine ⟨hin2, ?_⟩
        have hlen := congrArg (fun l => (l.filter (fun i => decide (i < u))).length) hc
        simp only [List.filter_append, List.length_append] at hlen
        have hacc : (accepted k.sc.sp (s t').sc.sp (Sched.hw k.sc (s t').sc (Waker.cyc (c t') ws))).filter (fun i => decide (i < u)) = [] := by
          rw [List.filter_eq_nil_iff]
          intro a ha' hlt
          unfold accepted at ha'
          obtain ⟨i, _, e⟩ := List.mem_range'.1 ha'
          have := hord.2 u hin
          simp only [decide_eq_true_eq] at hlt
          omega
        have hret : ((retired (s t').sc.sp (hw k (s t') (c t'))).map (·.id)).filter (fun i => decide (i < u)) =
            (retired (s t').sc.sp (hw k (s t') (c t'))).map (·.id) := by
          rw [List.filter_eq_self]
          intro a ha'
          obtain ⟨_, _, rst, _, hins, _⟩ := hl.split hk (Sched.hw k.sc (s t').sc (Waker.cyc (c t') ws))
          have ho := hord.1
          have hsplit : inflight k.sc.sp (s t').sc.sp = (retired (s t').sc.sp (hw k (s t') (c t'))).map (·.id) ++
              (rst.map (·.id) ++ disIds (s t').sc.sp ++ latIds (s t').sc.sp) := by
            have hins : insts k.sc.sp.L (s t').sc.sp.rob = retired (s t').sc.sp (hw k (s t') (c t')) ++ rst := hins
            unfold inflight robIds
            rw [hins]; simp
          rw [hsplit, List.pairwise_append] at ho
          rw [hsplit] at hin
          rcases List.mem_append.1 hin with h | h
          · exact absurd h hnr
          · exact decide_eq_true (ho.2.2 a ha' u h)
        rw [hacc, hret, List.length_map, List.length_nil] at hlen
        show ((inflight k.sc.sp (s (t' + 1)).sc.sp).filter _).length + _ ≤ ((inflight k.sc.sp (s t').sc.sp).filter _).length
        omega
  refine Classical.byContradiction fun hno => ?_
  have stay : ∀ t' ≥ t, u ∈ inflight k.sc.sp (s t').sc.sp := by
    intro t' ht'
    induction t', ht' using le_ind with
    | base => exact hu
    | succ t' ht' ih => exact (one t' ih fun h => hno ⟨t', ht', ih, h⟩).1
  have down : ∀ t1 ≥ t, ∀ t2 ≥ t1, cnt t2 ≤ cnt t1 := by
    intro t1 h1 t2 h2
    induction t2, h2 using le_ind with
    | base => exact Nat.le_refl _
    | succ t2 h2 ih =>
      have := (one t2 (stay t2 (by omega)) fun h => hno ⟨t2, by omega, stay t2 (by omega), h⟩).2
      omega
  have : ∀ m, ∀ t1 ≥ t, cnt t1 = m → False := by
    intro m
    induction m using Nat.strongRecOn with
    | ind m ih =>
      intro t1 h1 e
      obtain ⟨t2, h2, hr⟩ := C125_retires hk ha hz R F (t := t1) (List.ne_nil_of_mem (stay t1 h1))
      have h3 := (one t2 (stay t2 (by omega)) fun h => hno ⟨t2, by omega, stay t2 (by omega), h⟩).2
      have h4 := down t1 h1 t2 h2
      have h5 : 0 < (retired (s t2).sc.sp (hw k (s t2) (c t2))).length := List.length_pos_iff.2 hr
      exact ih (cnt (t2 + 1)) (by omega) (t2 + 1) (by omega) rfl
  exact this _ t (Nat.le_refl _) rfl
end

/-! ### A run

An atomic instruction and an addition are fetched; the data operation of the atomic instruction waits for its own load, which is announced;
both are finished and retire; nothing follows. -/

namespace AliveRun
open WakerRun

/-- `amoadd.w x1,x6,(x6)`, `addi x1,x0,1`. -/
def prog : List (Waker.Cyc 4) := ProgressRun.amos ++ WakerRun.idle 4 ++ [quiet [] [33]] ++ WakerRun.idle 1 ++
  [quiet [WholeRun.wb 0 7, WholeRun.wb 3 1] []] ++ WakerRun.idle 2

def cs (t : Nat) : Waker.Cyc 4 := prog.getD t (quiet [] [])
def ss : Nat → S
  | 0 => Waker.init 4 kw
  | t + 1 => (Waker.step kw (ss t) (cs t)).getD (ss t)

theorem sized : Sized 4 kw where
  slots q := by cases q <;> decide
  dports q := by show 0 < 2; decide
  ports d m _ := by
    cases hq : m.iq
    · exact ⟨SchedRun.port 0, List.mem_cons_self .., rfl⟩
    · exact ⟨SchedRun.port 2, List.mem_cons_self .., rfl⟩
    · exact ⟨SchedRun.port 3, List.mem_cons_self .., rfl⟩
    · exact ⟨SchedRun.port 4, List.mem_cons_self .., rfl⟩
    · exact ⟨SchedRun.port 5, List.mem_cons_self .., rfl⟩
  loads := by decide
  stores := by decide
  pregs := by decide
  tags := by decide
  brs := by decide

/-- Nothing is in flight and nothing on the way. -/
structure Drained (s : S) : Prop where
  reach : Progress.Reach kw s
  empty : inflight kw.sc.sp s.sc.sp = []
  mul : s.mul = [[.none, .none], [.none, .none]]
  div : s.div = [.none, .none]
  fp : s.fp = [.none, .none]

theorem Drained.rob {s : S} (D : Drained s) : insts kw.sc.sp.L s.sc.sp.rob = [] := by
  have := D.empty
  unfold inflight at this
  rw [List.append_assoc, List.append_eq_nil_iff] at this
  exact List.map_eq_nil_iff.1 this.1

theorem Drained.valid {s : S} (D : Drained s) : Progress.Valid kw s (quiet [] []) := by
  obtain ⟨_, hr, bw, rw, Z, g, hl, I, _⟩ := WakerProofs.reach SpineRun.kx_good alu (ProgressProofs.base D.reach)
  refine ⟨⟨⟨rfl, ?_, ?_⟩, ?_, ?_, ?_⟩, ?_⟩
  · intro o ho; cases ho
  · intro w h; cases h
  · intro w h; cases h
  · intro w h; cases h
  · intro w h; cases h
  · intro v hv
    rw [(empty_facts SpineRun.kx_good hl D.rob _).2.2.1] at hv; cases hv

theorem Drained.step {s : S} (D : Drained s) : ∃ s', Waker.step kw s (quiet [] []) = some s' ∧ Drained s' := by
  obtain ⟨hsr, hr, bw, rw, Z, g, hl, I, W⟩ := WakerProofs.reach SpineRun.kx_good alu (ProgressProofs.base D.reach)
  have hq : ∀ q, queued (s.sc.iq q) = [] := by
    intro q
    rw [List.eq_nil_iff_forall_not_mem]
    intro x hx
    have := SchedProofs.queued_rob I hx
    unfold robIds at this
    rw [D.rob] at this; cases this
  have hiss : Waker.issues kw s (quiet [] []) = [] := by
    unfold Waker.issues
    rw [List.flatMap_eq_nil_iff]
    intro q _
    rw [List.filterMap_eq_nil_iff]
    intro e _
    cases hx : (s.sc.iq q).ent[e.1]?.join with
    | none => rfl
    | some x =>
      have : x ∈ queued (s.sc.iq q) := Proofs.IssueQueue.mem_queued.2 ⟨e.1, Option.join_eq_some_iff.1 hx⟩
      rw [hq q] at this; cases this
  have hws : ∃ ws, Waker.wakes kw s (quiet [] []) = some ws := by
    unfold Waker.wakes
    rw [D.mul, D.div, D.fp]
    exact ⟨_, rfl⟩
  obtain ⟨ws, hws⟩ := hws
  obtain ⟨t, ht⟩ := C121_no_assert SpineRun.kx_good hsr (Waker.cyc (quiet [] []) ws)
  have hlate : ∀ op, Waker.late kw s (quiet [] []) op = [] := fun op => by unfold Waker.late; rw [hiss]; rfl
  have hst : ∃ s', Waker.step kw s (quiet [] []) = some s' ∧ s'.sc = t ∧ s'.mul = [[.none, .none], [.none, .none]] ∧
      s'.div = [.none, .none] ∧ s'.fp = [.none, .none] := by
    unfold Waker.step
    rw [hws, Option.bind_some, ht, Option.bind_some, hlate, hlate, hlate, D.mul, D.div, D.fp]
    have hn : ∀ c : Exu.Ctl 4, Wake.settleSlot c none = none := fun c => by unfold Wake.settleSlot; split <;> rfl
    refine ⟨_, rfl, rfl, ?_, ?_, ?_⟩
    · simp [hn]
    · simp [hn, Wake.tick]
    · simp [hn, Wake.tick]
  obtain ⟨s', h1, h2, h3, h4, h5⟩ := hst
  refine ⟨s', h1, .step _ D.reach D.valid h1, ?_, h3, h4, h5⟩
  obtain ⟨e1, e2, e3, _⟩ := empty_facts SpineRun.kx_good hl D.rob (Sched.hw kw.sc s.sc (Waker.cyc (quiet [] []) ws))
  have hv := WakerProofs.sched_valid SpineRun.kx_good hr D.valid.base I W hws
  have hc := C106_conserved SpineRun.kx_good hr hv.hw e2 e1
  rw [h2, (SchedProofs.step_some ht).2.1]
  have hacc : accepted kw.sc.sp s.sc.sp (Sched.hw kw.sc s.sc (Waker.cyc (quiet [] []) ws)) = [] := by
    unfold accepted
    have : Idu.fired s.sc.sp.idu (decSlots kw.sc.sp s.sc.sp (Sched.hw kw.sc s.sc (Waker.cyc (quiet [] []) ws)))
        (renReady kw.sc.sp s.sc.sp (Sched.hw kw.sc s.sc (Waker.cyc (quiet [] []) ws)))
        (flush s.sc.sp (Sched.hw kw.sc s.sc (Waker.cyc (quiet [] []) ws))) = [] := by
      unfold Idu.fired
      split
      · rfl
      · rfl
    have hn : (Spine.step kw.sc.sp s.sc.sp (Sched.hw kw.sc s.sc (Waker.cyc (quiet [] []) ws))).next = s.sc.sp.next := by
      show s.sc.sp.next + _ = _
      rw [this]; rfl
    rw [hn, Nat.sub_self]; rfl
  have hc : (retired s.sc.sp (Sched.hw kw.sc s.sc (Waker.cyc (quiet [] []) ws))).map (·.id) ++ inflight kw.sc.sp (Spine.step kw.sc.sp s.sc.sp
      (Sched.hw kw.sc s.sc (Waker.cyc (quiet [] []) ws))) = inflight kw.sc.sp s.sc.sp ++
      accepted kw.sc.sp s.sc.sp (Sched.hw kw.sc s.sc (Waker.cyc (quiet [] []) ws)) := hc
  rw [hacc, D.empty, e3] at hc
  exact hc

/-- The run up to the end of the program, computed. -/
theorem early : (List.range 10).all (fun t => ProgressRun.ok (ss t) (cs t) && (Waker.step kw (ss t) (cs t)).isSome) = true := by
  decide +kernel

theorem final : inflight kw.sc.sp (ss 10).sc.sp = [] ∧ (ss 10).mul = [[none, none], [none, none]] ∧ (ss 10).div = [none, none] ∧
    (ss 10).fp = [none, none] := by decide +kernel

theorem early_step {t : Nat} (h : t < 10) : Progress.Valid kw (ss t) (cs t) ∧ Waker.step kw (ss t) (cs t) = some (ss (t + 1)) := by
  have := List.all_eq_true.1 early t (List.mem_range.2 h)
  rw [Bool.and_eq_true, Option.isSome_iff_exists] at this
  obtain ⟨h1, r, h2⟩ := this
  exact ⟨ProgressRun.ok_sound h1, by rw [ss, h2]; rfl⟩

theorem early_reach : ∀ {t : Nat}, t ≤ 10 → Progress.Reach kw (ss t)
  | 0, _ => .init
  | t + 1, h => .step (cs t) (early_reach (by omega)) (early_step (by omega)).1 (early_step (by omega)).2

theorem cs_late {t : Nat} (h : 10 ≤ t) : cs t = quiet [] [] := by
  have : prog.length = 10 := rfl
  unfold cs
  rw [List.getD_eq_getElem?_getD, List.getElem?_eq_none (by omega)]; rfl

theorem drained (i : Nat) : Drained (ss (10 + i)) := by
  induction i with
  | zero => exact ⟨early_reach (Nat.le_refl _), final.1, final.2.1, final.2.2.1, final.2.2.2⟩
  | succ i ih =>
    obtain ⟨s', h1, h2⟩ := ih.step
    show Drained ((Waker.step kw (ss (10 + i)) (cs (10 + i))).getD (ss (10 + i)))
    rw [cs_late (by omega), h1]; exact h2

theorem endless : Run kw ss cs where
  init := rfl
  valid t := by
    by_cases h : t < 10
    · exact (early_step h).1
    · obtain ⟨i, rfl⟩ : ∃ i, t = 10 + i := ⟨t - 10, by omega⟩
      rw [cs_late (by omega)]; exact (drained i).valid
  step t := by
    by_cases h : t < 10
    · exact (early_step h).2
    · obtain ⟨i, rfl⟩ : ∃ i, t = 10 + i := ⟨t - 10, by omega⟩
      obtain ⟨s', h1, _⟩ := (drained i).step
      show _ = some ((Waker.step kw (ss (10 + i)) (cs (10 + i))).getD (ss (10 + i)))
      rw [cs_late (by omega), h1]; rfl

theorem quiet_mis (i : Nat) : (ss (10 + i)).sc.sp.idu.latch.mispred = false := by
  obtain ⟨_, _, bw, rw, Z, g, hl, _⟩ := WakerProofs.reach SpineRun.kx_good alu (ProgressProofs.base (drained i).reach)
  exact (empty_facts SpineRun.kx_good hl (drained i).rob (hw kw (ss (10 + i)) (quiet [] []))).1

theorem fair : Fair kw ss cs where
  units t := ⟨10 + t, by omega, quiet_mis t, fun p o => by rw [cs_late (by omega)]; rfl⟩
  finishes t u _ _ := ⟨10 + t, by omega, fun t'' h v hv => by
    obtain ⟨i, rfl⟩ : ∃ i, t'' = 10 + i := ⟨t'' - 10, by omega⟩
    rw [(drained i).rob] at hv; cases hv⟩
  loads t u _ _ _ := ⟨10 + t, by omega, fun h => by
    unfold robIds at h
    rw [(drained t).rob] at h; cases h⟩
  stores t := ⟨10 + t, by omega, quiet_mis t, fun v hv => by rw [(drained t).rob] at hv; cases hv⟩
  room t := ⟨10 + t, by omega, fun _ => by rw [cs_late (by omega)]; exact ⟨by decide, by decide, rfl⟩⟩

/-- The hypotheses of the theorems hold in the run: after one cycle both instructions are in flight; after five the atomic one is the oldest in the
reorder buffer. -/
example : Good kw.sc.sp ∧ Alu kw ∧ Sized 4 kw ∧ Run kw ss cs ∧ Fair kw ss cs ∧
    inflight kw.sc.sp (ss 1).sc.sp = [0, 1] ∧ (insts kw.sc.sp.L (ss 5).sc.sp.rob).head?.map (·.id) = some 0 :=
  ⟨SpineRun.kx_good, alu, sized, endless, fair, by decide +kernel, by decide +kernel⟩

/-- When they retire: the atomic instruction in cycle 8, the addition in cycle 9. -/
theorem when : (List.range 11).map (fun t => (retired (ss t).sc.sp (hw kw (ss t) (cs t))).map (·.id)) =
    [[], [], [], [], [], [], [], [], [0], [1], []] := by decide +kernel

/-- The hypotheses of `C125_never_stuck` hold in cycle 5 of the run, if two more instructions are offered; the load of the atomic instruction is
outstanding. -/
example : ∃ s', Progress.Reach kw (ss 5) ∧ Waker.step kw (ss 5) (fetch 0x00100093 0x00100093) = some s' ∧
    (ss 5).sc.sp.idu.latch.mispred = false ∧ (∀ p o, (fetch 0x00100093 0x00100093).fuReady p o = true) ∧
    Room (fetch 0x00100093 0x00100093) ∧ (fetch 0x00100093 0x00100093).hw.ib.filterMap id ≠ [] ∧
    Outstanding kw (ss 5) (fetch 0x00100093 0x00100093) := by
  have h : (Waker.step kw (ss 5) (fetch 0x00100093 0x00100093)).isSome = true := by decide +kernel
  obtain ⟨s', h⟩ := Option.isSome_iff_exists.1 h
  have h1 : (robIds kw.sc.sp (ss 5).sc.sp, (ss 5).sc.ann 0, ((ss 5).sc.inst 0).dec.type, (ss 5).sc.out .ld) = ([0, 1], false, .amo, [0]) := by
    decide +kernel
  have h2 : (Sched.part (ss 5).sc 0 .ld).map (·.inst.destEn) = some true := by decide +kernel
  simp only [Prod.mk.injEq] at h1
  obtain ⟨m, hm, hd⟩ := Option.map_eq_some_iff.1 h2
  exact ⟨s', early_reach (by omega), h, by decide +kernel, fun _ _ => rfl, ⟨by decide, by decide, rfl⟩, by decide,
    .inr (.inl ⟨0, by rw [h1.1]; exact List.mem_cons_self .., h1.2.1, .inr ⟨.inr h1.2.2.1, .ld, m, hm, hd, by rw [h1.2.2.2]; exact List.mem_cons_self ..⟩⟩)⟩

end AliveRun
end Verif.Props

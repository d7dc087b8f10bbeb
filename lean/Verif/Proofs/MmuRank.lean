import Verif.Proofs.MmuInv

/-! How far a request to the walker is from its answer. -/
namespace Verif.MmuRank
open Verif.Ptw (Client)
open Verif.TlbSpec Verif.TlbLane Verif.PtwInv Verif.Mmu Verif.MmuInv

variable {n : Nat}

/-- Cycles until a read is granted, by the owner of the port in the last cycle. -/
def g : MemRoute.Owner → Nat
  | .icache => 1
  | .walk => 3
  | _ => 2

theorem g_le (o : MemRoute.Owner) : 1 ≤ g o ∧ g o ≤ 3 := by cases o <;> decide

/-- Cycles until the walk ends. -/
def wr (st : Ptw.State) (o : MemRoute.Owner) : Nat :=
  match st.phase with
  | .idle => 0
  | .req1 => 4 + g o
  | .wait1 => 4
  | .req2 => 1 + g o
  | .wait2 => 1

theorem wr_le (st : Ptw.State) (o : MemRoute.Owner) : wr st o ≤ 7 := by
  have := g_le o
  unfold wr; cases st.phase <;> dsimp only <;> omega

/-- Cycles until the request of a client is answered. -/
def rank (st : Ptw.State) (o : MemRoute.Owner) (c : Client) : Nat :=
  if (st.port c).inflight then wr st o
  else if (st.port c).pending then (if st.active then 7 + wr st o else if st.rr = c then 7 else 15)
  else 0

theorem rank_le (st : Ptw.State) (o : MemRoute.Owner) (c : Client) : rank st o c ≤ 15 := by
  have := wr_le st o
  unfold rank
  split
  · omega
  · split
    · split
      · omega
      · split <;> omega
    · omega

theorem other_of {c d : Client} (h : d ≠ c) : d.other = c := by cases c <;> cases d <;> first | rfl | exact absurd rfl h

theorem other_ne (c : Client) : c.other ≠ c := by cases c <;> decide

/-- Who is next. -/
def RR (st : Ptw.State) : Prop := st.active = true → st.rr = st.owner.other

theorem rr_begin {st : Ptw.State} (h : RR st) (i : Client → Ptw.In) : RR (st.begin_ i) := by
  unfold Ptw.State.begin_ Ptw.State.select
  have h : RR (st.inputs i) := h
  generalize st.inputs i = st at h
  have hs : ∀ c, RR (st.start c) := fun c _ => rfl
  split
  · exact h
  · split
    · exact hs _
    · split
      · exact hs _
      · exact h

theorem memResp_frame (st : Ptw.State) (id x : BitVec 32) :
    (st.memResp id x).owner = st.owner ∧ (st.memResp id x).rr = st.rr ∧
    (∀ c, ((st.memResp id x).port c).pending = (st.port c).pending) ∧
    (∀ c, c ≠ st.owner → (st.memResp id x).port c = st.port c) ∧
    ((st.memResp id x).active = true → st.active = true ∧ ∀ c, ((st.memResp id x).port c).inflight = (st.port c).inflight) ∧
    (st.reqId = none → (st.memResp id x).active = st.active ∧ (st.memResp id x).phase = st.phase ∧ (st.memResp id x).port = st.port) ∧
    (st.active = true → st.reqId = some id → (st.memResp id x).active = true → st.phase = .wait1 ∧ (st.memResp id x).phase = .req2) ∧
    (st.active = true → (st.memResp id x).active = false → ((st.memResp id x).port st.owner).inflight = false) := by
  have hpub : ∀ (f : Bool) (y : BitVec 32) (sp : Bool), st.active = true ∧ st.reqId = some id →
      (st.publish f y sp).owner = st.owner ∧ (st.publish f y sp).rr = st.rr ∧
      (∀ c, ((st.publish f y sp).port c).pending = (st.port c).pending) ∧
      (∀ c, c ≠ st.owner → (st.publish f y sp).port c = st.port c) ∧
      ((st.publish f y sp).active = true → st.active = true ∧ ∀ c, ((st.publish f y sp).port c).inflight = (st.port c).inflight) ∧
      (st.reqId = none → (st.publish f y sp).active = st.active ∧ (st.publish f y sp).phase = st.phase ∧ (st.publish f y sp).port = st.port) ∧
      (st.active = true → st.reqId = some id → (st.publish f y sp).active = true → st.phase = .wait1 ∧ (st.publish f y sp).phase = .req2) ∧
      (st.active = true → (st.publish f y sp).active = false → ((st.publish f y sp).port st.owner).inflight = false) := by
    intro f y sp hm
    unfold Ptw.State.publish Ptw.State.setPort
    dsimp only
    refine ⟨rfl, rfl, fun c => ?_, fun c hc => ?_, (fun h => by cases h), (fun h => by rw [hm.2] at h; cases h), (fun _ _ h => by cases h), fun _ _ => ?_⟩
    · by_cases e : c = st.owner
      · rw [if_pos e, e]
      · rw [if_neg e]
    · rw [if_neg hc]
    · rw [if_pos rfl]
  unfold Ptw.State.memResp
  by_cases hm : st.active = true ∧ st.reqId = some id
  · rw [if_pos hm]
    cases hp : st.phase with
    | wait1 =>
      rw [hp] at hpub
      dsimp only
      split
      · exact hpub _ _ _ hm
      · split
        · split <;> exact hpub _ _ _ hm
        · refine ⟨rfl, rfl, fun _ => rfl, fun _ _ => rfl, fun h => ⟨h, fun _ => rfl⟩, (fun h => by rw [hm.2] at h; cases h), fun _ _ _ => ⟨rfl, rfl⟩, fun h1 h2 => ?_⟩
          dsimp only at h2; rw [h1] at h2; cases h2
    | wait2 => rw [hp] at hpub; dsimp only; split <;> exact hpub _ _ _ hm
    | idle => rw [hp] at hpub; exact hpub _ _ _ hm
    | req1 => rw [hp] at hpub; exact hpub _ _ _ hm
    | req2 => rw [hp] at hpub; exact hpub _ _ _ hm
  · rw [if_neg hm]
    split
    · refine ⟨rfl, rfl, fun _ => rfl, fun _ _ => rfl, fun h => ⟨h, fun _ => rfl⟩, fun _ => ⟨rfl, rfl, rfl⟩, fun h1 h2 => absurd ⟨h1, h2⟩ hm, fun h1 h2 => ?_⟩
      dsimp only at h2; rw [h1] at h2; cases h2
    · refine ⟨rfl, rfl, fun _ => rfl, fun _ _ => rfl, fun h => ⟨h, fun _ => rfl⟩, fun _ => ⟨rfl, rfl, rfl⟩, fun h1 h2 => absurd ⟨h1, h2⟩ hm, fun h1 h2 => ?_⟩
      rw [h1] at h2; cases h2

/-- The port of the cache: when the walker asks and is not granted. -/
theorem route_next {s : MemRoute.Sys n} (h : MemRoute.ReachW s) (c : MemRoute.Cyc n) (hd : c.req.dtlb = none) (hi : c.req.itlb = none) :
    (∀ a, c.req.walk = some a → grantOf (s.step c).2.2.grant = none → g (s.step c).1.route.owner < g s.route.owner) ∧
    (grantOf (s.step c).2.2.grant = none → g (s.step c).1.route.owner ≤ 2) := by
  have hco := (Props.covered_reach h).2
  unfold MemRoute.Sys.step
  dsimp only
  have hown : (MemRoute.combResponse s.route c.ans c.fill).1.owner = s.route.owner := by
    rw [Props.RouteLemmas.cr_state]
  generalize (MemRoute.combResponse s.route c.ans c.fill).1 = r at hown
  rw [← hown] at hco ⊢
  unfold MemRoute.combRequest MemRoute.arbitrate
  rw [hd, hi]
  constructor
  · intro a ha
    rw [ha]
    rcases hco with e | e | e <;> rw [e] <;> cases c.req.icache <;> simp [grantOf, g]
  · rcases hco with e | e | e <;> rw [e] <;> cases c.req.icache <;> cases c.req.walk <;> simp [grantOf, g]

/-- The walker's read is refused or still waits for its line, or the walker is told to repeat it. -/
def Stalled (k : Caps) (s : Mmu.Sys n) (e : Mmu.Cyc n) : Prop :=
  (s.rt.step (s.rcyc k e)).2.1.wake.walk = true ∨
  (s.ptw.reqId.isSome = true ∧ dataOf (s.rt.step (s.rcyc k e)).2.1.event = none)

/-- What the combinational end of a cycle does to an active walk. -/
theorem finish_rank {k : Caps} (hk : ∀ c, 0 < k.of c) {s : Mmu.Sys n} (hI : Inv k s) (e : Mmu.Cyc n) (hns : ¬ Stalled k s e) :
    (s.ptw2 k e).owner = (s.ptw1 k e).owner ∧ (s.ptw2 k e).rr = (s.ptw1 k e).rr ∧
    (∀ c, ((s.ptw2 k e).port c).pending = ((s.ptw1 k e).port c).pending) ∧
    (∀ c, c ≠ (s.ptw1 k e).owner → (s.ptw2 k e).port c = (s.ptw1 k e).port c) ∧
    ((s.ptw1 k e).active = false → (s.ptw2 k e).active = false) ∧
    ((s.ptw1 k e).active = true → (s.ptw2 k e).active = true →
      wr (s.ptw2 k e) (s.rt.step (s.rcyc k e)).1.route.owner < wr (s.ptw1 k e) s.rt.route.owner ∧
      ((s.ptw1 k e).phase = .req1 → wr (s.ptw2 k e) (s.rt.step (s.rcyc k e)).1.route.owner ≤ 6) ∧
      ∀ c, ((s.ptw2 k e).port c).inflight = ((s.ptw1 k e).port c).inflight) ∧
    ((s.ptw1 k e).active = true → (s.ptw2 k e).active = false → ((s.ptw2 k e).port (s.ptw1 k e).owner).inflight = false) := by
  have hpi1 : PI s.mem (fun c => s.fresh c = true) (s.ptw1 k e) := pi_select (pi_inputs hI.pi _).1
  have hrq : (s.ptw1 k e).reqId = s.ptw.reqId := (begin_cur hI.pi (s.calls k e)).1
  have hg := route_grant s.rt (s.rcyc k e)
  have hd := fun id x => route_data (s := s.rt) (s.rcyc k e) (id := id) (x := x)
  have hn := route_next hI.rt (s.rcyc k e) rfl rfl
  unfold Stalled at hns
  have hns := not_or.mp hns
  have hwk : (s.rt.step (s.rcyc k e)).2.1.wake.walk = false := by simpa using hns.1
  have hreq : (s.rcyc k e).req.walk = (s.ptw1 k e).issue := rfl
  rw [hreq] at hn
  unfold Mmu.Sys.ptw2
  dsimp only
  rw [hwk]
  generalize (s.rt.step (s.rcyc k e)) = R at hg hd hn hns
  have hgo := g_le s.rt.route.owner
  have hgo' := g_le R.1.route.owner
  cases hgr : grantOf R.2.2.grant with
  | some id =>
    obtain ⟨hnw, a, ha1, ha2, ha3, ha4⟩ := hg.1 id hgr
    have hnod : dataOf R.2.1.event = none := by
      cases hx : dataOf R.2.1.event with
      | none => rfl
      | some ix => exact absurd (hd ix.1 ix.2 hx).1 hnw
    rw [hnod, finish_some, if_neg (by decide)]
    have ha1 : (s.ptw1 k e).issue = some a := ha1
    generalize s.ptw1 k e = st at ha1
    refine ⟨rfl, rfl, fun _ => rfl, fun _ _ => rfl, fun h => h, fun h _ => ⟨?_, ?_, fun _ => rfl⟩, fun h1 h2 => ?_⟩
    · unfold Ptw.State.issue at ha1
      rw [h, if_pos rfl] at ha1
      unfold wr Ptw.State.granted
      cases hp : st.phase <;> rw [hp] at ha1 <;> dsimp only <;> first | omega | cases ha1
    · intro hp
      unfold wr Ptw.State.granted
      rw [hp]
      dsimp only
      omega
    · have : st.active = false := h2
      rw [h1] at this; cases this
  | none =>
    rw [finish_none, if_neg (by decide)]
    cases hx : dataOf R.2.1.event with
    | none =>
      have hno : (s.ptw1 k e).reqId.isSome = false := by
        rw [hrq]
        cases hr : s.ptw.reqId.isSome with
        | false => rfl
        | true => exact absurd ⟨hr, hx⟩ hns.2
      have hf : feed (s.ptw1 k e) none = s.ptw1 k e := rfl
      rw [hf]
      have hph : (s.ptw1 k e).active = true → (s.ptw1 k e).phase = .req1 ∨ (s.ptw1 k e).phase = .req2 := by
        intro ha
        have h1 := hpi1.act.mp ha
        have h2 : ¬ ((s.ptw1 k e).phase = .wait1 ∨ (s.ptw1 k e).phase = .wait2) := by
          intro h; have := hpi1.rid.mpr h; rw [hno] at this; cases this
        cases hp : (s.ptw1 k e).phase <;> rw [hp] at h1 h2 <;> simp at h1 h2 ⊢
      refine ⟨rfl, rfl, fun _ => rfl, fun _ _ => rfl, fun h => h, fun h _ => ?_, fun h1 h2 => by rw [h1] at h2; cases h2⟩
      have h2 := hn.2 hgr
      have h1 : ∀ a, (s.ptw1 k e).issue = some a → g R.1.route.owner < g s.rt.route.owner := fun a ha => hn.1 a ha hgr
      have h3 : ∃ a, (s.ptw1 k e).issue = some a := by
        unfold Ptw.State.issue
        rw [h, if_pos rfl]
        rcases hph h with hp | hp <;> rw [hp] <;> exact ⟨_, rfl⟩
      obtain ⟨a, ha⟩ := h3
      have h1 := h1 a ha
      refine ⟨?_, fun hp => ?_, fun _ => rfl⟩
      · unfold wr
        rcases hph h with hp | hp <;> rw [hp] <;> dsimp only <;> omega
      · unfold wr
        rw [hp]
        dsimp only; omega
    | some ix =>
      obtain ⟨id, x⟩ := ix
      obtain ⟨d1, d2, _⟩ := hd id x hx
      have hf : feed (s.ptw1 k e) (some (id, x)) = (s.ptw1 k e).memResp id x := rfl
      rw [hf]
      obtain ⟨m1, m2, m3, m4, m5, m6, m7, m8⟩ := memResp_frame (s.ptw1 k e) id x
      refine ⟨m1, m2, m3, m4, fun h => ?_, fun h h' => ?_, m8⟩
      · cases ha : ((s.ptw1 k e).memResp id x).active with
        | false => rfl
        | true => rw [(m5 ha).1] at h; cases h
      · have hgw := hn.2 hgr
        cases hr : (s.ptw1 k e).reqId with
        | none =>
          -- nothing outstanding: the data is dropped, the walk asks for a read
          obtain ⟨q1, q2, q3⟩ := m6 hr
          have hph : (s.ptw1 k e).phase = .req1 ∨ (s.ptw1 k e).phase = .req2 := by
            have h1 := hpi1.act.mp h
            have h2 : ¬ ((s.ptw1 k e).phase = .wait1 ∨ (s.ptw1 k e).phase = .wait2) := by
              intro h; have := hpi1.rid.mpr h; rw [hr] at this; cases this
            cases hp : (s.ptw1 k e).phase <;> rw [hp] at h1 h2 <;> simp at h1 h2 ⊢
          have h3 : ∃ a, (s.ptw1 k e).issue = some a := by
            unfold Ptw.State.issue
            rw [h, if_pos rfl]
            rcases hph with hp | hp <;> rw [hp] <;> exact ⟨_, rfl⟩
          obtain ⟨a, ha⟩ := h3
          have h1 := hn.1 a ha hgr
          refine ⟨?_, fun hp => ?_, (m5 h').2⟩
          · unfold wr
            rw [q2]
            rcases hph with hp | hp <;> rw [hp] <;> dsimp only <;> omega
          · unfold wr
            rw [q2, hp]
            dsimp only; omega
        | some i =>
          have hi : i = id := by
            rw [hrq] at hr
            exact (hI.link d1 i hr).1.trans d2.symm
          subst hi
          obtain ⟨p1, p2⟩ := m7 h hr h'
          refine ⟨?_, ?_, (m5 h').2⟩
          · unfold wr
            rw [p1, p2]
            dsimp only; omega
          · intro hp; rw [p1] at hp; cases hp

/-- Pending requests stay. -/
theorem apply_pending (p : Ptw.Port) (i : Ptw.In) (h : p.pending = true) : (p.apply i).pending = true := by
  have hs : ∀ (p : Ptw.Port) r, p.pending = true → (p.send r).pending = true := by
    intro p r h
    unfold Ptw.Port.send
    dsimp only
    rw [if_pos (.inl h)]; exact h
  unfold Ptw.Port.apply
  dsimp only
  cases i.req with
  | none => cases i.consumed <;> exact h
  | some r => cases i.consumed <;> exact hs _ r h

theorem seq_rr (st : Ptw.State) (i : Client → Ptw.In) : (st.seq i).rr = st.rr := by
  have h : ∀ (st : Ptw.State) c, (st.flush c).rr = st.rr := by
    intro st c
    unfold Ptw.State.flush Ptw.State.setPort
    dsimp only
    split <;> rfl
  unfold Ptw.State.seq
  dsimp only
  split <;> split <;> simp only [h]

/-- The turn register in every reachable state. -/
theorem rr_ptw2 {k : Caps} {s : Mmu.Sys n} (h : RR s.ptw) (e : Mmu.Cyc n) : RR (s.ptw2 k e) := by
  have h1 : RR (s.ptw1 k e) := rr_begin h _
  have hg : ∀ (st : Ptw.State) id, RR st → RR (st.granted id) := fun _ _ h => h
  have hm : ∀ (st : Ptw.State) id x, RR st → RR (st.memResp id x) := by
    intro st id x h ha
    obtain ⟨m1, m2, _, _, m5, _⟩ := memResp_frame st id x
    rw [m1, m2]; exact h (m5 ha).1
  have hr : ∀ (st : Ptw.State), RR st → RR st.retry := by
    intro st h
    unfold Ptw.State.retry
    split
    · exact h
    · exact h
  unfold Mmu.Sys.ptw2 Ptw.State.finish
  dsimp only
  cases grantOf (s.rt.step (s.rcyc k e)).2.2.grant <;> cases dataOf (s.rt.step (s.rcyc k e)).2.1.event <;>
    cases (s.rt.step (s.rcyc k e)).2.1.wake.walk <;> simp only [if_true, if_false] <;>
    first
      | exact h1
      | exact hr _ h1
      | exact hr _ (hg _ _ h1)
      | exact hr _ (hm _ _ _ h1)
      | exact hr _ (hm _ _ _ (hg _ _ h1))
      | exact hg _ _ h1
      | exact hm _ _ _ h1
      | exact hm _ _ _ (hg _ _ h1)

theorem rr_reach {k : Caps} (hk : ∀ c, 0 < k.of c) {s : Mmu.Sys n} (h : Mmu.Reach k s) : RR s.ptw := by
  induction h with
  | init m => intro h; cases h
  | @step s e h hv ih =>
    cases e with
    | write m => exact ih
    | cycle e =>
      intro ha
      have hI := reach_inv hk h
      obtain ⟨f1, _⟩ := finish_ok hk hI e hv
      obtain ⟨_, _, _, g4, _⟩ := seq_facts f1 (s.calls k e)
      have hr := seq_rr (s.ptw2 k e) (s.calls k e)
      have hr2 : RR (s.ptw2 k e) := rr_ptw2 ih e
      show ((s.ptw2 k e).seq (s.calls k e)).rr = ((s.ptw2 k e).seq (s.calls k e)).owner.other
      obtain ⟨a1, a2, a3, a4⟩ := g4 ha
      rw [hr, a2]
      apply hr2
      have := (seq_facts f1 (s.calls k e)).1.act.mp ha
      rw [a3] at this
      exact f1.act.mpr this

/-- What the arbiter leaves of a pending request of `c`. -/
theorem select_cases {st : Ptw.State} {c : Client} (hp : (st.port c).pending = true) (hi : (st.port c).inflight = false)
    (ha : st.active = false) (hph : st.phase = .idle) :
    (st.select.active = true ∧ st.select.phase = .req1) ∧
    ((st.select.owner = c ∧ (st.select.port c).inflight = true) ∨
     (st.select.owner ≠ c ∧ st.rr ≠ c ∧ (st.select.port c).inflight = false ∧ (st.select.port c).pending = true)) := by
  unfold Ptw.State.select
  have hna : ¬ (st.active = true ∨ st.phase ≠ .idle) := by rw [ha, hph]; simp
  rw [if_neg hna]
  have hst : ∀ d, ((st.start d).active = true ∧ (st.start d).phase = .req1) := fun d => ⟨rfl, rfl⟩
  have hown : ∀ d, (st.start d).owner = d := fun d => rfl
  have hport : ((st.start c).port c).inflight = true := by
    unfold Ptw.State.start Ptw.State.setPort; simp
  have hport2 : ∀ d, d ≠ c → ((st.start d).port c).inflight = false ∧ ((st.start d).port c).pending = true := by
    intro d hd
    unfold Ptw.State.start Ptw.State.setPort
    dsimp only
    rw [if_neg (fun h => hd h.symm)]; exact ⟨hi, hp⟩
  by_cases hrr : st.rr = c
  · rw [hrr, if_pos hp]
    exact ⟨hst c, .inl ⟨hown c, hport⟩⟩
  · split
    · exact ⟨hst _, .inr ⟨hrr, hrr, hport2 _ hrr⟩⟩
    · rw [other_of hrr, if_pos hp]
      exact ⟨hst c, .inl ⟨hown c, hport⟩⟩

/-- A cycle brings a waiting request nearer to its answer. -/
theorem rank_step {k : Caps} (hk : ∀ c, 0 < k.of c) {s : Mmu.Sys n} (h : Mmu.Reach k s) {e : Mmu.Cyc n} (hv : s.Valid k (.cycle e))
    {c : Client} (hf : (s.calls k e c).flush = false) (hns : ¬ Stalled k s e)
    (hw : (s.ptw.port c).pending = true ∨ (s.ptw.port c).inflight = true) :
    rank (s.cycle k e).ptw (s.cycle k e).rt.route.owner c < rank s.ptw s.rt.route.owner c := by
  have hI := reach_inv hk h
  have hrr : RR s.ptw := rr_reach hk h
  obtain ⟨f1, _⟩ := finish_ok hk hI e hv
  obtain ⟨s1, s2, _, s4, _⟩ := seq_facts f1 (s.calls k e)
  have sr := seq_rr (s.ptw2 k e) (s.calls k e)
  have sport := s2 c hf
  obtain ⟨r1, r2, r3, r4, r5, r6, r7⟩ := finish_rank hk hI e hns
  have hptw : (s.cycle k e).ptw = (s.ptw2 k e).seq (s.calls k e) := rfl
  have hrt : (s.cycle k e).rt = (s.rt.step (s.rcyc k e)).1 := rfl
  have hinp := pi_inputs hI.pi (s.calls k e)
  have hpi1 : PI s.mem (fun c => s.fresh c = true) (s.ptw1 k e) := pi_select hinp.1
  have hp1 : s.ptw1 k e = (s.ptw.inputs (s.calls k e)).select := rfl
  rw [hptw, hrt]
  generalize hR : (s.rt.step (s.rcyc k e)).1.route.owner = o' at *
  have hfin : rank ((s.ptw2 k e).seq (s.calls k e)) o' c =
      if ((s.ptw2 k e).port c).inflight then wr ((s.ptw2 k e).seq (s.calls k e)) o'
      else if ((s.ptw2 k e).port c).pending then (if ((s.ptw2 k e).seq (s.calls k e)).active then 7 + wr ((s.ptw2 k e).seq (s.calls k e)) o'
        else if (s.ptw2 k e).rr = c then 7 else 15) else 0 := by
    unfold rank; rw [sport, sr]
  rw [hfin]
  have hwseq : ((s.ptw2 k e).seq (s.calls k e)).active = true →
      wr ((s.ptw2 k e).seq (s.calls k e)) o' = wr (s.ptw2 k e) o' ∧ (s.ptw2 k e).active = true := by
    intro ha
    obtain ⟨_, _, a3, _⟩ := s4 ha
    refine ⟨by unfold wr; rw [a3], ?_⟩
    have := s1.act.mp ha
    rw [a3] at this
    exact f1.act.mpr this
  have hinfseq : ((s.ptw2 k e).port c).inflight = true → ((s.ptw2 k e).seq (s.calls k e)).active = true := by
    intro hi
    rw [← sport] at hi
    exact ((s1.infl c).mp hi).1
  have hwle := wr_le (s.ptw2 k e) o'
  by_cases hact : s.ptw.active = true
  · -- a walk is going on
    have hsel : s.ptw1 k e = s.ptw.inputs (s.calls k e) := by rw [hp1]; exact select_active hact
    have ha1 : (s.ptw1 k e).active = true := by rw [hsel]; exact hact
    have hown1 : (s.ptw1 k e).owner = s.ptw.owner := by rw [hsel]; rfl
    have hrr1 : (s.ptw1 k e).rr = s.ptw.rr := by rw [hsel]; rfl
    have hwr1 : wr (s.ptw1 k e) s.rt.route.owner = wr s.ptw s.rt.route.owner := by
      unfold wr; rw [hsel]; rfl
    have hwpos : 0 < wr s.ptw s.rt.route.owner := by
      have hph := hI.pi.act.mp hact
      have hgo := g_le s.rt.route.owner
      unfold wr
      cases hp : s.ptw.phase <;> dsimp only <;> first | omega | exact absurd hp hph
    rw [hwr1] at r6
    cases hin : (s.ptw.port c).inflight with
    | true =>
      have hoc : s.ptw.owner = c := ((hI.pi.infl c).mp hin).2
      have hrank : rank s.ptw s.rt.route.owner c = wr s.ptw s.rt.route.owner := by
        unfold rank; rw [hin, if_pos rfl]
      rw [hrank]
      have hpend1 : ((s.ptw2 k e).port c).pending = false := by
        rw [r3, hsel]
        have htp := hI.tp c
        have hpf : (s.ptw.port c).pending = false := by
          by_cases hx : ∀ x, (s.tlb c).walk = some x → x.sent = false
          · exact (htp.idle hx).1
          · have : ∃ x, (s.tlb c).walk = some x ∧ x.sent = true := by
              cases hwk : (s.tlb c).walk with
              | none => exact absurd (fun x hx => by rw [hwk] at hx; cases hx) hx
              | some x =>
                refine ⟨x, rfl, ?_⟩
                cases hs : x.sent with
                | true => rfl
                | false => exact absurd (fun y hy => by rw [hwk] at hy; injection hy with hy; rw [← hy]; exact hs) hx
            obtain ⟨x, hx1, hx2⟩ := this
            rcases (htp.sent x hx1 hx2).2 with a | a | a
            · rw [hin] at a; cases a.2.1
            · exact a.1
            · exact a.1
        show ((s.ptw.port c).apply (s.calls k e c)).pending = false
        unfold Ptw.Port.apply Ptw.Port.send
        cases (s.calls k e c).req <;> cases (s.calls k e c).consumed <;> simp [hpf, hin]
      cases ha2 : (s.ptw2 k e).active with
      | false =>
        have := r7 ha1 ha2
        rw [hown1, hoc] at this
        rw [this, hpend1]
        exact hwpos
      | true =>
        obtain ⟨q1, _, q3⟩ := r6 ha1 ha2
        have hi2 : ((s.ptw2 k e).port c).inflight = true := by
          rw [q3, hsel]
          show ((s.ptw.port c).apply (s.calls k e c)).inflight = true
          rw [(apply_infl _ _).1]; exact hin
        rw [hi2, if_pos rfl, (hwseq (hinfseq hi2)).1]
        exact q1
    | false =>
      have hpd : (s.ptw.port c).pending = true := by
        rcases hw with hw | hw
        · exact hw
        · rw [hin] at hw; cases hw
      have hoc : s.ptw.owner ≠ c := fun e' => by
        have := (hI.pi.infl c).mpr ⟨hact, e'⟩
        rw [hin] at this; cases this
      have hrank : rank s.ptw s.rt.route.owner c = 7 + wr s.ptw s.rt.route.owner := by
        unfold rank; rw [hin, hpd, hact]; rfl
      rw [hrank]
      have hp2 : (s.ptw2 k e).port c = (s.ptw1 k e).port c := r4 c (by rw [hown1]; exact fun h => hoc h.symm)
      have hi2 : ((s.ptw2 k e).port c).inflight = false := by
        rw [hp2, hsel]
        show ((s.ptw.port c).apply (s.calls k e c)).inflight = false
        rw [(apply_infl _ _).1]; exact hin
      have hpd2 : ((s.ptw2 k e).port c).pending = true := by
        rw [hp2, hsel]
        exact apply_pending _ _ hpd
      rw [hi2, hpd2, if_neg (by decide), if_pos rfl]
      have hrrc : (s.ptw2 k e).rr = c := by
        rw [r2, hrr1, hrr hact]; exact other_of hoc
      cases has : ((s.ptw2 k e).seq (s.calls k e)).active with
      | true =>
        obtain ⟨w1, w2⟩ := hwseq has
        rw [if_pos rfl, w1]
        have := (r6 ha1 w2).1
        omega
      | false =>
        rw [if_neg (by decide), if_pos hrrc]
        omega
  · -- nobody is being served
    have hact : s.ptw.active = false := by simpa using hact
    have hidle : s.ptw.phase = .idle := by
      cases hp : s.ptw.phase with
      | idle => rfl
      | _ => have := hI.pi.act.mpr (by rw [hp]; simp); rw [hact] at this; cases this
    have hin : (s.ptw.port c).inflight = false := by
      cases hx : (s.ptw.port c).inflight with
      | false => rfl
      | true => have := ((hI.pi.infl c).mp hx).1; rw [hact] at this; cases this
    have hpd : (s.ptw.port c).pending = true := by
      rcases hw with hw | hw
      · exact hw
      · rw [hin] at hw; cases hw
    have hsel := select_cases (st := s.ptw.inputs (s.calls k e)) (c := c) (apply_pending _ _ hpd)
      (by show ((s.ptw.port c).apply (s.calls k e c)).inflight = false; rw [(apply_infl _ _).1]; exact hin) hact hidle
    rw [← hp1] at hsel
    obtain ⟨⟨ha1, hph1⟩, hcase⟩ := hsel
    have hrri : (s.ptw.inputs (s.calls k e)).rr = s.ptw.rr := rfl
    rw [hrri] at hcase
    have hrank : rank s.ptw s.rt.route.owner c = if s.ptw.rr = c then 7 else 15 := by
      unfold rank; rw [hin, hpd, hact]; rfl
    rw [hrank]
    have h7 : 7 ≤ (if s.ptw.rr = c then 7 else 15) := by split <;> decide
    rcases hcase with ⟨ho, hi1⟩ | ⟨ho, hne, hi1, hpd1⟩
    · have hpend : ((s.ptw2 k e).port c).pending = false := by
        rw [r3]
        have : (s.ptw1 k e).port c = _ := rfl
        rw [hp1]
        unfold Ptw.State.select
        have hna : ¬ ((s.ptw.inputs (s.calls k e)).active = true ∨ (s.ptw.inputs (s.calls k e)).phase ≠ .idle) := by
          rw [show (s.ptw.inputs (s.calls k e)).active = s.ptw.active from rfl, show (s.ptw.inputs (s.calls k e)).phase = s.ptw.phase from rfl, hact, hidle]; simp
        rw [if_neg hna]
        have hst : ∀ d, (s.ptw1 k e).owner = d → d = c := fun d hd => hd.symm.trans ho
        have hso : ∀ (st : Ptw.State) d, (st.start d).owner = d := fun _ _ => rfl
        have hsp : ∀ (st : Ptw.State), ((st.start c).port c).pending = false := by
          intro st; unfold Ptw.State.start Ptw.State.setPort; simp
        rw [hp1] at ho
        unfold Ptw.State.select at ho
        rw [if_neg hna] at ho
        split
        · rename_i hx
          rw [if_pos hx, hso] at ho
          rw [ho]; exact hsp _
        · rename_i hx
          rw [if_neg hx] at ho
          split
          · rename_i hy
            rw [if_pos hy, hso] at ho
            rw [ho]; exact hsp _
          · rename_i hy
            exfalso
            have hpc : ((s.ptw.inputs (s.calls k e)).port c).pending = true := apply_pending _ _ hpd
            by_cases e1 : (s.ptw.inputs (s.calls k e)).rr = c
            · rw [e1] at hx; exact hx hpc
            · rw [other_of e1] at hy; exact hy hpc
      cases ha2 : (s.ptw2 k e).active with
      | false =>
        have := r7 ha1 ha2
        rw [ho] at this
        rw [this, hpend]
        rw [if_neg (by decide), if_neg (by decide)]
        exact Nat.lt_of_lt_of_le (by decide : 0 < 7) h7
      | true =>
        obtain ⟨_, q2, q3⟩ := r6 ha1 ha2
        have hi2 : ((s.ptw2 k e).port c).inflight = true := by rw [q3]; exact hi1
        rw [hi2, if_pos rfl, (hwseq (hinfseq hi2)).1]
        have := q2 hph1
        omega
    · rw [if_neg hne]
      have hp2 : (s.ptw2 k e).port c = (s.ptw1 k e).port c := r4 c (fun h => ho h.symm)
      rw [hp2, hi1, hpd1, if_neg (by decide), if_pos rfl]
      have hrr1 : RR (s.ptw1 k e) := rr_begin hrr _
      have hrrc : (s.ptw2 k e).rr = c := by rw [r2, hrr1 ha1]; exact other_of ho
      cases has : ((s.ptw2 k e).seq (s.calls k e)).active with
      | true =>
        obtain ⟨w1, w2⟩ := hwseq has
        rw [if_pos rfl, w1]
        omega
      | false => rw [if_neg (by decide), if_pos hrrc]; decide

end Verif.MmuRank

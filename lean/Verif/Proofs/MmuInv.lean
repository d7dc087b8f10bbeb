import Verif.Model.Mmu
import Verif.Proofs.PtwInv
import Verif.Props.MemRoute

/-! The invariant of the two TLBs, the walker and the block in front of the cache. -/
namespace Verif.MmuInv
open Verif.Ptw (Client)
open Verif.TlbSpec Verif.TlbLane Verif.PtwInv Verif.Mmu

variable {n : Nat}

structure Inv (k : Caps) (s : Mmu.Sys n) : Prop where
  rt : MemRoute.ReachW s.rt
  pi : PI s.mem (fun c => s.fresh c = true) s.ptw
  tp : ∀ c, TP s.mem (s.fresh c = true) (s.used c) (s.tlb c).walk (s.ptw.port c)
  repl : ∀ c, (s.tlb c).repl < k.of c
  tab : ∀ c i e, (s.tlb c).tab i = some e → s.fresh c = true → GoodE s.mem (s.used c) e
  link : s.rt.route.owner = .walk → ∀ id, s.ptw.reqId = some id → id = s.rt.route.id ∧ s.rt.route.addr = cur s.ptw
  open_ : s.ptw.reqId.isSome = true → s.rt.open_ .walk = true
  same : ∀ c, s.fresh c = true → s.same = true

theorem mid_mi {k : Caps} (hk : ∀ c, 0 < k.of c) {s : Mmu.Sys n} (hI : Inv k s) (e : Mmu.Cyc n) (c : Client) :
    MI s.mem (s.fresh c = true) (asked e c ++ s.used c) (k.of c) (s.ptw.port c) (s.mid k e c).1 := by
  have ht := (hI.tp c).mono (V := asked e c ++ s.used c) (fun x hx => List.mem_append_right _ hx)
  have htab : ∀ i x, (s.tlb c).tab i = some x → s.fresh c = true → GoodE s.mem (asked e c ++ s.used c) x :=
    fun i x hx hF => (hI.tab c i x hx hF).mono (fun y hy => List.mem_append_right _ hy)
  cases c with
  | dtlb =>
    refine (dcycle_mi (hk .dtlb) ht (hI.repl .dtlb) htab e.dop (fun c qs he => ?_)).1
    apply List.mem_append_left
    unfold asked; rw [he]; exact List.mem_singleton.mpr rfl
  | itlb =>
    refine (icycle_mi (hk .itlb) ht (hI.repl .itlb) htab e.iop (fun c v h1 h2 => ?_)).1
    apply List.mem_append_left
    unfold asked; rw [h1, h2]; exact List.mem_singleton.mpr rfl

/-! ## The block in front of the cache -/

theorem route_grant (s : MemRoute.Sys n) (c : MemRoute.Cyc n) :
    (∀ id, grantOf (s.step c).2.2.grant = some id →
      s.route.owner ≠ .walk ∧ ∃ a, c.req.walk = some a ∧ (s.step c).1.route.owner = .walk ∧ (s.step c).1.route.id = id ∧ (s.step c).1.route.addr = a) ∧
    (grantOf (s.step c).2.2.grant = none → (s.step c).1.route.owner ≠ .walk) := by
  unfold MemRoute.Sys.step
  dsimp only
  have hown : (MemRoute.combResponse s.route c.ans c.fill).1.owner = s.route.owner := by
    rw [Props.RouteLemmas.cr_state]
  generalize (MemRoute.combResponse s.route c.ans c.fill).1 = r at hown
  have ha := Props.RouteLemmas.arb_facts r c.req.icache c.req.walk c.req.dtlb c.req.itlb
  unfold MemRoute.combRequest
  generalize MemRoute.arbitrate r c.req.icache c.req.walk c.req.dtlb c.req.itlb = oa at ha
  obtain ⟨o, a⟩ := oa
  dsimp only at ha ⊢
  cases o with
  | walk =>
    rw [if_neg (by decide)]
    refine ⟨fun id hid => ⟨by rw [← hown]; exact ha.2, a, ha.1, rfl, ?_, rfl⟩, fun h => ?_⟩
    · have : some r.nextId = some id := hid
      injection this
    · exact absurd (show some r.nextId = none from h) (by simp)
  | none =>
    rw [if_pos rfl]
    exact ⟨(fun id h => by cases h), fun _ => by simp⟩
  | icache =>
    rw [if_neg (by decide)]
    exact ⟨(fun id h => by cases h), fun _ => by simp⟩
  | dtlb =>
    rw [if_neg (by decide)]
    exact ⟨(fun id h => by cases h), fun _ => by simp⟩
  | itlb =>
    rw [if_neg (by decide)]
    exact ⟨(fun id h => by cases h), fun _ => by simp⟩

theorem route_data {s : MemRoute.Sys n} (c : MemRoute.Cyc n) {id x : BitVec 32} (h : dataOf (s.step c).2.1.event = some (id, x)) :
    s.route.owner = .walk ∧ id = s.route.id ∧ ∃ r, c.ans (Fin.last n) = some r ∧ r.replay = .hit ∧ x = r.data := by
  have he : (s.step c).2.1.event = (MemRoute.combResponse s.route c.ans c.fill).2.event := rfl
  rw [he, Props.RouteLemmas.cr_event] at h
  cases ha : MemRoute.ownAnswer s.route c.ans with
  | none => rw [ha] at h; cases h
  | some r =>
    rw [ha] at h
    dsimp only at h
    split at h
    · rename_i hh
      unfold dataOf at h
      dsimp only at h
      split at h
      · rename_i ho
        injection h with h
        injection h with h1 h2
        refine ⟨ho, h1.symm, r, ?_, hh.2, h2.symm⟩
        unfold MemRoute.ownAnswer at ha
        cases hx : c.ans (Fin.last n) with
        | none => rw [hx] at ha; cases ha
        | some r' =>
          rw [hx] at ha
          dsimp only at ha
          split at ha
          · exact ha
          · cases ha
      · cases h
    · cases h

/-- The read stays open. -/
theorem route_open (s : MemRoute.Sys n) (c : MemRoute.Cyc n) :
    (∀ id, grantOf (s.step c).2.2.grant = some id → (s.step c).1.open_ .walk = true) ∧
    (s.open_ .walk = true → dataOf (s.step c).2.1.event = none → (s.step c).2.1.wake.walk = false → (s.step c).1.open_ .walk = true) := by
  have ho : (s.step c).1.open_ .walk = MemRoute.openAfter s.open_ (s.step c).2.1 (s.step c).2.2 .walk := rfl
  rw [ho]
  generalize (s.step c).2.1 = r
  generalize (s.step c).2.2 = q
  unfold MemRoute.openAfter
  constructor
  · intro id h
    cases hg : q.grant with
    | none => rw [hg] at h; cases h
    | some g =>
      obtain ⟨o, i⟩ := g
      rw [hg] at h
      cases o <;> first | (simp; done) | cases h
  · intro h1 h2 h3
    have : MemRoute.answered r .walk = false := by
      unfold MemRoute.answered
      dsimp only
      rw [h3]
      cases he : r.event with
      | none => rfl
      | some ev =>
        rw [he] at h2
        unfold dataOf at h2
        dsimp only at h2 ⊢
        split at h2
        · cases h2
        · rename_i hh; simp [hh]
    rw [h1, this]; rfl

/-! ## A cycle -/

theorem view_eq (s : Ptw.State) (c : Client) : s.view c = viewOf (s.port c) := rfl

theorem begin_cur {mem : BitVec 32 → BitVec 32} {fresh : Client → Prop} {st : Ptw.State} (h : PI mem fresh st) (i : Client → Ptw.In) :
    (st.begin_ i).reqId = st.reqId ∧ (st.reqId.isSome = true → cur (st.begin_ i) = cur st) := by
  refine ⟨select_reqId _, fun hr => ?_⟩
  have ha : st.active = true := by
    apply h.act.mpr
    intro e
    rcases h.rid.mp hr with a | a <;> rw [e] at a <;> cases a
  have hs : st.begin_ i = st.inputs i := select_active ha
  have ho := (pi_inputs h i).2 ha
  have h1 : (st.inputs i).phase = st.phase := rfl
  have h2 : (st.inputs i).pte1 = st.pte1 := rfl
  rw [hs]
  unfold cur
  rw [ho, h1, h2]

def feed (st : Ptw.State) (d : Option (BitVec 32 × BitVec 32)) : Ptw.State :=
  match d with
  | some (id, pte) => st.memResp id pte
  | none => st

theorem finish_none (st : Ptw.State) (d : Option (BitVec 32 × BitVec 32)) (w : Bool) :
    st.finish none d w = if w then (feed st d).retry else feed st d := by
  cases d <;> rfl

theorem finish_some (st : Ptw.State) (id : BitVec 32) (w : Bool) :
    st.finish (some id) none w = if w then (st.granted id).retry else st.granted id := rfl

/-- The walker at the end of the combinational part. -/
theorem finish_ok {k : Caps} (hk : ∀ c, 0 < k.of c) {s : Mmu.Sys n} (hI : Inv k s) (e : Mmu.Cyc n) (hv : s.Valid k (.cycle e)) :
    PI s.mem (fun c => s.fresh c = true) (s.ptw2 k e) ∧
    (∀ c, (s.calls k e c).flush = false → TP s.mem (s.fresh c = true) (asked e c ++ s.used c) (s.mid k e c).1.walk ((s.ptw2 k e).port c)) ∧
    ((s.rt.step (s.rcyc k e)).1.route.owner = .walk → ∀ id, (s.ptw2 k e).reqId = some id →
      id = (s.rt.step (s.rcyc k e)).1.route.id ∧ (s.rt.step (s.rcyc k e)).1.route.addr = cur (s.ptw2 k e)) ∧
    ((s.ptw2 k e).reqId.isSome = true → (s.rt.step (s.rcyc k e)).1.open_ .walk = true) := by
  have hpi1 : PI s.mem (fun c => s.fresh c = true) (s.ptw1 k e) := pi_select (pi_inputs hI.pi _).1
  have ht1 : TPs s.mem (fun c => s.fresh c = true) (fun c => asked e c ++ s.used c) (fun c => (s.calls k e c).flush = false)
      (fun c => (s.mid k e c).1.walk) (s.ptw1 k e) := by
    apply tps_select
    intro c hK
    obtain ⟨p, h1, _, h3⟩ := (mid_mi hk hI e c).port
    rw [h3 hK] at h1
    exact h1
  obtain ⟨hb1, hb2⟩ := begin_cur hI.pi (s.calls k e)
  have hb1 : (s.ptw1 k e).reqId = s.ptw.reqId := hb1
  have hg := route_grant s.rt (s.rcyc k e)
  have hd := fun id x => route_data (s := s.rt) (s.rcyc k e) (id := id) (x := x)
  have ho := route_open s.rt (s.rcyc k e)
  unfold Mmu.Sys.ptw2
  dsimp only
  generalize (s.rt.step (s.rcyc k e)) = R at hg hd ho
  cases hgr : grantOf R.2.2.grant with
  | some id =>
    obtain ⟨hnw, a, ha1, ha2, ha3, ha4⟩ := hg.1 id hgr
    have hnod : dataOf R.2.1.event = none := by
      cases hx : dataOf R.2.1.event with
      | none => rfl
      | some ix => exact absurd (hd ix.1 ix.2 hx).1 hnw
    rw [hnod, finish_some]
    obtain ⟨hpg, hcur⟩ := pi_granted hpi1 id a ha1
    have htg : TPs s.mem (fun c => s.fresh c = true) (fun c => asked e c ++ s.used c) (fun c => (s.calls k e c).flush = false)
        (fun c => (s.mid k e c).1.walk) ((s.ptw1 k e).granted id) := ht1
    cases R.2.1.wake.walk with
    | false =>
      rw [if_neg (by decide)]
      refine ⟨hpg, fun c hK => htg c hK, fun _ i hi => ?_, fun _ => ho.1 id hgr⟩
      have : some id = some i := hi
      injection this with this
      exact ⟨by rw [← this, ha3], by rw [ha4, hcur]⟩
    | true =>
      rw [if_pos rfl]
      obtain ⟨r1, r2, r3⟩ := retry_ok htg hpg
      exact ⟨r1, fun c hK => r2 c hK, (fun _ i hi => by rw [r3] at hi; cases hi), fun h => by rw [r3] at h; cases h⟩
  | none =>
    have hnw := hg.2 hgr
    rw [finish_none]
    have hmid : ∃ st, feed (s.ptw1 k e) (dataOf R.2.1.event) = st ∧
        PI s.mem (fun c => s.fresh c = true) st ∧
        TPs s.mem (fun c => s.fresh c = true) (fun c => asked e c ++ s.used c) (fun c => (s.calls k e c).flush = false)
          (fun c => (s.mid k e c).1.walk) st ∧
        (st.reqId.isSome = true → s.ptw.reqId.isSome = true ∧ dataOf R.2.1.event = none) := by
      cases hx : dataOf R.2.1.event with
      | none => exact ⟨_, rfl, hpi1, ht1, fun h => ⟨by rw [← hb1]; exact h, rfl⟩⟩
      | some ix =>
        obtain ⟨id, x⟩ := ix
        obtain ⟨d1, d2, r, d3, d4, d5⟩ := hd id x hx
        have hx2 : (s.ptw1 k e).reqId = some id → s.fresh (s.ptw1 k e).owner = true → x = s.mem (cur (s.ptw1 k e)) := by
          intro hr hF
          rw [hb1] at hr
          have hl := hI.link d1 id hr
          rw [d5, hv.2 r d3 d4 (hI.same _ hF) d1, hl.2]
          have : cur (s.ptw1 k e) = cur s.ptw := hb2 (by rw [hr]; rfl)
          rw [this]
        obtain ⟨m1, m2, m3⟩ := memResp_ok ht1 hpi1 id x hx2
        refine ⟨_, rfl, m1, m2, fun h => ?_⟩
        exfalso
        change ((s.ptw1 k e).memResp id x).reqId.isSome = true at h
        cases hq : ((s.ptw1 k e).memResp id x).reqId with
        | none => rw [hq] at h; cases h
        | some i =>
          obtain ⟨n1, n2, _⟩ := m3 i hq
          rw [hb1] at n1
          exact n2 ((hI.link d1 i n1).1.trans d2.symm)
    obtain ⟨st, hst, p1, p2, p3⟩ := hmid
    rw [hst]
    cases hw : R.2.1.wake.walk with
    | false =>
      rw [if_neg (by decide)]
      refine ⟨p1, fun c hK => p2 c hK, fun h => absurd h hnw, fun h => ?_⟩
      have := p3 h
      exact ho.2 (hI.open_ this.1) this.2 hw
    | true =>
      rw [if_pos rfl]
      obtain ⟨r1, r2, r3⟩ := retry_ok p2 p1
      exact ⟨r1, fun c hK => r2 c hK, fun h => absurd h hnw, fun h => by rw [r3] at h; cases h⟩

/-- The flushes at the end of the cycle. -/
theorem seq_facts {mem : BitVec 32 → BitVec 32} {fresh : Client → Prop} {st : Ptw.State} (h : PI mem fresh st) (i : Client → Ptw.In) :
    PI mem fresh (st.seq i) ∧ (∀ c, (i c).flush = false → (st.seq i).port c = st.port c) ∧ (∀ c, (i c).flush = true → Idle ((st.seq i).port c)) ∧
    ((st.seq i).active = true → (i (st.seq i).owner).flush = false ∧ (st.seq i).owner = st.owner ∧ (st.seq i).phase = st.phase ∧ (st.seq i).pte1 = st.pte1) ∧
    (∀ id, (st.seq i).reqId = some id → st.reqId = some id ∧ (st.seq i).active = true) := by
  have hact : ∀ {st : Ptw.State} (_ : PI mem fresh st) id, st.reqId = some id → st.active = true := by
    intro st h id hi
    apply h.act.mpr
    intro e
    rcases h.rid.mp (by rw [hi]; rfl) with a | a <;> rw [e] at a <;> cases a
  have e1 : ∀ (c : Client) (st : Ptw.State) (_ : PI mem fresh st), PI mem fresh (if (i c).flush then st.flush c else st) ∧
      (∀ c', c' ≠ c → (if (i c).flush then st.flush c else st).port c' = st.port c') ∧
      ((i c).flush = false → (if (i c).flush then st.flush c else st).port c = st.port c) ∧
      ((i c).flush = true → Idle ((if (i c).flush then st.flush c else st).port c)) ∧
      ((if (i c).flush then st.flush c else st).active = true →
        (i c).flush = true → st.owner ≠ c) ∧
      ((if (i c).flush then st.flush c else st).active = true →
        st.active = true ∧ (if (i c).flush then st.flush c else st).owner = st.owner ∧ (if (i c).flush then st.flush c else st).phase = st.phase ∧
        (if (i c).flush then st.flush c else st).pte1 = st.pte1) ∧
      (∀ id, (if (i c).flush then st.flush c else st).reqId = some id → st.reqId = some id) := by
    intro c st h
    cases hf : (i c).flush with
    | false =>
      rw [if_neg (by decide)]
      exact ⟨h, fun _ _ => rfl, fun _ => rfl, (fun e => by cases e), (fun _ e => by cases e), fun ha => ⟨ha, rfl, rfl, rfl⟩, fun _ hx => hx⟩
    | true =>
      rw [if_pos rfl]
      obtain ⟨a1, a2, a3, a4, a5⟩ := flush_ok h c
      exact ⟨a1, a2, (fun e => by cases e), fun _ => a3, fun hx _ => (a4 hx).2.2.1, fun hx => ⟨(a4 hx).1, (a4 hx).2.1, (a4 hx).2.2.2⟩, fun id hx => (a5 id hx).1⟩
  obtain ⟨b1, b2, b3, b4, b5, b6, b7⟩ := e1 .dtlb st h
  obtain ⟨c1, c2, c3, c4, c5, c6, c7⟩ := e1 .itlb _ b1
  have hs : st.seq i = (if (i .itlb).flush then (if (i .dtlb).flush then st.flush .dtlb else st).flush .itlb else (if (i .dtlb).flush then st.flush .dtlb else st)) := rfl
  rw [hs]
  refine ⟨c1, fun c hf => ?_, fun c hf => ?_, fun ha => ?_, fun id hi => ⟨b7 id (c7 id hi), hact c1 id hi⟩⟩
  · cases c with
    | dtlb => rw [c2 .dtlb (by decide), b3 hf]
    | itlb => rw [c3 hf, b2 .itlb (by decide)]
  · cases c with
    | dtlb => rw [c2 .dtlb (by decide)]; exact b4 hf
    | itlb => exact c4 hf
  · obtain ⟨d1, d2, d3, d4⟩ := c6 ha
    obtain ⟨f1, f2, f3, f4⟩ := b6 d1
    refine ⟨?_, d2.trans f2, d3.trans f3, d4.trans f4⟩
    rw [d2, f2]
    cases ho : st.owner with
    | dtlb =>
      cases hf : (i .dtlb).flush with
      | false => rfl
      | true => exact absurd ho (b5 d1 hf)
    | itlb =>
      cases hf : (i .itlb).flush with
      | false => rfl
      | true => exact absurd (f2.trans ho) (c5 ha hf)

theorem cycle_inv {k : Caps} (hk : ∀ c, 0 < k.of c) {s : Mmu.Sys n} (hI : Inv k s) (e : Mmu.Cyc n) (hv : s.Valid k (.cycle e)) :
    Inv k (s.cycle k e) := by
  obtain ⟨f1, f2, f3, f4⟩ := finish_ok hk hI e hv
  obtain ⟨g1, g2, g3, g4, g5⟩ := seq_facts f1 (s.calls k e)
  have htlb : ∀ c, (s.cycle k e).tlb c = (s.mid k e c).1.seq (k.of c) := by intro c; cases c <;> rfl
  have hsq := fun c => seq_ok (hk c) (mid_mi hk hI e c)
  have hptw : (s.cycle k e).ptw = (s.ptw2 k e).seq (s.calls k e) := rfl
  have hmem : (s.cycle k e).mem = s.mem := rfl
  have hfresh : ∀ c, (s.cycle k e).fresh c = (s.fresh c || (s.mid k e c).1.flushed) := fun _ => rfl
  have hused : ∀ c, (s.cycle k e).used c = if (s.mid k e c).1.flushed then [] else asked e c ++ s.used c := fun _ => rfl
  have hfl : ∀ c, (s.mid k e c).1.flushed = true → (s.calls k e c).flush = true := fun c h => (mid_mi hk hI e c).flushed h
  refine ⟨.step hI.rt hv.1 rfl rfl, ?_, fun c => ?_, fun c => ?_, fun c i x hx hF => ?_, ?_, ?_, fun _ _ => rfl⟩
  · rw [hptw, hmem]
    refine pi_fresh g1 (fun ha hF => ?_)
    have := (g4 ha).1
    rw [hfresh] at hF
    generalize ((s.ptw2 k e).seq (s.calls k e)).owner = c at this hF
    cases hfc : (s.mid k e c).1.flushed with
    | false => rw [hfc, Bool.or_false] at hF; exact hF
    | true => rw [hfl c hfc] at this; cases this
  · rw [hptw, hmem, htlb, hfresh, hused]
    obtain ⟨_, h2, h3⟩ := hsq c
    cases hfc : (s.mid k e c).1.flushed with
    | true =>
      rw [h2 hfc]
      exact tp_none (g3 c (hfl c hfc))
    | false =>
      rw [(h3 hfc).1, Bool.or_false, if_neg (by decide)]
      cases hcf : (s.calls k e c).flush with
      | true =>
        rcases (mid_mi hk hI e c).flush hcf with a | a
        · rw [hfc] at a; cases a
        · rw [a]; exact tp_none (g3 c hcf)
      | false =>
        rw [g2 c hcf]
        exact f2 c hcf
  · rw [htlb]; exact (hsq c).1
  · rw [htlb] at hx
    rw [hfresh] at hF
    rw [hmem, hused]
    obtain ⟨_, h2, h3⟩ := hsq c
    cases hfc : (s.mid k e c).1.flushed with
    | true => rw [h2 hfc] at hx; cases hx
    | false =>
      rw [hfc, Bool.or_false] at hF
      rw [if_neg (by decide)]
      exact (h3 hfc).2 i x hx hF
  · intro ho id hi
    rw [hptw] at hi
    have hgi := g5 id hi
    obtain ⟨a1, a2⟩ := f3 ho id hgi.1
    refine ⟨a1, ?_⟩
    show (s.rt.step (s.rcyc k e)).1.route.addr = cur ((s.ptw2 k e).seq (s.calls k e))
    rw [a2]
    obtain ⟨b1, b2, b3, b4⟩ := g4 hgi.2
    unfold cur oreq
    rw [b3, b4, g2 _ b1, b2]
  · intro h
    rw [hptw] at h
    cases hr : ((s.ptw2 k e).seq (s.calls k e)).reqId with
    | none => rw [hr] at h; cases h
    | some id => exact f4 (by rw [(g5 id hr).1]; rfl)

theorem reach_inv {k : Caps} (hk : ∀ c, 0 < k.of c) {s : Mmu.Sys n} (h : Mmu.Reach k s) : Inv k s := by
  induction h with
  | init m =>
    refine ⟨.init, ⟨fun c => ?_, ?_, ?_, ?_⟩, fun c => ?_, fun c => ?_, fun c i e he => ?_, fun h => ?_, fun h => ?_, fun _ _ => rfl⟩
    · show false = true ↔ (false = true ∧ _); simp
    · show false = true ↔ Ptw.Phase.idle ≠ .idle; simp
    · show (none : Option (BitVec 32)).isSome = true ↔ (Ptw.Phase.idle = .wait1 ∨ Ptw.Phase.idle = .wait2); simp
    · intro hp
      have hp : Ptw.Phase.idle = .req2 ∨ Ptw.Phase.idle = .wait2 := hp
      rcases hp with hp | hp <;> cases hp
    · cases c <;> exact tp_none ⟨rfl, rfl, rfl⟩
    · cases c
      · exact hk .dtlb
      · exact hk .itlb
    · cases c <;> cases he
    · cases h
    · cases h
  | @step s e _ hv ih =>
    cases e with
    | cycle e => exact cycle_inv hk ih e hv
    | write m =>
      refine ⟨ih.rt, ⟨ih.pi.infl, ih.pi.act, ih.pi.rid, ?_⟩, fun c => ?_, fun c => ?_, ?_, ih.link, ih.open_, ?_⟩
      · intro _ h; cases h
      · have := ih.tp c
        have hc : (Mmu.Sys.step k s (.write m)).tlb c = s.tlb c := by cases c <;> rfl
        rw [hc]
        refine ⟨this.idle, fun x hx hs => ?_, this.satp⟩
        obtain ⟨a, b⟩ := this.sent x hx hs
        refine ⟨a, ?_⟩
        rcases b with b | b | ⟨b1, b2, r, b3, b4, _⟩
        · exact .inl b
        · exact .inr (.inl b)
        · exact .inr (.inr ⟨b1, b2, r, b3, b4, fun h => by cases h⟩)
      · have := ih.repl c
        cases c <;> exact this
      · intro c i x _ hF; cases hF
      · intro c hF; cases hF

end Verif.MmuInv

import Verif.Proofs.MemTopCalm
import Verif.Proofs.MemTopCache

/-
Invariant of load/store unit, routing block, data cache and interconnect together.
-/
namespace Verif.MemTop

open Verif.Ring Verif.Lane Verif.Spec.ByteMem Verif.Spec.MemOrder Verif.Spec.CacheMem
open Verif.Lsu (Inv mmioAddr)
open Verif.Dcache (Line Ld St LdResp StResp Output after)
open Verif.MemRoute (Req Resp Cyc ReqIn)
open Verif.Props (Run)

/-- The waiting loads and the requests `pl` that stand for them. -/
structure Who (p : Nat) (u : Lsu.Sys) (who : BitVec 32 → Option Nat) (pl : List Req) : Prop where
  wait : ∀ id i, who id = some i → (u.lsu.ldq i).st = .waitDcacheResp
  has : ∀ id i, who id = some i → ∃ q ∈ pl, q.id = id ∧ q.addr = (u.lsu.ldq i).paddr
  inj : ∀ a b i, who a = some i → who b = some i → a = b
  all : ∀ i, (u.lsu.ldq i).st = .waitDcacheResp → ∃ id, who id = some i
  nodup : (pl.map (·.id)).Nodup
  small : ∀ q ∈ pl, q.id.toNat < 2 ^ 31
  len : pl.length ≤ p + 1

def PhOk {p : Nat} (mem : BitVec 32 → Line) (s : State p) : Prop :=
  match s.ph with
  | none => s.ports = [] ∧ s.stores = [] ∧ ∃ pl qs, (∀ i : Fin (p + 1), s.rt.last.lsu i = pl[i.val]?) ∧ Who p s.u s.who pl ∧ Out s.u qs ∧
      Run mem s.d s.u.mem (lds s.rt.ports s.rt.probe) (qs.map stOf)
  | some f => ∃ qs, Who p s.u s.who s.ports ∧ Out s.u qs ∧ s.stores = qs.map stOf ∧
      ∃ M st d' o, Run mem s.d M (lds s.rt.ports s.rt.probe) st ∧ s.d.Valid (.tick true [] [] f.resp f.ack) ∧
        s.d.step (.tick true [] [] f.resp f.ack) = some (d', o) ∧ s.u.mem = after M o.stores ∧ f.ans = answers s.rt.ports o.loads

structure Ok {p : Nat} (n : Nat) (mem : BitVec 32 → Line) (s : State p) : Prop where
  inv : Inv n (flat mem) s.u
  route : MemRoute.Reach s.rt
  ph : PhOk mem s

theorem ok_init (p n : Nat) (mem : BitVec 32 → Line) : Ok n mem (State.init p mem (flat mem)) := by
  refine ⟨Lsu.inv_init n _, .init, rfl, rfl, [], [], fun i => rfl, ?_, ?_, ?_⟩
  · exact ⟨(fun _ _ h => by cases h), (fun _ _ h => by cases h), (fun _ _ _ h => by cases h), (fun _ h => by cases h), List.nodup_nil,
      (fun _ h => by cases h), Nat.zero_le _⟩
  · exact ⟨List.nodup_nil, (fun _ h => by cases h), (fun _ _ _ h => by cases h), (fun _ h => by cases h)⟩
  · have : lds (fun _ : Fin (p + 1) => (none : Option Req)) none = [] := by
      unfold lds
      rw [List.filterMap_eq_nil_iff]
      intro _ _; rfl
    show Run mem (Dcache.Sys.init mem) (flat mem) (lds (fun _ : Fin (p + 1) => (none : Option Req)) none) []
    rw [this]
    exact .init

theorem eq_of_id : ∀ {pl : List Req}, (pl.map (·.id)).Nodup → ∀ {a b : Req}, a ∈ pl → b ∈ pl → a.id = b.id → a = b
  | [], _, _, _, h, _, _ => by cases h
  | q :: pl, hn, a, b, ha, hb, e => by
    have hn' := List.nodup_cons.mp (show (q.id :: pl.map (·.id)).Nodup from hn)
    rcases List.mem_cons.mp ha with ea | ha
    · rcases List.mem_cons.mp hb with eb | hb
      · rw [ea, eb]
      · exact absurd (List.mem_map.mpr ⟨b, hb, by rw [← e, ea]⟩) hn'.1
    · rcases List.mem_cons.mp hb with eb | hb
      · exact absurd (List.mem_map.mpr ⟨a, ha, by rw [e, eb]⟩) hn'.1
      · exact eq_of_id hn'.2 ha hb e

/-! ## The routing block's view of the cache -/

theorem route_valid {p : Nat} {mem : BitVec 32 → Line} {rt : MemRoute.Sys p} {d d' : Dcache.Sys} {M : Mem} {st : List St} {o : Output}
    {resp : Option Nat} {ack : Bool} (hr : Run mem d M (lds rt.ports rt.probe) st) (hv : d.Valid (.tick true [] [] resp ack))
    (hs : d.step (.tick true [] [] resp ack) = some (d', o)) (fill : Bool) (req : ReqIn p)
    (hid : ∀ i q, req.lsu i = some q → q.id.toNat < 2 ^ 31) :
    rt.Valid { ans := answers rt.ports o.loads, fill := fill, req := req } := by
  have ha := ((Props.C57_answers hr hv hs).1 rfl).1
  refine ⟨fun i => ?_, fun i hp r hri => ?_, hid⟩
  · have := answers_port ha i
    dsimp only
    cases hq : rt.ports i with
    | none => rw [hq] at this; rw [this]; rfl
    | some q =>
      rw [hq] at this
      obtain ⟨r, _, h2, h3⟩ := this
      rw [h3]
      show some r.req.id = some q.id
      rw [h2]; rfl
  · have := answers_port ha i
    cases hq : rt.ports i with
    | none => rw [hq] at this; dsimp only at hri; rw [this] at hri; cases hri
    | some q =>
      rw [hq] at this
      obtain ⟨r0, h1, h2, h3⟩ := this
      dsimp only at hri
      rw [h3] at hri
      injection hri with hri
      subst hri
      refine ((quick_tick (run_quick hr) hs).2 r0 h1 ?_).1
      rw [h2]
      show decide (rt.probe = some i) = true
      rw [hp]; simp

/-! ## Steps -/

theorem Who.plain {p : Nat} {u u' : Lsu.Sys} {who : BitVec 32 → Option Nat} {pl : List Req} (h : Who p u who pl) (hc : Calm u.lsu u'.lsu) :
    Who p u' (prune u'.lsu who) pl := by
  have hp : ∀ id i, prune u'.lsu who id = some i → who id = some i ∧ (u'.lsu.ldq i).st ≠ .empty := by
    intro id i hi
    unfold prune at hi
    cases hw : who id with
    | none => rw [hw] at hi; cases hi
    | some j =>
      rw [hw] at hi
      dsimp only at hi
      split at hi
      · cases hi
      · next hne => injection hi with hi; subst hi; exact ⟨rfl, hne⟩
  refine ⟨?_, ?_, ?_, ?_, h.nodup, h.small, h.len⟩
  · intro id i hi
    obtain ⟨h1, h2⟩ := hp id i hi
    rcases hc.keep i (h.wait id i h1) with h3 | h3
    · exact absurd h3 h2
    · exact h3.1
  · intro id i hi
    obtain ⟨h1, h2⟩ := hp id i hi
    rcases hc.keep i (h.wait id i h1) with h3 | h3
    · exact absurd h3 h2
    · rw [h3.2]; exact h.has id i h1
  · intro a b i ha hb
    exact h.inj a b i (hp a i ha).1 (hp b i hb).1
  · intro i hi
    obtain ⟨id, hid⟩ := h.all i (hc.ldq i hi)
    refine ⟨id, ?_⟩
    unfold prune
    rw [hid]
    dsimp only
    rw [if_neg (by rw [hi]; simp)]

theorem Out.plain {u u' : Lsu.Sys} {qs : List Lsu.StoreReq} (h : Out u qs) (hp : Plain u u') : Out u' qs :=
  ⟨h.nodup, by rw [hp.pend]; exact h.pend, by rw [hp.pend]; exact h.all, fun i hi => by rw [hp.pend]; exact h.wait i (hp.calm.stq i hi)⟩

theorem ok_lsu {p n : Nat} {mem : BitVec 32 → Line} {s : State p} (hn : 0 < n) (h : Ok n mem s) {e : Lsu.Ev} (hv : s.Valid n (.lsu e)) :
    ∃ s', s.step n (.lsu e) = some s' ∧ Ok n mem s' := by
  obtain ⟨hp, hv⟩ := hv
  obtain ⟨u, hu⟩ := Option.isSome_iff_exists.mp (Lsu.step_some hn h.inv e hv)
  have hpl := plain_step hp hv hu
  refine ⟨?w, ?h, ?g⟩
  case h => simp only [State.step, hu, Option.map_some]; rfl
  refine ⟨Lsu.inv_step hn h.inv e hv hu, h.route, ?_⟩
  have := h.ph
  unfold PhOk at this ⊢
  dsimp only
  cases hph : s.ph with
  | none =>
    rw [hph] at this
    obtain ⟨h1, h2, pl, qs, h3, h4, h5, h6⟩ := this
    exact ⟨h1, h2, pl, qs, h3, h4.plain hpl.calm, h5.plain hpl, by rw [hpl.mem]; exact h6⟩
  | some f =>
    rw [hph] at this
    obtain ⟨qs, h1, h2, h3, M, st, d', o, h4, h5, h6, h7, h8⟩ := this
    exact ⟨qs, h1.plain hpl.calm, h2.plain hpl, h3, M, st, d', o, h4, h5, h6, by rw [hpl.mem]; exact h7, h8⟩

theorem issueLoad_facts {l : Lsu.State} {i : Nat} (h : (l.ldq i).st = .readyToIssue) :
    Lsu.issueLoad l i = { l with ldq := upd l.ldq i { l.ldq i with st := .waitDcacheResp } } := by
  unfold Lsu.issueLoad
  rw [if_neg (by rw [h]; simp)]

theorem ok_ldIssue {p n : Nat} {mem : BitVec 32 → Line} {s : State p} (hn : 0 < n) (h : Ok n mem s) {i : Nat} {id : BitVec 32}
    (hv : s.Valid n (.ldIssue i id)) : ∃ s', s.step n (.ldIssue i id) = some s' ∧ Ok n mem s' := by
  obtain ⟨hph, hlen, hst, hsm, hno, hfr⟩ := hv
  refine ⟨?w, ?h, ?g⟩
  case h => simp only [State.step, Lsu.Sys.step, Option.map_some]; rfl
  refine ⟨Lsu.inv_step hn h.inv (.ldIssue i) trivial rfl, h.route, ?_⟩
  have := h.ph
  unfold PhOk at this ⊢
  dsimp only
  cases hf : s.ph with
  | none => rw [hf] at hph; cases hph
  | some f =>
    rw [hf] at this
    obtain ⟨qs, h1, h2, h3, M, st, d', o, h4, h5, h6, h7, h8⟩ := this
    dsimp only
    rw [issueLoad_facts hst]
    have hsame : ∀ w, (upd s.u.lsu.ldq i { s.u.lsu.ldq i with st := w } i) = { s.u.lsu.ldq i with st := w } := fun _ => upd_same _ _ _
    refine ⟨qs, ⟨?_, ?_, ?_, ?_, ?_, ?_, ?_⟩, ⟨h2.nodup, h2.pend, h2.all, h2.wait⟩, h3, M, st, d', o, h4, h5, h6, h7, h8⟩
    · intro x j hx
      dsimp only at hx ⊢
      split at hx
      · injection hx with hx; subst hx; rw [hsame]
      · have hw := h1.wait x j hx
        rw [upd_ne]
        · exact hw
        · intro e; subst e; rw [hst] at hw; cases hw
    · intro x j hx
      dsimp only at hx ⊢
      split at hx
      · next e =>
        injection hx with hx; subst hx; rw [hsame]
        exact ⟨_, List.mem_append_right _ (List.mem_singleton_self _), e.symm, rfl⟩
      · have hw := h1.wait x j hx
        rw [upd_ne]
        · obtain ⟨q, hq, he⟩ := h1.has x j hx
          exact ⟨q, List.mem_append_left _ hq, he⟩
        · intro e; subst e; rw [hst] at hw; cases hw
    · intro a b j ha hb
      split at ha
      · next ea =>
        injection ha with ha
        subst ha
        split at hb
        · next eb => rw [ea, eb]
        · have hw := h1.wait b _ hb
          rw [hst] at hw; cases hw
      · split at hb
        · injection hb with hb
          subst hb
          have hw := h1.wait a _ ha
          rw [hst] at hw; cases hw
        · exact h1.inj a b j ha hb
    · intro j hj
      dsimp only at hj ⊢
      by_cases e : j = i
      · subst e; exact ⟨id, if_pos rfl⟩
      · rw [upd_ne _ _ e] at hj
        obtain ⟨x, hx⟩ := h1.all j hj
        refine ⟨x, ?_⟩
        rw [if_neg]
        · exact hx
        · intro e2; rw [e2, hno] at hx; cases hx
    · rw [List.map_append, List.nodup_append]
      refine ⟨h1.nodup, by simp, ?_⟩
      intro a ha b hb
      obtain ⟨q, hq, rfl⟩ := List.mem_map.mp ha
      simp only [List.map_cons, List.map_nil, List.mem_singleton] at hb
      subst hb
      exact hfr q hq
    · intro q hq
      rcases List.mem_append.mp hq with hq | hq
      · exact h1.small q hq
      · rw [List.mem_singleton] at hq; subst hq; exact hsm
    · rw [List.length_append, List.length_singleton]; omega

theorem issueStore_facts (n : Nat) (l : Lsu.State) (j : Nat) :
    (Lsu.issueStore n l j).1.ldq = l.ldq ∧
    match (Lsu.issueStore n l j).2 with
    | none => ∀ i, ((Lsu.issueStore n l j).1.stq i).st = .waitDcacheResp → (l.stq i).st = .waitDcacheResp
    | some q => (l.stq q.idx).st = .committed ∧ ∃ e, (Lsu.issueStore n l j).1.stq = upd l.stq q.idx e := by
  unfold Lsu.issueStore
  dsimp only
  split
  · exact ⟨rfl, fun _ h => h⟩
  · next h0 =>
    have hc : (l.stq ((l.head + j) % n)).st = .committed := by
      apply Classical.byContradiction
      intro hc; exact h0 (.inr hc)
    split
    · exact ⟨rfl, fun _ h => h⟩
    · split
      · split
        · exact ⟨rfl, (Calm.st (l := l) (k := (l.head + j) % n) (l' := { l with stq := _ }) rfl rfl (.inl (by simp))).stq⟩
        · exact ⟨rfl, fun _ h => h⟩
      · split
        · exact ⟨rfl, (Calm.st (l := l) (k := (l.head + j) % n) (l' := { l with stq := _ }) rfl rfl (.inl (by simp))).stq⟩
        · exact ⟨rfl, hc, _, rfl⟩

theorem ok_stIssue {p n : Nat} {mem : BitVec 32 → Line} {s : State p} (hn : 0 < n) (h : Ok n mem s) {j : Nat}
    (hv : s.Valid n (.stIssue j)) : ∃ s', s.step n (.stIssue j) = some s' ∧ Ok n mem s' := by
  have hph : s.ph.isSome = true := hv
  refine ⟨?w, ?h, ?g⟩
  case h => simp only [State.step, Lsu.Sys.step, Option.map_some]; rfl
  refine ⟨Lsu.inv_step hn h.inv (.stIssue j) trivial rfl, h.route, ?_⟩
  have := h.ph
  unfold PhOk at this ⊢
  dsimp only
  cases hf : s.ph with
  | none => rw [hf] at hph; cases hph
  | some f =>
    rw [hf] at this
    obtain ⟨qs, h1, h2, h3, M, st, d', o, h4, h5, h6, h7, h8⟩ := this
    dsimp only
    obtain ⟨g1, g2⟩ := issueStore_facts n s.u.lsu j
    have hw : ∀ u' : Lsu.Sys, u'.lsu.ldq = s.u.lsu.ldq → Who p u' s.who s.ports := fun u' e =>
      ⟨by rw [e]; exact h1.wait, by rw [e]; exact h1.has, h1.inj, by rw [e]; exact h1.all, h1.nodup, h1.small, h1.len⟩
    cases hq : (Lsu.issueStore n s.u.lsu j).2 with
    | none =>
      rw [hq] at g2
      refine ⟨qs, hw _ g1, ⟨h2.nodup, h2.pend, h2.all, fun i hi => h2.wait i (g2 i hi)⟩, ?_, M, st, d', o, h4, h5, h6, h7, h8⟩
      rw [h3]
      simp
    | some q =>
      rw [hq] at g2
      obtain ⟨hc, e, he⟩ := g2
      have hnone : s.u.pend q.idx = none := by
        cases hpq : s.u.pend q.idx with
        | none => rfl
        | some x =>
          obtain ⟨q', b⟩ := x
          obtain ⟨k, k1, k2, k3, k4, _⟩ := h.inv.pending hpq
          rw [Lsu.ent_window s.u k1, k3, hc] at k4
          cases k4
      refine ⟨qs ++ [q], hw _ g1, ⟨?_, ?_, ?_, ?_⟩, ?_, M, st, d', o, h4, h5, h6, h7, h8⟩
      · rw [List.map_append, List.nodup_append]
        refine ⟨h2.nodup, by simp, ?_⟩
        intro a ha b hb
        obtain ⟨q', hq', rfl⟩ := List.mem_map.mp ha
        simp only [List.map_cons, List.map_nil, List.mem_singleton] at hb
        subst hb
        intro e
        have := h2.pend q' hq'
        rw [e, hnone] at this
        cases this
      · intro q' hq'
        dsimp only
        rcases List.mem_append.mp hq' with hq' | hq'
        · rw [upd_ne]
          · exact h2.pend q' hq'
          · intro e
            have := h2.pend q' hq'
            rw [e, hnone] at this
            cases this
        · rw [List.mem_singleton] at hq'; subst hq'; exact upd_same _ _ _
      · intro i q' b hpq
        dsimp only at hpq
        by_cases e1 : i = q.idx
        · subst e1
          rw [upd_same] at hpq
          injection hpq with hpq
          injection hpq with hpq _
          subst hpq
          exact List.mem_append_right _ (List.mem_singleton_self _)
        · rw [upd_ne _ _ e1] at hpq
          exact List.mem_append_left _ (h2.all i q' b hpq)
      · intro i hi
        dsimp only at hi ⊢
        rw [he] at hi
        by_cases e1 : i = q.idx
        · subst e1; rw [upd_same]; simp
        · rw [upd_ne _ _ e1] at hi
          rw [upd_ne _ _ e1]
          exact h2.wait i hi
      · rw [h3, List.map_append]
        rfl

theorem ok_quiet {p n : Nat} {mem : BitVec 32 → Line} {s : State p} (h : Ok n mem s) {e : Dcache.Ev}
    (hv : s.Valid n (.quiet e)) : ∃ s', s.step n (.quiet e) = some s' ∧ Ok n mem s' := by
  obtain ⟨hph, hq, hv⟩ := hv
  have := h.ph
  unfold PhOk at this
  rw [hph] at this
  obtain ⟨h1, h2, pl, qs, h3, h4, h5, h6⟩ := this
  cases hs : s.d.step e with
  | none => exact absurd hs (Props.C57_no_assertion h6 hv)
  | some x =>
    obtain ⟨d', o⟩ := x
    refine ⟨?w, ?h, ?g⟩
    case h => simp only [State.step, hs, Option.map_some]; rfl
    refine ⟨h.inv, h.route, ?_⟩
    unfold PhOk
    dsimp only
    rw [hph]
    refine ⟨h1, h2, pl, qs, h3, h4, h5, .quiet e ?_ h6 hv hs⟩
    cases e <;> exact hq

theorem ok_inp {p n : Nat} {mem : BitVec 32 → Line} {s : State p} (h : Ok n mem s) {ic wk dt it : Option (BitVec 32)}
    (hv : s.Valid n (.inp ic wk dt it)) : ∃ s', s.step n (.inp ic wk dt it) = some s' ∧ Ok n mem s' := by
  have hph : s.ph.isSome = true := hv
  have := h.ph
  unfold PhOk at this
  cases hf : s.ph with
  | none => rw [hf] at hph; cases hph
  | some f =>
    rw [hf] at this
    obtain ⟨qs, h1, h2, h3, M, st, d', o, h4, h5, h6, h7, h8⟩ := this
    have hrv := route_valid h4 h5 h6 f.fill { lsu := fun i => s.ports[i.val]?, icache := ic, walk := wk, dtlb := dt, itlb := it } (by
      intro i q hq
      exact h1.small q (List.mem_of_getElem? hq))
    rw [← h8] at hrv
    have hrr := MemRoute.Reach.step h.route hrv
    obtain ⟨d2, hd2⟩ := answers_first h6 (lds
      (s.rt.step { ans := f.ans, fill := f.fill, req := { lsu := fun i => s.ports[i.val]?, icache := ic, walk := wk, dtlb := dt, itlb := it } }).1.ports
      (s.rt.step { ans := f.ans, fill := f.fill, req := { lsu := fun i => s.ports[i.val]?, icache := ic, walk := wk, dtlb := dt, itlb := it } }).1.probe) s.stores
    refine ⟨?w, ?h, ?g⟩
    case h => simp only [State.step, hf, hd2, Option.map_some]; rfl
    refine ⟨h.inv, hrr, ?_⟩
    unfold PhOk
    dsimp only
    refine ⟨rfl, rfl, s.ports, qs, fun i => rfl, h1, h2, ?_⟩
    have := Run.cycle _ _ f.resp f.ack h4 (by exact h5) hd2
    rw [← h7] at this
    rw [← h3]
    exact this

theorem ok_out {p n : Nat} {mem : BitVec 32 → Line} {s : State p} (hn : 0 < n) (hn2 : n ≤ 2 ^ 32) (h : Ok n mem s) {resp : Option Nat}
    {ack fill : Bool} (hv : s.Valid n (.out resp ack fill)) : ∃ s', s.step n (.out resp ack fill) = some s' ∧ Ok n mem s' ∧
      (∀ i, (s'.u.lsu.ldq i).st ≠ .waitDcacheResp) ∧ (∀ i, (s'.u.lsu.stq i).st ≠ .waitDcacheResp) := by
  obtain ⟨hph, hv⟩ := hv
  have := h.ph
  unfold PhOk at this
  rw [hph] at this
  obtain ⟨h1, h2, pl, qs, h3, h4, h5, h6⟩ := this
  cases hs : s.d.step (.tick true [] [] resp ack) with
  | none => exact absurd hs (Props.C57_no_assertion h6 hv)
  | some x =>
    obtain ⟨d', o⟩ := x
    obtain ⟨hla, hsa⟩ := (Props.C57_answers h6 hv hs).1 rfl
    have hrv := route_valid h6 hv hs fill { lsu := fun _ => none } (by intro i q hq; cases hq)
    let late : BitVec 32 → Bool := fun id => o.loads.any fun r => decide (r.req.id = id) && r.late
    let rs := (List.finRange (p + 1)).filterMap (MemRoute.combResponse s.rt.route (answers s.rt.ports o.loads) fill).2.lsu
    have hdue : Due (flat mem) late s.u s.who rs := by
      refine ⟨h4.wait, ?_, h4.inj, h4.all, ?_⟩
      · intro id i hid
        obtain ⟨q, hq, he, _⟩ := h4.has id i hid
        obtain ⟨j, hj⟩ := List.getElem?_of_mem hq
        have hjl : j < p + 1 := by
          obtain ⟨hh, _⟩ := List.getElem?_eq_some_iff.mp hj
          have := h4.len
          omega
        obtain ⟨r, hr1, hr2, _⟩ := (Props.C63_lsu h.route hrv ⟨j, hjl⟩).2 q (by rw [h3]; exact hj)
        exact ⟨r, List.mem_filterMap.mpr ⟨⟨j, hjl⟩, List.mem_finRange _, hr1⟩, by rw [hr2, he]⟩
      · intro r hr i hwho hhit hlate
        obtain ⟨j, _, hj⟩ := List.mem_filterMap.mp hr
        have h63 := Props.C63_lsu h.route hrv j
        cases hlast : s.rt.last.lsu j with
        | none =>
          have hnone : (MemRoute.combResponse s.rt.route (answers s.rt.ports o.loads) fill).2.lsu j = none := h63.1 hlast
          rw [hnone] at hj
          cases hj
        | some q =>
          obtain ⟨r', hr1, hr2, hr3⟩ := h63.2 q hlast
          have hr1' : (MemRoute.combResponse s.rt.route (answers s.rt.ports o.loads) fill).2.lsu j = some r' := hr1
          rw [hj] at hr1'
          injection hr1' with hr1'
          subst hr1'
          rcases hr3 with ⟨hp, ha⟩ | ⟨_, hcf⟩
          · have hap := answers_port hla j
            rw [hp] at hap
            obtain ⟨r0, m1, m2, m3⟩ := hap
            dsimp only at ha
            rw [m3] at ha
            injection ha with ha
            obtain ⟨q', hq', e1, e2⟩ := h4.has _ _ hwho
            have hqm : q ∈ pl := List.mem_of_getElem? (by rw [← h3 j]; exact hlast)
            have hqq : q' = q := eq_of_id h4.nodup hq' hqm (by rw [e1, hr2])
            subst hqq
            have hnl : r0.late = false := by
              have : ∀ x ∈ o.loads, ¬ (decide (x.req.id = r.id) && x.late) = true := List.any_eq_false.mp hlate
              have := this r0 m1
              cases hl : r0.late with
              | false => rfl
              | true =>
                rw [hl] at this
                exfalso
                apply this
                rw [← ha]
                simp [respOf]
            have hh0 : r0.replay = .hit := by rw [← hhit, ← ha]; rfl
            obtain ⟨k, hk⟩ := Props.C58_load_value_partial h6 hv hs m1 hh0 hnl
            have hdat : r.data = word (after s.u.mem (o.stores.take k)) (s.u.lsu.ldq i).paddr := by
              rw [← ha]
              show r0.data = _
              rw [hk, m2, ← e2]
              rfl
            rw [hdat]
            exact returns_pre hn hn2 h.inv hsa h5 (h4.wait _ _ hwho) k
          · rw [hcf] at hhit; cases hhit
    obtain ⟨g1, g2, g3⟩ := takeLoads rs s.u s.who h.inv hdue
    have hout : Out (rs.foldl (takeLoad late) (s.u, s.who)).1 qs :=
      ⟨h5.nodup, by rw [g2.pend]; exact h5.pend, by rw [g2.pend]; exact h5.all, by rw [g2.pend, g2.stq]; exact h5.wait⟩
    obtain ⟨k1, k2, k3, k4⟩ := takeStores hn hn2 o.stores qs _ g1 hsa hout
    have hnow : ∀ id i, (rs.foldl (takeLoad late) (s.u, s.who)).2 id = some i → False := by
      intro id i hid
      obtain ⟨r, hr, _⟩ := g3.has id i hid
      cases hr
    refine ⟨?w, ?h, ?g⟩
    case h => simp only [State.step, hs, Option.map_some]; rfl
    refine ⟨⟨k1, h.route, ?_⟩, ?_, ?_⟩
    · unfold PhOk
      dsimp only
      refine ⟨[], ?_, k4, by rw [h2]; rfl, s.u.mem, qs.map stOf, d', o, h6, hv, hs, ?_, rfl⟩
      · rw [h1]
        refine ⟨fun id i hid => (hnow id i hid).elim, fun id i hid => (hnow id i hid).elim, fun a _ i hid => (hnow a i hid).elim, ?_,
          List.nodup_nil, (fun _ h => by cases h), Nat.zero_le _⟩
        intro i hi
        have hi' : ((o.stores.foldl takeStore (rs.foldl (takeLoad late) (s.u, s.who)).1).lsu.ldq i).st = .waitDcacheResp := hi
        rw [k2.ldq] at hi'
        exact g3.all i hi'
      · show (o.stores.foldl takeStore (rs.foldl (takeLoad late) (s.u, s.who)).1).mem = _
        rw [k3, g2.mem]
    · intro i hi
      have hi' : ((o.stores.foldl takeStore (rs.foldl (takeLoad late) (s.u, s.who)).1).lsu.ldq i).st = .waitDcacheResp := hi
      rw [k2.ldq] at hi'
      obtain ⟨id, hid⟩ := g3.all i hi'
      exact hnow id i hid
    · intro i hi
      have hp := k4.wait i hi
      cases hpp : (o.stores.foldl takeStore (rs.foldl (takeLoad late) (s.u, s.who)).1).pend i with
      | none => exact hp hpp
      | some x => have := k4.all i x.1 x.2 hpp; cases this

theorem ok_step {p n : Nat} {mem : BitVec 32 → Line} {s : State p} (hn : 0 < n) (hn2 : n ≤ 2 ^ 32) (h : Ok n mem s) {e : Ev} (hv : s.Valid n e) :
    ∃ s', s.step n e = some s' ∧ Ok n mem s' := by
  cases e with
  | lsu e => exact ok_lsu hn h hv
  | ldIssue i id => exact ok_ldIssue hn h hv
  | stIssue j => exact ok_stIssue hn h hv
  | quiet e => exact ok_quiet h hv
  | out resp ack fill => obtain ⟨s', a, b, _⟩ := ok_out hn hn2 h hv; exact ⟨s', a, b⟩
  | inp ic wk dt it => exact ok_inp h hv

theorem ok_reach {p n : Nat} {mem : BitVec 32 → Line} {s : State p} (hn : 0 < n) (hn2 : n ≤ 2 ^ 32) (h : Reach p n mem s) : Ok n mem s := by
  induction h with
  | init => exact ok_init p n mem
  | step e _ hv hs ih =>
    obtain ⟨s', h1, h2⟩ := ok_step hn hn2 ih hv
    rw [hs] at h1
    injection h1 with h1
    subst h1
    exact h2

end Verif.MemTop

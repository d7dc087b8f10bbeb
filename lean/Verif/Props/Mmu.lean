import Verif.Proofs.MmuRank

/-! # C66–C69: address translation in the core

The two TLBs, the shared page-table walker and the block in front of the data cache (`Model/Mmu`), against the
manual's Sv32 (`Spec/Sv32`) and the reference model's `va2pa` (`Model/RefMmu`). -/
namespace Verif.Props
open Verif.Ptw (Client)
open Verif.Mmu
open Verif.Spec Verif.Spec.Sv32
open Verif.RefMmu (code)
open Verif.TlbSpec Verif.TlbLane Verif.PtwInv Verif.MmuInv Verif.MmuRank

/-- An answer agrees with a translation: it is the address, or a fault where there is none; or "not yet". -/
def Agrees (r : Tlb.Result) (t : Option (BitVec 32)) : Prop :=
  match r with
  | .retry => True
  | .ok pa => t = some pa
  | .fault => t = none

namespace MmuLemmas

theorem spec_res {mem : BitVec 32 → BitVec 32} {mstatus satp : BitVec 32} {priv : Nat} {v : BitVec 32} {acc : Access} {r : Tlb.Result}
    (hp : priv < 4) (he : effPriv mstatus priv acc ∈ [0, 1, 3])
    (h : ResOk mem (Tlb.Ctx.ofCsr mstatus satp priv) ⟨v, code acc⟩ r) :
    Agrees r ((specAccess (busView mem) mstatus satp priv v acc).map (BitVec.ofNat 32)) := by
  rw [spec_use mem mstatus satp priv v acc hp he]
  have hx : (if (Tlb.Ctx.ofCsr mstatus satp priv).eff (code acc) = 3 ∨ satp &&& 0x80000000#32 = 0#32 then some v
      else useLeaf (Tlb.Ctx.ofCsr mstatus satp priv) (code acc) v (leafB mem satp v)) =
      expected mem (Tlb.Ctx.ofCsr mstatus satp priv) ⟨v, code acc⟩ := rfl
  rw [hx]
  cases r with
  | retry => trivial
  | ok pa => exact h
  | fault => exact h

theorem dtlb_all {n : Nat} {k : Caps} (hk : ∀ c, 0 < k.of c) {s : Mmu.Sys n} (h : Mmu.Reach k s) (e : Mmu.Cyc n)
    {c : Tlb.Ctx} {qs : List (Option Tlb.Ask)} (hop : e.dop = .translate c qs) :
    AllOk s.mem (s.fresh .dtlb = true ∧ CohB s.mem (c.satp :: s.used .dtlb)) c qs (s.mid k e .dtlb).2 := by
  have hI := reach_inv hk h
  have hU : ∀ x ∈ s.used .dtlb, x ∈ c.satp :: s.used .dtlb := fun x hx => List.mem_cons_of_mem _ hx
  refine (dcycle_mi (hk .dtlb) ((hI.tp .dtlb).mono hU) (hI.repl .dtlb) (fun i x hx hF => (hI.tab .dtlb i x hx hF).mono hU) e.dop
    (fun c' qs' he => ?_)).2.1 c qs hop
  rw [hop] at he; injection he with he; rw [← he]; exact List.mem_cons_self

theorem itlb_all {n : Nat} {k : Caps} (hk : ∀ c, 0 < k.of c) {s : Mmu.Sys n} (h : Mmu.Reach k s) (e : Mmu.Cyc n)
    {c : Tlb.Ctx} {v : BitVec 32} (hc : e.iop.cancel = false) (hop : e.iop.ask = some (c, v)) :
    AllOk s.mem (s.fresh .itlb = true ∧ CohB s.mem (c.satp :: s.used .itlb)) c [some ⟨v, 0⟩] (s.mid k e .itlb).2 := by
  have hI := reach_inv hk h
  have hU : ∀ x ∈ s.used .itlb, x ∈ c.satp :: s.used .itlb := fun x hx => List.mem_cons_of_mem _ hx
  refine (icycle_mi (hk .itlb) ((hI.tp .itlb).mono hU) (hI.repl .itlb) (fun i x hx hF => (hI.tab .itlb i x hx hF).mono hU) e.iop
    (fun c' v' _ he => ?_)).2 c v hc hop
  rw [hop] at he; injection he with he; injection he with he; rw [← he]; exact List.mem_cons_self

end MmuLemmas

open MmuLemmas

/-! ## C66: the TLBs translate as the manual says -/

/-- **C66.** Data side.  Whatever has happened before - refills, evictions, cancelled walks, walks of the other TLB,
refused and repeated reads - every load or store that the data TLB answers gets the physical address or the page
fault that the manual prescribes for the page tables in memory, the current satp, mstatus and privilege; provided
memory has not changed since the last SFENCE.VMA and software keeps the rules for address-space identifiers. -/
theorem C66_dtlb {n : Nat} {k : Caps} (hk : ∀ c, 0 < k.of c) {s : Mmu.Sys n} (h : Mmu.Reach k s) (e : Mmu.Cyc n)
    {mstatus satp : BitVec 32} {priv : Nat} {qs : List (Option Tlb.Ask)} (hop : e.dop = .translate (.ofCsr mstatus satp priv) qs)
    (hfresh : s.fresh .dtlb = true) (hcoh : Coherent (busView s.mem) ((satp :: s.used .dtlb).map (·.toNat))) (hp : priv < 4)
    (i : Nat) (v : BitVec 32) (acc : Access) (hq : qs[i]? = some (some ⟨v, code acc⟩)) (he : effPriv mstatus priv acc ∈ [0, 1, 3]) :
    ∃ r, (s.mid k e .dtlb).2[i]? = some (some r) ∧
      Agrees r ((specAccess (busView s.mem) mstatus satp priv v acc).map (BitVec.ofNat 32)) := by
  obtain ⟨r, h1, h2⟩ := (dtlb_all hk h e hop).some_ i _ hq
  exact ⟨r, h1, spec_res hp he (h2 ⟨hfresh, coh_words hcoh⟩)⟩

/-- **C66.** Fetch side. -/
theorem C66_itlb {n : Nat} {k : Caps} (hk : ∀ c, 0 < k.of c) {s : Mmu.Sys n} (h : Mmu.Reach k s) (e : Mmu.Cyc n)
    {mstatus satp : BitVec 32} {priv : Nat} {v : BitVec 32} (hc : e.iop.cancel = false)
    (hop : e.iop.ask = some (.ofCsr mstatus satp priv, v))
    (hfresh : s.fresh .itlb = true) (hcoh : Coherent (busView s.mem) ((satp :: s.used .itlb).map (·.toNat))) (hp : priv ∈ [0, 1, 3]) :
    ∃ r, (s.mid k e .itlb).2 = [some r] ∧
      Agrees r ((specAccess (busView s.mem) mstatus satp priv v .fetch).map (BitVec.ofNat 32)) := by
  have hall := itlb_all hk h e hc hop
  obtain ⟨r, h1, h2⟩ := hall.some_ 0 ⟨v, code .fetch⟩ rfl
  refine ⟨r, ?_, ?_⟩
  · have hl := hall.len
    generalize (s.mid k e .itlb).2 = rs at h1 hl
    match rs, hl, h1 with
    | [x], _, h1 => simp at h1; rw [h1]
  · have hp4 : priv < 4 := by
      simp only [List.mem_cons, List.not_mem_nil, or_false] at hp
      omega
    refine spec_res hp4 ?_ (h2 ⟨hfresh, coh_words hcoh⟩)
    unfold effPriv
    rw [if_neg (by simp)]
    exact hp

/-- **C66.** A request without address is not answered, and the answers come in the order of the ports. -/
theorem C66_ports {n : Nat} {k : Caps} (hk : ∀ c, 0 < k.of c) {s : Mmu.Sys n} (h : Mmu.Reach k s) (e : Mmu.Cyc n)
    {c : Tlb.Ctx} {qs : List (Option Tlb.Ask)} (hop : e.dop = .translate c qs) :
    (s.mid k e .dtlb).2.length = qs.length ∧ ∀ i : Nat, ((s.mid k e .dtlb).2[i]? = some none ↔ qs[i]? = some none) := by
  have hall := dtlb_all hk h e hop
  refine ⟨hall.len, fun i => ⟨fun hr => ?_, hall.none_ i⟩⟩
  cases hq : qs[i]? with
  | none =>
    have : (s.mid k e .dtlb).2[i]? = none := by
      rw [List.getElem?_eq_none_iff] at hq ⊢
      rw [hall.len]; exact hq
    rw [this] at hr; cases hr
  | some q =>
    cases q with
    | none => rfl
    | some q =>
      obtain ⟨r, h1, _⟩ := hall.some_ i q hq
      rw [h1] at hr; cases hr

/-! ## C67: the core and the reference model translate alike -/

/-- **C67.** Data side: the answers of the data TLB are those of the reference model in the same machine state. -/
theorem C67_data {n : Nat} {k : Caps} (hk : ∀ c, 0 < k.of c) {s : Mmu.Sys n} (h : Mmu.Reach k s) (e : Mmu.Cyc n)
    (ref : RefMem.State) (hmem : s.mem = RefMem.loadWord ref) (x : RefMmu.Ctx)
    {qs : List (Option Tlb.Ask)} (hop : e.dop = .translate (.ofCsr x.mstatus x.satp x.priv) qs)
    (hfresh : s.fresh .dtlb = true) (hcoh : Coherent (busView s.mem) ((x.satp :: s.used .dtlb).map (·.toNat))) (hp : x.priv < 4)
    (i : Nat) (v : BitVec 32) (acc : Access) (hacc : acc ≠ .fetch) (hq : qs[i]? = some (some ⟨v, code acc⟩))
    (he : effPriv x.mstatus x.priv acc ∈ [0, 1, 3]) :
    ∃ r, (s.mid k e .dtlb).2[i]? = some (some r) ∧ Agrees r (RefMmu.translate ref x v (code acc)) := by
  obtain ⟨r, h1, h2⟩ := C66_dtlb hk h e hop hfresh hcoh hp i v acc hq he
  refine ⟨r, h1, ?_⟩
  rw [C31_translate_partial ref x v acc he (fun hx => hacc hx.1), ← hmem]
  exact h2

/-- **C67.** Fetch side; the exception is the reference model's treatment of user 4 MiB pages (the C31 finding). -/
theorem C67_fetch_partial {n : Nat} {k : Caps} (hk : ∀ c, 0 < k.of c) {s : Mmu.Sys n} (h : Mmu.Reach k s) (e : Mmu.Cyc n)
    (ref : RefMem.State) (hmem : s.mem = RefMem.loadWord ref) (x : RefMmu.Ctx) {v : BitVec 32} (hc : e.iop.cancel = false)
    (hop : e.iop.ask = some (.ofCsr x.mstatus x.satp x.priv, v))
    (hfresh : s.fresh .itlb = true) (hcoh : Coherent (busView s.mem) ((x.satp :: s.used .itlb).map (·.toNat))) (hp : x.priv ∈ [0, 1, 3])
    (hx : ¬ SuperUserFetch (RefMem.loadWord ref) x.satp v .fetch
      (if effPriv x.mstatus x.priv .fetch = 0 then .user else .supervisor) (x.mstatus.getLsbD 18)) :
    ∃ r, (s.mid k e .itlb).2 = [some r] ∧ Agrees r (RefMmu.translate ref x v (code .fetch)) := by
  obtain ⟨r, h1, h2⟩ := C66_itlb hk h e hc hop hfresh hcoh hp
  refine ⟨r, h1, ?_⟩
  have he : effPriv x.mstatus x.priv .fetch ∈ [0, 1, 3] := by
    unfold effPriv; rw [if_neg (by simp)]; exact hp
  rw [C31_translate_partial ref x v .fetch he hx, ← hmem]
  exact h2

/-! ## C68: the walk protocol -/

/-- **C68.** The assertion of the TLB (a request is sent only to a free port, once per cycle) never fails. -/
theorem C68_no_abort {n : Nat} {k : Caps} (hk : ∀ c, 0 < k.of c) {s : Mmu.Sys n} (h : Mmu.Reach k s) (e : Mmu.Cyc n) (c : Client) :
    (s.mid k e c).1.bad = false :=
  (mid_mi hk (reach_inv hk h) e c).bad

/-- Exactly one of three. -/
def OneOf (a b c : Prop) : Prop := (a ∧ ¬ b ∧ ¬ c) ∨ (¬ a ∧ b ∧ ¬ c) ∨ (¬ a ∧ ¬ b ∧ c)

/-- **C68.** A TLB that waits for a walk has its own request - address and satp - in exactly one place: waiting for
the walker, being walked, or answered; an answer carries the address asked for. -/
theorem C68_request {n : Nat} {k : Caps} (hk : ∀ c, 0 < k.of c) {s : Mmu.Sys n} (h : Mmu.Reach k s) (c : Client) {w : Tlb.Walk}
    (hw : (s.tlb c).walk = some w) (hs : w.sent = true) :
    (s.ptw.port c).req = ⟨w.vaddr, w.satp⟩ ∧
    OneOf ((s.ptw.port c).pending = true) ((s.ptw.port c).inflight = true) (∃ r, (s.ptw.port c).resp = some r ∧ r.vaddr = w.vaddr) := by
  obtain ⟨a, b⟩ := ((reach_inv hk h).tp c).sent w hw hs
  refine ⟨a, ?_⟩
  unfold OneOf
  rcases b with ⟨b1, b2, b3⟩ | ⟨b1, b2, b3⟩ | ⟨b1, b2, r, b3, b4, _⟩
  · exact .inl ⟨b1, by rw [b2]; decide, fun ⟨r, hr, _⟩ => by rw [b3] at hr; cases hr⟩
  · exact .inr (.inl ⟨by rw [b1]; decide, b2, fun ⟨r, hr, _⟩ => by rw [b3] at hr; cases hr⟩)
  · exact .inr (.inr ⟨by rw [b1]; decide, by rw [b2]; decide, r, b3, b4⟩)

/-- **C68.** A TLB that waits for nothing has no request and no answer at the walker: no answer meant for an abandoned
request can be taken for a later one. -/
theorem C68_nothing_left {n : Nat} {k : Caps} (hk : ∀ c, 0 < k.of c) {s : Mmu.Sys n} (h : Mmu.Reach k s) (c : Client)
    (hw : ∀ w, (s.tlb c).walk = some w → w.sent = false) :
    (s.ptw.port c).pending = false ∧ (s.ptw.port c).inflight = false ∧ (s.ptw.port c).resp = none :=
  ((reach_inv hk h).tp c).idle hw

/-- **C68.** A walk does not wait in vain: if the walker is waiting for data, its read is before the cache right now,
under the right address, or it will be told to repeat the read by the next line fill. -/
theorem C68_read_outstanding {n : Nat} {k : Caps} (hk : ∀ c, 0 < k.of c) {s : Mmu.Sys n} (h : Mmu.Reach k s)
    (hw : s.ptw.phase = .wait1 ∨ s.ptw.phase = .wait2) :
    (s.rt.route.owner = .walk ∧ s.ptw.reqId = some s.rt.route.id ∧
      s.rt.ports (Fin.last n) = some { addr := cur s.ptw, id := s.rt.route.id }) ∨
    s.rt.route.wait.walk = true := by
  have hI := reach_inv hk h
  have hr := hI.pi.rid.mpr hw
  rcases (covered_reach hI.rt).1 (hI.open_ hr) with ho | ho
  · left
    cases hq : s.ptw.reqId with
    | none => rw [hq] at hr; cases hr
    | some id =>
      obtain ⟨h1, h2⟩ := hI.link ho id hq
      have hown := (RouteLemmas.reach_inv (RouteLemmas.reachW hI.rt)).own (by rw [ho]; decide)
      exact ⟨ho, by rw [h1], by rw [hown.1, h2]⟩
  · exact .inr ho

/-! ## C69: bounded waiting -/

/-- A run of cycles. -/
def runC {n : Nat} (k : Caps) (s : Mmu.Sys n) : List (Mmu.Cyc n) → Mmu.Sys n
  | [] => s
  | e :: es => runC k (s.cycle k e) es

/-- `P` holds of every cycle of a run. -/
def Along {n : Nat} (k : Caps) (P : Mmu.Sys n → Mmu.Cyc n → Prop) : Mmu.Sys n → List (Mmu.Cyc n) → Prop
  | _, [] => True
  | s, e :: es => s.Valid k (.cycle e) ∧ P s e ∧ Along k P (s.cycle k e) es

/-- The data cache delivers: the walker is not told to repeat a read, and if it waits for a read, the data arrives. -/
def Delivers {n : Nat} (k : Caps) (s : Mmu.Sys n) (e : Mmu.Cyc n) : Prop :=
  (s.rt.step (s.rcyc k e)).2.1.wake.walk = false ∧
  (s.ptw.reqId.isSome = true → dataOf (s.rt.step (s.rcyc k e)).2.1.event ≠ none)

/-- The TLB does not give up its request. -/
def Keeps {n : Nat} (k : Caps) (c : Client) (s : Mmu.Sys n) (e : Mmu.Cyc n) : Prop := (s.calls k e c).flush = false

namespace MmuLemmas

theorem along_reach {n : Nat} {k : Caps} {P : Mmu.Sys n → Mmu.Cyc n → Prop} :
    ∀ (es : List (Mmu.Cyc n)) (s : Mmu.Sys n), Mmu.Reach k s → Along k P s es → Mmu.Reach k (runC k s es)
  | [], _, h, _ => h
  | e :: es, _, h, ha => along_reach es _ (.step (e := .cycle e) h ha.1) ha.2.2

theorem bound {n : Nat} {k : Caps} (hk : ∀ c, 0 < k.of c) (c : Client) :
    ∀ (es : List (Mmu.Cyc n)) (s : Mmu.Sys n), Mmu.Reach k s → Along k (fun s e => Keeps k c s e ∧ Delivers k s e) s es →
      rank s.ptw s.rt.route.owner c ≤ es.length →
      ∃ pre, pre <+: es ∧ ((runC k s pre).ptw.port c).pending = false ∧ ((runC k s pre).ptw.port c).inflight = false := by
  intro es
  induction es with
  | nil =>
    intro s h _ hl
    refine ⟨[], List.prefix_refl _, ?_⟩
    have hI := reach_inv hk h
    have hl : rank s.ptw s.rt.route.owner c = 0 := Nat.le_zero.mp hl
    unfold rank at hl
    have hgo := g_le s.rt.route.owner
    show (s.ptw.port c).pending = false ∧ (s.ptw.port c).inflight = false
    split at hl
    · rename_i hi
      have hph := hI.pi.act.mp ((hI.pi.infl c).mp hi).1
      exfalso
      unfold wr at hl
      cases hp : s.ptw.phase <;> rw [hp] at hl <;> dsimp only at hl <;> first | omega | exact hph hp
    · rename_i hi
      split at hl
      · exfalso
        split at hl
        · omega
        · split at hl <;> omega
      · rename_i hp
        exact ⟨by simpa using hp, by simpa using hi⟩
  | cons e es ih =>
    intro s h ha hl
    by_cases hw : (s.ptw.port c).pending = true ∨ (s.ptw.port c).inflight = true
    · obtain ⟨hv, ⟨h1, h2⟩, h3⟩ := ha
      have hns : ¬ Stalled k s e := by
        rintro (hx | ⟨hx, hy⟩)
        · rw [h2.1] at hx; cases hx
        · exact h2.2 hx hy
      have := rank_step hk h hv h1 hns hw
      obtain ⟨pre, hp, hq⟩ := ih (s.cycle k e) (.step (e := .cycle e) h hv) h3 (by simp only [List.length_cons] at hl; omega)
      exact ⟨e :: pre, by rw [List.cons_prefix_cons]; exact ⟨rfl, hp⟩, hq⟩
    · have hw := not_or.mp hw
      exact ⟨[], List.nil_prefix, Bool.eq_false_iff.mpr hw.1, Bool.eq_false_iff.mpr hw.2⟩

end MmuLemmas

/-- **C69.** A request to the shared walker is answered within fifteen cycles, whatever the other TLB, the
instruction cache and the load/store unit do meanwhile, as long as the data cache delivers the page-table entries. -/
theorem C69_bound {n : Nat} {k : Caps} (hk : ∀ c, 0 < k.of c) {s : Mmu.Sys n} (h : Mmu.Reach k s) (c : Client)
    {es : List (Mmu.Cyc n)} (ha : Along k (fun s e => Keeps k c s e ∧ Delivers k s e) s es) (hl : 15 ≤ es.length) :
    ∃ pre, pre <+: es ∧ ((runC k s pre).ptw.port c).pending = false ∧ ((runC k s pre).ptw.port c).inflight = false :=
  bound hk c es s h ha (Nat.le_trans (rank_le _ _ _) hl)

/-- The data cache hits on the walker's reads. -/
def Hits {n : Nat} (s : Mmu.Sys n) (e : Mmu.Cyc n) : Prop :=
  s.rt.route.owner = .walk → ∀ r, e.ans (Fin.last n) = some r → r.replay = .hit

namespace MmuLemmas

theorem hits_deliver {n : Nat} {k : Caps} (hk : ∀ c, 0 < k.of c) {s : Mmu.Sys n} (h : Mmu.Reach k s) {e : Mmu.Cyc n}
    (hv : s.Valid k (.cycle e)) (hh : Hits s e) (hw : s.rt.route.wait.walk = false) :
    Delivers k s e ∧ (s.cycle k e).rt.route.wait.walk = false := by
  have hI := reach_inv hk h
  have hRI := RouteLemmas.reach_inv (RouteLemmas.reachW hI.rt)
  have hown := (covered_reach hI.rt).2
  have hoa := RouteLemmas.own_answer hRI hv.1
  have hans : (s.rcyc k e).ans = e.ans := rfl
  have hrep : ∀ r, MemRoute.ownAnswer s.rt.route (s.rcyc k e).ans = some r →
      (s.rt.route.owner = .walk → r.replay = .hit) ∧ (r.replay = .hit ∨ r.replay = .conflict) := by
    intro r hr
    rw [hoa] at hr
    split at hr
    · cases hr
    · rename_i hno
      have h1 : s.rt.route.owner = .walk → r.replay = .hit := fun ho => hh ho r (by rw [← hans]; exact hr)
      refine ⟨h1, ?_⟩
      rcases hown with ho | ho | ho
      · exact absurd ho hno
      · exact hv.1.probe (Fin.last n) (by rw [hRI.probe, if_pos ho]) r hr
      · exact .inl (h1 ho)
  refine ⟨⟨?_, fun hr => ?_⟩, ?_⟩
  · show (MemRoute.combResponse s.rt.route (s.rcyc k e).ans (s.rcyc k e).fill).2.wake.walk = false
    rw [RouteLemmas.cr_wake, hw, Bool.and_false, Bool.or_false]
    cases hx : MemRoute.ownAnswer s.rt.route (s.rcyc k e).ans with
    | none => rfl
    | some r =>
      dsimp only
      by_cases ho : s.rt.route.owner = .walk
      · rw [(hrep r hx).1 ho]; simp
      · simp [ho]
  · have hp := hI.pi.rid.mp hr
    rcases C68_read_outstanding hk h hp with ⟨ho, _⟩ | hx
    · obtain ⟨r, h1, h2⟩ := RouteLemmas.own_some hRI hv.1 (by rw [ho]; decide)
      show dataOf (MemRoute.combResponse s.rt.route (s.rcyc k e).ans (s.rcyc k e).fill).2.event ≠ none
      rw [RouteLemmas.cr_event, h2]
      dsimp only
      rw [(hrep r h2).1 ho, ho, if_pos (by decide)]
      unfold dataOf
      simp
    · rw [hw] at hx; cases hx
  · show (MemRoute.combRequest (MemRoute.combResponse s.rt.route (s.rcyc k e).ans (s.rcyc k e).fill).1 (s.rcyc k e).req).1.wait.walk = false
    have : ∀ (r : MemRoute.State) (q : MemRoute.ReqIn n), (MemRoute.combRequest r q).1.wait = r.wait := by
      intro r q; unfold MemRoute.combRequest; dsimp only; split <;> rfl
    rw [this, RouteLemmas.cr_wait, hw]
    cases hx : MemRoute.ownAnswer s.rt.route (s.rcyc k e).ans with
    | none => simp
    | some r => dsimp only; rw [if_pos (hrep r hx).2]; simp

theorem along_deliver {n : Nat} {k : Caps} (hk : ∀ c, 0 < k.of c) {P : Mmu.Sys n → Mmu.Cyc n → Prop} :
    ∀ (es : List (Mmu.Cyc n)) (s : Mmu.Sys n), Mmu.Reach k s → s.rt.route.wait.walk = false → Along k (fun s e => P s e ∧ Hits s e) s es →
      Along k (fun s e => P s e ∧ Delivers k s e) s es
  | [], _, _, _, _ => trivial
  | e :: es, s, h, hw, ⟨hv, ⟨h1, h2⟩, h3⟩ => by
    obtain ⟨d1, d2⟩ := hits_deliver hk h hv h2 hw
    exact ⟨hv, ⟨h1, d1⟩, along_deliver hk es _ (.step (e := .cycle e) h hv) d2 h3⟩

/-! The instruction TLB's register of the walk while it is asked for the same address again and again. -/

/-- The walk is for this request. -/
def Mine (c : Tlb.Ctx) (v : BitVec 32) (w : Option Tlb.Walk) : Prop :=
  ∃ x, w = some x ∧ x.sent = true ∧ x.vaddr >>> 12 = v >>> 12 ∧ x.satp = c.satp

theorem lane_retry {mem : BitVec 32 → BitVec 32} {F : Prop} {U : List (BitVec 32)} {cap repl : Nat} {c : Tlb.Ctx} {v : BitVec 32}
    {look : Option Tlb.Entry} {w : Option Tlb.Walk} {p : Ptw.Port} (ht : TP mem F U w p)
    (hw : w = none ∨ Mine c v w)
    (hr : (Tlb.lane cap repl c ⟨v, 0⟩ look w none (viewOf p)).result = .retry) :
    Mine c v (Tlb.lane cap repl c ⟨v, 0⟩ look w none (viewOf p)).walk ∧ (Mine c v w → p.resp = none) := by
  unfold Tlb.lane at hr ⊢
  split at hr
  · cases hr
  · rename_i hoff
    rw [if_neg hoff]
    generalize Tlb.hitOf none look v (Tlb.asidOf c.satp) = hit at hr ⊢
    cases hit with
    | some e => dsimp only at hr; split at hr <;> cases hr
    | none =>
      dsimp only at hr ⊢
      rcases hw with hw | ⟨x, hx, hs, hp, hsat⟩
      · subst hw
        have hI := ht.idle (fun x hx => by cases hx)
        have hrd : (viewOf p).ready = true := by unfold viewOf; dsimp only; rw [hI.1, hI.2.1]; rfl
        have how : Tlb.ownWalk none c ⟨v, 0⟩ = some { sent := false, vaddr := v, type := 0, satp := c.satp, eff := c.eff 0, mxr := c.mxr, sum := c.sum } := rfl
        rw [how] at hr ⊢
        dsimp only at hr ⊢
        rw [hrd] at hr ⊢
        refine ⟨⟨_, rfl, rfl, rfl, rfl⟩, fun ⟨x, hx, _⟩ => by cases hx⟩
      · subst hx
        have how : Tlb.ownWalk (some x) c ⟨v, 0⟩ = some x := by
          unfold Tlb.ownWalk
          dsimp only
          rw [if_neg (by rw [hp, hsat]; simp)]
        rw [how] at hr ⊢
        dsimp only at hr ⊢
        rw [hs] at hr ⊢
        rw [if_neg (by decide)] at hr ⊢
        cases hpr : (viewOf p).resp with
        | none => exact ⟨⟨x, rfl, hs, hp, hsat⟩, fun _ => hpr⟩
        | some r =>
          exfalso
          rw [hpr] at hr
          dsimp only at hr
          have hrv : r.vaddr = x.vaddr := by
            rcases (ht.sent x rfl hs).2 with a | a | ⟨_, _, r', a, b, _⟩
            · rw [show (viewOf p).resp = p.resp from rfl, a.2.2] at hpr; cases hpr
            · rw [show (viewOf p).resp = p.resp from rfl, a.2.2] at hpr; cases hpr
            · rw [show (viewOf p).resp = p.resp from rfl, a] at hpr; injection hpr with hpr; rw [← hpr]; exact b
          rw [if_neg (by rw [hrv]; exact fun h => h rfl)] at hr
          unfold Tlb.finishWalk at hr
          split at hr
          · cases hr
          · split at hr <;> cases hr

/-- A request and nothing else. -/
def Asks {n : Nat} (c : Tlb.Ctx) (v : BitVec 32) (_ : Mmu.Sys n) (e : Mmu.Cyc n) : Prop :=
  e.iop = { ask := some (c, v) }

theorem itlb_step {n : Nat} {k : Caps} (hk : ∀ c, 0 < k.of c) {s : Mmu.Sys n} (h : Mmu.Reach k s) {e : Mmu.Cyc n}
    {c : Tlb.Ctx} {v : BitVec 32} (ha : e.iop = { ask := some (c, v) })
    (hw : s.itlb.walk = none ∨ Mine c v s.itlb.walk) (hr : (s.mid k e .itlb).2 = [some .retry]) :
    Mine c v (s.cycle k e).itlb.walk ∧ (Mine c v s.itlb.walk → (s.ptw.port .itlb).resp = none) ∧ Keeps k .itlb s e := by
  have hI := reach_inv hk h
  have hmid : s.mid k e .itlb = (s.itlb.start (viewOf (s.ptw.port .itlb))).translate k.i c [some ⟨v, 0⟩] := by
    show Tlb.itlbCycle k.i (s.itlb.start (viewOf (s.ptw.port .itlb))) e.iop = _
    rw [ha]; rfl
  have hl : (s.itlb.start (viewOf (s.ptw.port .itlb))).walk = s.itlb.walk := rfl
  have hres : (s.mid k e .itlb).2 = [some (Tlb.lane k.i s.itlb.repl c ⟨v, 0⟩ (Tlb.lookup k.i s.itlb.tab v (Tlb.asidOf c.satp))
      s.itlb.walk none (viewOf (s.ptw.port .itlb))).result] := by rw [hmid]; rfl
  rw [hres] at hr
  have hr : (Tlb.lane k.i s.itlb.repl c ⟨v, 0⟩ (Tlb.lookup k.i s.itlb.tab v (Tlb.asidOf c.satp))
      s.itlb.walk none (viewOf (s.ptw.port .itlb))).result = .retry := by
    injection hr with hr; injection hr
  obtain ⟨h1, h2⟩ := lane_retry (hI.tp .itlb) hw hr
  have hwalk : (s.mid k e .itlb).1.walk = (Tlb.lane k.i s.itlb.repl c ⟨v, 0⟩ (Tlb.lookup k.i s.itlb.tab v (Tlb.asidOf c.satp))
      s.itlb.walk none (viewOf (s.ptw.port .itlb))).walk := by rw [hmid]; rfl
  have hsame : ∀ (m : Tlb.Mid) (l : Tlb.Loop), (m.applyTop l).flushed = m.flushed ∧ (m.applyTop l).calls.flush = m.calls.flush := by
    intro m l
    unfold Tlb.Mid.applyTop
    have hsend : ∀ r, (m.send r).flushed = m.flushed ∧ (m.send r).calls.flush = m.calls.flush := by
      intro r; unfold Tlb.Mid.send; split <;> exact ⟨rfl, rfl⟩
    cases l.req with
    | none => cases l.consumed <;> exact ⟨rfl, rfl⟩
    | some r => cases l.consumed <;> exact hsend r
  have hfl : (s.mid k e .itlb).1.flushed = false := by rw [hmid]; exact (hsame _ _).1
  have hkp : Keeps k .itlb s e := by
    show (s.mid k e .itlb).1.calls.flush = false
    rw [hmid]; exact (hsame _ _).2
  refine ⟨?_, h2, hkp⟩
  show Mine c v ((s.mid k e .itlb).1.seq (k.of .itlb)).walk
  rw [((seq_ok (hk .itlb) (mid_mi hk hI e .itlb)).2.2 hfl).1, hwalk]
  exact h1

end MmuLemmas

/-- Not answered yet in this cycle. -/
def Unanswered {n : Nat} (k : Caps) (s : Mmu.Sys n) (e : Mmu.Cyc n) : Prop := (s.mid k e .itlb).2 = [some .retry]

namespace MmuLemmas

/-- As long as there is no answer, the walk goes on. -/
theorem unanswered_mine {n : Nat} {k : Caps} (hk : ∀ c, 0 < k.of c) {c : Tlb.Ctx} {v : BitVec 32} :
    ∀ (es : List (Mmu.Cyc n)) (s : Mmu.Sys n), Mmu.Reach k s → Mine c v s.itlb.walk →
      Along k (fun s e => (Asks c v s e ∧ Unanswered k s e) ∧ Delivers k s e) s es →
      Along k (fun s e => Keeps k .itlb s e ∧ Delivers k s e) s es ∧
      (∀ pre, pre <+: es → pre.length < es.length → ((runC k s pre).ptw.port .itlb).resp = none) ∧
      (∀ pre, pre <+: es → Mine c v (runC k s pre).itlb.walk)
  | [], _, _, hm, _ => ⟨trivial, (fun pre hp hl => by
      have : pre = [] := List.prefix_nil.mp hp
      subst this; exact absurd hl (Nat.lt_irrefl _)), (fun pre hp => by
      have : pre = [] := List.prefix_nil.mp hp
      subst this; exact hm)⟩
  | e :: es, s, h, hm, ⟨hv, ⟨⟨h1, h2⟩, h3⟩, h4⟩ => by
    obtain ⟨a1, a2, a3⟩ := itlb_step hk h h1 (.inr hm) h2
    obtain ⟨b1, b2, b3⟩ := unanswered_mine hk es (s.cycle k e) (.step (e := .cycle e) h hv) a1 h4
    refine ⟨⟨hv, ⟨a3, h3⟩, b1⟩, fun pre hp hl => ?_, fun pre hp => ?_⟩
    · cases pre with
      | nil => exact a2 hm
      | cons x pre =>
        rw [List.cons_prefix_cons] at hp
        obtain ⟨rfl, hp⟩ := hp
        exact b2 pre hp (by simp only [List.length_cons] at hl; omega)
    · cases pre with
      | nil => exact hm
      | cons x pre =>
        rw [List.cons_prefix_cons] at hp
        obtain ⟨rfl, hp⟩ := hp
        exact b3 pre hp

end MmuLemmas

/-- **C69.** A fetch that keeps asking for its translation is answered - with an address or a fault - in at most
seventeen cycles if the data cache hits on the page-table entries, whatever else is going on in the core:
it cannot be that seventeen cycles in a row all end without an answer. -/
theorem C69_fetch {n : Nat} {k : Caps} (hk : ∀ c, 0 < k.of c) {s : Mmu.Sys n} (h : Mmu.Reach k s) {c : Tlb.Ctx} {v : BitVec 32}
    (hw : s.itlb.walk = none) (hwait : s.rt.route.wait.walk = false) {es : List (Mmu.Cyc n)} (hl : 17 ≤ es.length)
    (ha : Along k (fun s e => Asks c v s e ∧ Hits s e) s es) :
    ¬ Along k (fun s e => Asks c v s e ∧ Unanswered k s e) s es := by
  intro hu
  have hboth : Along k (fun s e => (Asks c v s e ∧ Unanswered k s e) ∧ Hits s e) s es := by
    clear hl hwait hw h
    induction es generalizing s with
    | nil => trivial
    | cons e es ih => exact ⟨ha.1, ⟨hu.2.1, ha.2.1.2⟩, ih ha.2.2 hu.2.2⟩
  have hd := along_deliver hk es s h hwait hboth
  match es, hl, hd with
  | e :: es, hl, ⟨hv, ⟨⟨h1, h2⟩, h3⟩, h4⟩ =>
    obtain ⟨a1, _, _⟩ := itlb_step hk h h1 (.inl hw) h2
    have hr1 : Mmu.Reach k (s.cycle k e) := .step (e := .cycle e) h hv
    obtain ⟨b1, b2, b3⟩ := unanswered_mine hk es (s.cycle k e) hr1 a1 h4
    -- fifteen of the remaining sixteen cycles
    have hlen : 16 ≤ es.length := by simp only [List.length_cons] at hl; omega
    have htake : Along k (fun s e => Keeps k .itlb s e ∧ Delivers k s e) (s.cycle k e) (es.take 15) := by
      generalize s.cycle k e = t at b1
      clear hlen h4 a1 b2 b3 hl hr1 hboth ha hu hd
      generalize 15 = m
      induction es generalizing t m with
      | nil => cases m <;> trivial
      | cons x es ih =>
        cases m with
        | zero => trivial
        | succ m => exact ⟨b1.1, b1.2.1, ih _ b1.2.2 m⟩
    obtain ⟨pre, hp, hq1, hq2⟩ := C69_bound hk hr1 .itlb htake (by rw [List.length_take]; omega)
    have hp' : pre <+: es := hp.trans (List.take_prefix _ _)
    have hpl : pre.length < es.length := by
      have := hp.length_le
      rw [List.length_take] at this
      omega
    obtain ⟨x, hx, hs, _, _⟩ := b3 pre hp'
    have hreach : Mmu.Reach k (runC k (s.cycle k e) pre) := by
      obtain ⟨suf, hsuf⟩ := hp'
      subst hsuf
      have : ∀ (pre suf : List (Mmu.Cyc n)) (t : Mmu.Sys n) (P : Mmu.Sys n → Mmu.Cyc n → Prop), Along k P t (pre ++ suf) → Along k P t pre := by
        intro pre
        induction pre with
        | nil => intros; trivial
        | cons y pre ih => intro suf t P hA; exact ⟨hA.1, hA.2.1, ih suf _ P hA.2.2⟩
      exact along_reach pre _ hr1 (this pre suf _ _ b1)
    rcases ((reach_inv hk hreach).tp .itlb).sent x hx hs |>.2 with c | c | ⟨_, _, r, c, _⟩
    · rw [hq1] at c; cases c.1
    · rw [hq2] at c; cases c.2.1
    · rw [b2 pre hp' hpl] at c; cases c

/-- **C69.** The two TLBs take turns: a walk of one is followed by the waiting request of the other. -/
theorem C69_turns {n : Nat} {k : Caps} (hk : ∀ c, 0 < k.of c) {s : Mmu.Sys n} (h : Mmu.Reach k s) (c : Client)
    (ha : s.ptw.active = true) (ho : s.ptw.owner = c.other) :
    s.ptw.rr = c := by
  rw [rr_reach hk h ha, ho]
  cases c <;> rfl

/-! ## A run

A machine in supervisor mode whose page table has a 4 KiB data page at 0xC0001000 and a 4 MiB code page at
0x80000000; the data cache answers every read with the word in memory. -/
namespace TlbRun

def mem0 (a : BitVec 32) : BitVec 32 :=
  if a = 0x80400C00#32 then 0x20100401#32          -- to the table at 0x80401000
  else if a = 0x80401004#32 then 0x200014C7#32     -- 4 KiB page, R W A D
  else if a = 0x80400800#32 then 0x2000004B#32     -- 4 MiB page, R X A
  else 0#32

/-- The same with the data page moved. -/
def mem1 (a : BitVec 32) : BitVec 32 := if a = 0x80401004#32 then 0x200018C7#32 else mem0 a

def sat : BitVec 32 := 0x80080400#32
def ctx : Tlb.Ctx := .ofCsr 0#32 sat 1
def caps : Caps := ⟨2, 2⟩

theorem caps_pos : ∀ c, 0 < caps.of c := fun c => by cases c <;> decide

/-- A load from the data page, a store to a page that is not there, and a fetch, all at once. -/
def ask : Tlb.DOp × Tlb.IOp :=
  (.translate ctx [some ⟨0xC0001234#32, 1⟩, some ⟨0xC0002000#32, 2⟩], { ask := some (ctx, 0x80001000#32) })

def load : Tlb.DOp × Tlb.IOp := (.translate ctx [some ⟨0xC0001234#32, 1⟩], {})
def fence : Tlb.DOp × Tlb.IOp := (.fence, { flush := true })

/-- The cache answers from memory. -/
def drive (s : Mmu.Sys 1) (op : Tlb.DOp × Tlb.IOp) : Mmu.Cyc 1 :=
  { ans := fun i => (s.rt.ports i).map fun q => ⟨q.id, s.mem q.addr, .hit⟩
    fill := false
    lsu := fun _ => none
    icache := none
    dop := op.1
    iop := op.2 }

def driven (s : Mmu.Sys 1) : List (Tlb.DOp × Tlb.IOp) → List (Mmu.Cyc 1)
  | [] => []
  | op :: ops => drive s op :: driven (s.cycle caps (drive s op)) ops

theorem drive_valid {s : Mmu.Sys 1} (h : Mmu.Reach caps s) (op : Tlb.DOp × Tlb.IOp) : s.Valid caps (.cycle (drive s op)) := by
  have hRI := RouteLemmas.reach_inv (RouteLemmas.reachW (reach_inv caps_pos h).rt)
  refine ⟨⟨fun i => ?_, fun i _ r hr => ?_, fun i q hq => by cases hq⟩, fun r hr _ _ ho => ?_⟩
  · show ((s.rt.ports i).map _).map _ = _
    rw [Option.map_map]; rfl
  · left
    have hr : (s.rt.ports i).map (fun q => (⟨q.id, s.mem q.addr, .hit⟩ : MemRoute.Resp)) = some r := hr
    obtain ⟨q, _, hq⟩ := Option.map_eq_some_iff.mp hr
    rw [← hq]
  · have hr : (s.rt.ports (Fin.last 1)).map (fun q => (⟨q.id, s.mem q.addr, .hit⟩ : MemRoute.Resp)) = some r := hr
    rw [(hRI.own (by rw [ho]; decide)).1] at hr
    injection hr with hr
    rw [← hr]

theorem drive_along : ∀ (ops : List (Tlb.DOp × Tlb.IOp)) (s : Mmu.Sys 1), Mmu.Reach caps s →
    Along caps (fun s e => ∃ op, e = drive s op) s (driven s ops)
  | [], _, _ => trivial
  | op :: ops, _, h => ⟨drive_valid h op, ⟨op, rfl⟩, drive_along ops _ (.step (e := .cycle _) h (drive_valid h op))⟩

def s0 : Mmu.Sys 1 := { mem := mem0 }

/-- The state after some cycles. -/
def after (s : Mmu.Sys 1) (ops : List (Tlb.DOp × Tlb.IOp)) : Mmu.Sys 1 := runC caps s (driven s ops)

theorem after_reach {s : Mmu.Sys 1} (h : Mmu.Reach caps s) (ops : List (Tlb.DOp × Tlb.IOp)) : Mmu.Reach caps (after s ops) :=
  along_reach _ _ h (drive_along ops s h)

/-- What the TLBs answer in the cycle that follows. -/
def says (s : Mmu.Sys 1) (op : Tlb.DOp × Tlb.IOp) : List (Option Tlb.Result) × List (Option Tlb.Result) :=
  ((s.mid caps (drive s op) .dtlb).2, (s.mid caps (drive s op) .itlb).2)

theorem coh_same (mem : Nat → Nat) {l : List (BitVec 32)} (h : ∀ x ∈ l, x = sat) : Coherent mem (l.map (·.toNat)) := by
  intro s hs t ht va _ _
  obtain ⟨x, hx, rfl⟩ := List.mem_map.mp hs
  obtain ⟨y, hy, rfl⟩ := List.mem_map.mp ht
  rw [h x hx, h y hy]

/-- After ten cycles all three requests have been answered: the load and the fetch with addresses, the store with a
fault; memory has not changed, and the only satp in use is the current one (C66, C68). -/
example : ∃ s : Mmu.Sys 1, Mmu.Reach caps s ∧ s.fresh .dtlb = true ∧ s.fresh .itlb = true ∧
    (∀ c, Coherent (busView s.mem) ((sat :: s.used c).map (·.toNat))) ∧
    says s ask = ([some (.ok 0x80005234#32), some .fault], [some (.ok 0x80001000#32)]) := by
  refine ⟨after s0 (List.replicate 10 ask), after_reach (.init _) _, ?_, ?_, fun c => coh_same _ fun x hx => ?_, ?_⟩
  · decide +kernel
  · decide +kernel
  · have : ∀ c, (sat :: (after s0 (List.replicate 10 ask)).used c).all (· == sat) = true := by
      intro c; cases c <;> decide +kernel
    exact eq_of_beq (List.all_eq_true.mp (this c) x hx)
  · decide +kernel

/-- The manual's translation of the load is the one given (C66). -/
example : (specAccess (busView mem0) 0#32 sat 1 0xC0001234#32 .load).map (BitVec.ofNat 32) = some 0x80005234#32 := by decide +kernel

/-- Why `fresh` is needed: the page is moved, and without SFENCE.VMA the data TLB still gives the old address; with it
the new one. -/
example : ∃ s : Mmu.Sys 1, Mmu.Reach caps s ∧ s.fresh .dtlb = false ∧
    (specAccess (busView s.mem) 0#32 sat 1 0xC0001234#32 .load).map (BitVec.ofNat 32) = some 0x80006234#32 ∧
    (says s load).1 = [some (.ok 0x80005234#32)] ∧
    (says (after s (fence :: List.replicate 5 load)) load).1 = [some (.ok 0x80006234#32)] ∧
    (after s [fence]).fresh .dtlb = true := by
  refine ⟨(after s0 (List.replicate 6 load)).step caps (.write mem1), .step (after_reach (.init _) _) trivial, ?_, ?_, ?_, ?_, ?_⟩ <;>
    decide +kernel

/-- The instruction TLB has nothing outstanding at the start and asks for the page for seventeen cycles (C69). -/
example : s0.itlb.walk = none ∧ s0.rt.route.wait.walk = false ∧
    17 ≤ (driven s0 (List.replicate 17 ask)).length ∧
    (says s0 ask).2 = [some .retry] ∧ (says (after s0 (List.replicate 5 ask)) ask).2 = [some .retry] ∧
    (says (after s0 (List.replicate 6 ask)) ask).2 = [some (.ok 0x80001000#32)] := by
  refine ⟨rfl, rfl, ?_, ?_, ?_, ?_⟩ <;> decide +kernel

/-- Such a run keeps the conditions of C69. -/
example : Along caps (fun s e => Asks ctx 0x80001000#32 s e ∧ Hits s e) s0 (driven s0 (List.replicate 17 ask)) := by
  have : ∀ (m : Nat) (s : Mmu.Sys 1), Mmu.Reach caps s →
      Along caps (fun s e => Asks ctx 0x80001000#32 s e ∧ Hits s e) s (driven s (List.replicate m ask)) := by
    intro m
    induction m with
    | zero => intros; trivial
    | succ m ih =>
      intro s h
      refine ⟨drive_valid h ask, ⟨rfl, fun _ r hr => ?_⟩, ih _ (.step (e := .cycle _) h (drive_valid h ask))⟩
      have hr : (s.rt.ports (Fin.last 1)).map (fun q => (⟨q.id, s.mem q.addr, .hit⟩ : MemRoute.Resp)) = some r := hr
      obtain ⟨q, _, hq⟩ := Option.map_eq_some_iff.mp hr
      rw [← hq]
  exact this 17 s0 (.init _)

/-- The data TLB's walk goes on while the instruction TLB's request waits its turn (C68, C69). -/
example : ∃ s : Mmu.Sys 1, Mmu.Reach caps s ∧ (s.ptw.port .dtlb).inflight = true ∧ (s.ptw.port .itlb).pending = true ∧
    s.ptw.phase = .wait1 ∧ s.ptw.active = true ∧ s.ptw.owner = Client.dtlb ∧ s.ptw.rr = Client.itlb := by
  refine ⟨after s0 (List.replicate 1 ask), after_reach (.init _) _, ?_⟩
  decide +kernel

/-! The reference model's memory of `Props/RefMmu` (C67). -/

def sRef : Mmu.Sys 1 := { mem := RefMem.loadWord MmuRun.s0 }
def uload : Tlb.DOp × Tlb.IOp := (.translate (.ofCsr 0#32 MmuRun.satp 0) [some ⟨0x00403ABC#32, 1⟩], {})
def sfetch : Tlb.DOp × Tlb.IOp := (.translate (.ofCsr 0x40000#32 MmuRun.satp 1) [], { ask := some (.ofCsr 0x40000#32 MmuRun.satp 1, 0x00000100#32) })

/-- A user load: both give 0x80005ABC. -/
example : ∃ s : Mmu.Sys 1, Mmu.Reach caps s ∧ s.mem = RefMem.loadWord MmuRun.s0 ∧ s.fresh .dtlb = true ∧
    (says s uload).1 = [some (.ok 0x80005ABC#32)] ∧ RefMmu.translate MmuRun.s0 MmuRun.user 0x00403ABC#32 1 = some 0x80005ABC#32 := by
  refine ⟨after sRef (List.replicate 8 uload), after_reach (.init _) _, rfl, ?_, ?_, ?_⟩ <;> decide +kernel

/-- **C67 (finding).**  With SUM=1 a supervisor fetch from a user 4 MiB page is a page fault in the core (and in the
manual), while the reference model translates it and, run on its own, executes it.  (In a compared run it adopts the
core's fault: `C31_fix`.) -/
theorem C67_fetch_violated : ∃ s : Mmu.Sys 1, Mmu.Reach caps s ∧ s.mem = RefMem.loadWord MmuRun.s0 ∧ s.fresh .itlb = true ∧
    (s.mid caps (drive s sfetch) .itlb).2 = [some .fault] ∧
    RefMmu.translate MmuRun.s0 MmuRun.superSum 0x00000100#32 (code .fetch) = some 0x80400100#32 := by
  refine ⟨after sRef (List.replicate 2 sfetch), after_reach (.init _) _, rfl, ?_, ?_, ?_⟩ <;> decide +kernel

end TlbRun
end Verif.Props

import Verif.Proofs.MmuPacked
import Verif.Props.Mmu

/-! # C118: the TLBs as they run

A TLB does its work in one function from an array of bits to an array of bits (`tlb_kernel_top_io_generator`): the state, the
control registers, the walker's port and every request are written into the array field by field, each in as many bits as the
designer thought enough, and read out of it again on the other side.  `Model/TlbPacked` runs that function; C66–C69 are about
`Model/Tlb`, where values are passed as they are.  Here: nothing is lost on the way. -/
namespace Verif.Props
open Verif.Ptw (Client)
open Verif.TlbKernel
open Verif.Spec Verif.Spec.Sv32

/-! ## The same behaviour -/

/-- **C118.** Data side.  In every run, whatever the walker's port shows, whatever requests, fences and cancellations come, and
whatever the unused fields of the walker's port hold: the TLB through the arrays never reads past the end of one, and in every
cycle it gives the answers, makes the calls to the walker, and passes or fails the assertion as the rules of translation say. -/
theorem C118_data {cap : Nat} (hc : 0 < cap) (hc' : cap < 2 ^ 31) (ldu : Nat) {ports : Nat} (hn : ports ≤ 16)
    {xs : List (TlbKernel.Cyc KOp)} (hx : ∀ x ∈ xs, x.op.Fits ports) :
    (packedD cap ldu ports {} xs).map (·.2) = some (plainD cap ldu .init xs).2 := by
  obtain ⟨k, e, _⟩ := packedD_rel hc hc' ldu hn xs .init {} hx (StRel.init hc)
  rw [e]; rfl

/-- **C118.** Fetch side. -/
theorem C118_fetch {cap : Nat} (hc : 0 < cap) (hc' : cap < 2 ^ 31) (ldu : Nat) (xs : List (TlbKernel.Cyc Tlb.IOp)) :
    (packedI cap ldu {} xs).map (·.2) = some (plainI cap .init xs).2 := by
  obtain ⟨k, e, _⟩ := packedI_rel hc hc' ldu xs .init {} (StRel.init hc)
  rw [e]; rfl

/-! ## The arrays -/

/-- **C118.** The input array is filled to its end, bit by bit, and so is the output array: neither is too short, and no bit of
either is left as it was. -/
theorem C118_arrays (cap : Nat) (dtlb : Bool) (ldu : Nat) (i : TopIn) (hn : i.ports.length ≤ 16) :
    (putTopIn (slotWidthOf cap) i).length = topPiWidth cap i.ports.length ∧
    ∃ po, generator cap dtlb ldu i.ports.length (putTopIn (slotWidthOf cap) i) = some po ∧ po.length = topPoWidth cap i.ports.length := by
  refine ⟨putTopIn_length cap i, ?_⟩
  have h := getTopIn_put (slotWidth cap) i []
  rw [List.append_nil] at h
  refine ⟨putTopOut (slotWidth cap) (topComb cap dtlb ldu (i.trunc (slotWidth cap))), ?_, ?_⟩
  · rw [generator, if_neg (by omega)]
    simp only [slotWidth_eq, StateT.run, h, Option.map_some]
  · rw [putTopOut_length, topComb_length]
    simp [TopIn.trunc]

/-- **C118.** The width of a slot number is computed twice, by a loop at run time and by a recursion at compile time; both give the
same, and every slot number of the table fits. -/
theorem C118_slots (cap : Nat) : slotWidthOf cap = slotWidth cap ∧ ∀ slot < cap, slot < 2 ^ slotWidth cap :=
  ⟨slotWidth_eq cap, slotWidth_fits cap⟩

/-- **C118.** A lane whose comparisons are done beforehand (`tlb_kernel_build_core_output_mapper_input` and
`tlb_kernel_core_output_mapper_comb`) is the lane, whatever its inputs. -/
theorem C118_pieces (i : CoreIn) : mapComb (mapIn i) = coreComb i := map_eq i

/-! ## Translation -/

namespace TlbKernelLemmas

theorem asks_get (d : Bool) (ldu : Nat) : ∀ (ps : List (Bool × BitVec 32)) (k i : Nat) (v : BitVec 32), ps[i]? = some (true, v) →
    (asks d ldu k ps)[i]? = some (some ⟨v, if d then (if k + i < ldu then 1 else 2) else 0⟩)
  | [], _, _, _, h => by simp at h
  | p :: ps, k, 0, v, h => by
    simp only [List.getElem?_cons_zero, Option.some.injEq] at h
    simp [asks, h]
  | p :: ps, k, i + 1, v, h => by
    simp only [List.getElem?_cons_succ] at h
    have := asks_get d ldu ps (k + 1) i v h
    simp only [asks, List.getElem?_cons_succ, this, show k + 1 + i = k + (i + 1) by omega]

end TlbKernelLemmas
open TlbKernelLemmas

/-- The kind of access of a port of the data TLB: the first `ldu` load, the others store. -/
def portAccess (ldu i : Nat) : Access := if i < ldu then .load else .store

/-- **C118.** With the TLBs as they run: in every state the two TLBs, the walker and the block in front of the cache can reach, a
cycle goes through (no read past an array), and no assertion fails. -/
theorem C118_runs {n : Nat} {k : MmuPacked.Shape} (hk : k.Ok) {p : MmuPacked.Sys n} (h : MmuPacked.Reach k p) (e : MmuPacked.Cyc n)
    (hf : e.dop.Fits k.ports) : ∃ t, p.tlbs k e = some t ∧ ∀ c, (t.mid c).bad = false := by
  obtain ⟨s, hs, hr⟩ := MmuPacked.reach_rel hk h
  obtain ⟨t, ht, _, _, h1, h2⟩ := hr.tlbs hk e hf
  refine ⟨t, ht, fun c => ?_⟩
  cases c with
  | dtlb => exact h1.bad.trans (C68_no_abort (fun c => (hk.cap c).1) hs _ .dtlb)
  | itlb => exact h2.bad.trans (C68_no_abort (fun c => (hk.cap c).1) hs _ .itlb)

/-- **C118.** With the TLBs as they run: every answer to a load or a store is the physical address or the page fault the manual
prescribes, under the conditions of C66. -/
theorem C118_data_translates {n : Nat} {k : MmuPacked.Shape} (hk : k.Ok) {p : MmuPacked.Sys n} (h : MmuPacked.Reach k p)
    (e : MmuPacked.Cyc n) (hf : e.dop.Fits k.ports) {t : MmuPacked.Tlbs} (ht : p.tlbs k e = some t)
    {mstatus satp : BitVec 32} {priv : Nat} {ps : List (Bool × BitVec 32)} (hop : e.dop = .translate (.ofCsr mstatus satp priv) ps)
    (hfresh : p.fresh .dtlb = true) (hcoh : Coherent (busView p.mem) ((satp :: p.used .dtlb).map (·.toNat))) (hp : priv < 4)
    (i : Nat) (v : BitVec 32) (hq : ps[i]? = some (true, v)) (he : effPriv mstatus priv (portAccess k.ldu i) ∈ [0, 1, 3]) :
    ∃ r, t.d.2[i]? = some (some r) ∧
      Agrees r ((specAccess (busView p.mem) mstatus satp priv v (portAccess k.ldu i)).map (BitVec.ofNat 32)) := by
  obtain ⟨s, hs, hr⟩ := MmuPacked.reach_rel hk h
  obtain ⟨t', ht', h1, _⟩ := hr.tlbs hk e hf
  rw [ht] at ht'; cases ht'
  rw [hr.mem, hr.used] at hcoh
  rw [hr.fresh] at hfresh
  rw [h1, hr.mem]
  have hop' : (e.plain k).dop = .translate (.ofCsr mstatus satp priv) (asks true k.ldu 0 ps) := by
    simp only [MmuPacked.Cyc.plain, hop, KOp.plain]
  refine C66_dtlb (fun c => (hk.cap c).1) hs (e.plain k) hop' hfresh hcoh hp i v (portAccess k.ldu i) ?_ he
  rw [asks_get true k.ldu ps 0 i v hq]
  simp only [portAccess, Nat.zero_add, if_true]
  split <;> rfl

/-- **C118.** The same for a fetch. -/
theorem C118_fetch_translates {n : Nat} {k : MmuPacked.Shape} (hk : k.Ok) {p : MmuPacked.Sys n} (h : MmuPacked.Reach k p)
    (e : MmuPacked.Cyc n) (hf : e.dop.Fits k.ports) {t : MmuPacked.Tlbs} (ht : p.tlbs k e = some t)
    {mstatus satp : BitVec 32} {priv : Nat} {v : BitVec 32} (hc : e.iop.cancel = false)
    (hop : e.iop.ask = some (.ofCsr mstatus satp priv, v))
    (hfresh : p.fresh .itlb = true) (hcoh : Coherent (busView p.mem) ((satp :: p.used .itlb).map (·.toNat))) (hp : priv ∈ [0, 1, 3]) :
    ∃ r, t.i.2 = [some r] ∧ Agrees r ((specAccess (busView p.mem) mstatus satp priv v .fetch).map (BitVec.ofNat 32)) := by
  obtain ⟨s, hs, hr⟩ := MmuPacked.reach_rel hk h
  obtain ⟨t', ht', _, h1, _⟩ := hr.tlbs hk e hf
  rw [ht] at ht'; cases ht'
  rw [hr.mem, hr.used] at hcoh
  rw [hr.fresh] at hfresh
  rw [h1, hr.mem]
  exact C66_itlb (fun c => (hk.cap c).1) hs (e.plain k) hc hop hfresh hcoh hp

/-! ## Concrete cases -/
namespace TlbKernelRun
open TlbRun (mem0 sat ctx)

def junk : KResp := { fault := true, vaddr := 0xDEADBEEF#32, pte := 0xFFFFFFFF#32, level := true }

/-- A load that misses, its walk, a hit for a load, and for a store a page that may not be written; a cancellation; a fence. -/
def prog : List (TlbKernel.Cyc KOp) :=
  let t := KOp.translate ctx [(true, 0xC0001234#32), (false, 0#32), (true, 0xC0001000#32)]
  [ ⟨⟨true, none⟩, junk, t⟩, ⟨⟨false, none⟩, junk, t⟩, ⟨⟨true, some ⟨false, 0xC0001234#32, 0x20001443#32, false⟩⟩, junk, t⟩,
    ⟨⟨true, none⟩, junk, t⟩, ⟨⟨true, none⟩, junk, .cancel⟩, ⟨⟨true, none⟩, junk, .fence⟩, ⟨⟨true, none⟩, junk, t⟩ ]

theorem prog_fits : ∀ x ∈ prog, x.op.Fits 3 := by
  intro x hx
  simp only [prog, List.mem_cons, List.not_mem_nil, or_false] at hx
  rcases hx with rfl | rfl | rfl | rfl | rfl | rfl | rfl <;> first | rfl | trivial

/-- What comes out. -/
example : (packedD 3 2 3 {} prog).map (·.2.map (·.answers)) = some
    [ [some .retry, none, some .retry], [some .retry, none, some .retry], [some (.ok 0x80005234#32), none, some .fault],
      [some (.ok 0x80005234#32), none, some .fault], [], [], [some .retry, none, some .retry] ] := by
  decide +kernel

example : (packedD 3 2 3 {} prog).map (·.2.map (·.calls.req.isSome)) = some [true, false, false, false, false, false, true] := by
  decide +kernel

/-- The lengths of the arrays in the repository's shape: 16 entries, ports for two loads and two stores. -/
example : topPiWidth 16 4 = 626 ∧ topPoWidth 16 4 = 441 ∧ slotWidth 16 = 4 ∧ slotWidth 32 = 5 ∧ slotWidth 33 = 6 ∧ slotWidth 1 = 0 := by decide +kernel

def shape : MmuPacked.Shape := ⟨⟨2, 2⟩, 1, 2⟩

theorem shape_ok : shape.Ok := ⟨fun c => by cases c <;> decide, by decide⟩

/-- A load from the data page, a store to a page that is not there, and a fetch, all at once. -/
def ask : KOp × Tlb.IOp :=
  (.translate ctx [(true, 0xC0001234#32), (true, 0xC0002000#32)], { ask := some (ctx, 0x80001000#32) })

def drive (p : MmuPacked.Sys 1) (op : KOp × Tlb.IOp) : MmuPacked.Cyc 1 :=
  { ans := fun i => (p.rt.ports i).map fun q => ⟨q.id, p.mem q.addr, .hit⟩
    fill := false, lsu := fun _ => none, icache := none, dop := op.1, iop := op.2, djunk := junk, ijunk := junk }

/-- The answers of both TLBs. -/
def said (p : MmuPacked.Sys 1) : Option (List (Option Tlb.Result) × List (Option Tlb.Result)) :=
  (p.tlbs shape (drive p ask)).map fun t => (t.d.2, t.i.2)

/-- Cycles in which the cache answers from memory. -/
def after : MmuPacked.Sys 1 → List (KOp × Tlb.IOp) → Option (MmuPacked.Sys 1)
  | p, [] => some p
  | p, op :: ops => (p.tlbs shape (drive p op)).bind fun t => after (p.finish (drive p op) t) ops

theorem drive_valid {p : MmuPacked.Sys 1} (h : MmuPacked.Reach shape p) (op : KOp × Tlb.IOp) (t : MmuPacked.Tlbs) : p.Valid (drive p op) t := by
  obtain ⟨s, hs, hr⟩ := MmuPacked.reach_rel shape_ok h
  have hRI := RouteLemmas.reach_inv (RouteLemmas.reachW (MmuInv.reach_inv (fun c => (shape_ok.cap c).1) hs).rt)
  rw [← hr.rt] at hRI
  refine ⟨⟨fun i => ?_, fun i _ r hr => ?_, fun i q hq => by cases hq⟩, fun r hr _ _ ho => ?_⟩
  · show ((p.rt.ports i).map _).map _ = _
    rw [Option.map_map]; rfl
  · left
    have hr : (p.rt.ports i).map (fun q => (⟨q.id, p.mem q.addr, .hit⟩ : MemRoute.Resp)) = some r := hr
    obtain ⟨q, _, hq⟩ := Option.map_eq_some_iff.mp hr
    rw [← hq]
  · have hr : (p.rt.ports (Fin.last 1)).map (fun q => (⟨q.id, p.mem q.addr, .hit⟩ : MemRoute.Resp)) = some r := hr
    rw [(hRI.own (by rw [ho]; decide)).1] at hr
    injection hr with hr
    rw [← hr]

theorem after_reach : ∀ (ops : List (KOp × Tlb.IOp)) (p q : MmuPacked.Sys 1), (∀ op ∈ ops, op.1.Fits 2) → MmuPacked.Reach shape p → after p ops = some q →
    MmuPacked.Reach shape q
  | [], p, q, _, h, e => by cases e; exact h
  | op :: ops, p, q, hf, h, e => by
    obtain ⟨t, ht, e⟩ := Option.bind_eq_some_iff.mp e
    exact after_reach ops _ q (fun o ho => hf o (List.mem_cons_of_mem _ ho)) (.cycle (e := drive p op) h (hf op List.mem_cons_self) ht (drive_valid h op t)) e

/-- After ten cycles with the arrays all three requests have been answered: the load and the fetch with addresses, the store with a
fault; memory has not changed, and the only satp in use is the current one. -/
example : ∃ p : MmuPacked.Sys 1, MmuPacked.Reach shape p ∧ p.fresh .dtlb = true ∧ p.fresh .itlb = true ∧
    (∀ c, Coherent (busView p.mem) ((sat :: p.used c).map (·.toNat))) ∧
    said p = some ([some (.ok 0x80005234#32), some .fault], [some (.ok 0x80001000#32)]) := by
  have hs : (after { mem := mem0 } (List.replicate 10 ask)).isSome = true := by decide +kernel
  obtain ⟨p, hp⟩ := Option.isSome_iff_exists.mp hs
  have get : ∀ {α : Type} (f : MmuPacked.Sys 1 → α) (a : α), (after { mem := mem0 } (List.replicate 10 ask)).map f = some a → f p = a := by
    intro α f a h
    rw [hp] at h
    exact Option.some.inj h
  refine ⟨p, after_reach _ _ p (fun o ho => by rw [(List.mem_replicate.mp ho).2]; rfl) (.init _) hp, ?_, ?_, fun c => TlbRun.coh_same _ fun x hx => ?_, ?_⟩
  · exact get (fun p => p.fresh .dtlb) true (by decide +kernel)
  · exact get (fun p => p.fresh .itlb) true (by decide +kernel)
  · have h1 : (p.used .dtlb).all (· == sat) = true := get (fun p => (p.used .dtlb).all (· == sat)) true (by decide +kernel)
    have h2 : (p.used .itlb).all (· == sat) = true := get (fun p => (p.used .itlb).all (· == sat)) true (by decide +kernel)
    rw [List.mem_cons] at hx
    rcases hx with hx | hx
    · exact hx
    · cases c
      · exact beq_iff_eq.mp (List.all_eq_true.mp h1 x hx)
      · exact beq_iff_eq.mp (List.all_eq_true.mp h2 x hx)
  · exact get said (some ([some (.ok 0x80005234#32), some .fault], [some (.ok 0x80001000#32)])) (by decide +kernel)

end TlbKernelRun
end Verif.Props

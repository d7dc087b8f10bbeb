import Verif.Model.MmuPacked
import Verif.Proofs.TlbSim

/-
The memory-management unit with packed TLBs goes wherever the one of `Model/Mmu` goes.
-/
namespace Verif.MmuPacked
open Verif.Ptw (Client)
open Verif.TlbKernel (StRel Rel KOp Cyc.mk)

/-- The same cycle for the rules. -/
def Cyc.plain {n : Nat} (k : Shape) (e : Cyc n) : Mmu.Cyc n :=
  { ans := e.ans, fill := e.fill, lsu := e.lsu, icache := e.icache, dop := e.dop.plain k.ldu, iop := e.iop }

structure SRel {n : Nat} (k : Shape) (s : Mmu.Sys n) (p : Sys n) : Prop where
  rt : p.rt = s.rt
  ptw : p.ptw = s.ptw
  mem : p.mem = s.mem
  same : p.same = s.same
  fresh : p.fresh = s.fresh
  used : p.used = s.used
  dtlb : StRel k.caps.d s.dtlb p.dtlb
  itlb : StRel k.caps.i s.itlb p.itlb

/-- The sizes make sense. -/
structure Shape.Ok (k : Shape) : Prop where
  cap : ∀ c, 0 < k.caps.of c ∧ k.caps.of c < 2 ^ 31
  ports : k.ports ≤ 16

theorem SRel.tlbs {n : Nat} {k : Shape} (hk : k.Ok) {s : Mmu.Sys n} {p : Sys n} (h : SRel k s p) (e : Cyc n) (he : e.dop.Fits k.ports) :
    ∃ t, p.tlbs k e = some t ∧ t.d.2 = (s.mid k.caps (e.plain k) .dtlb).2 ∧ t.i.2 = (s.mid k.caps (e.plain k) .itlb).2 ∧
      Rel k.caps.d (s.mid k.caps (e.plain k) .dtlb).1 t.d.1 ∧ Rel k.caps.i (s.mid k.caps (e.plain k) .itlb).1 t.i.1 := by
  obtain ⟨d, e1, h1⟩ := (h.dtlb.start (s.ptw.view .dtlb) e.djunk).dcycle (hk.cap .dtlb).1 (hk.cap .dtlb).2 k.ldu hk.ports e.dop he
  obtain ⟨i, e2, h2⟩ := (h.itlb.start (s.ptw.view .itlb) e.ijunk).icycle (hk.cap .itlb).1 (hk.cap .itlb).2 k.ldu e.iop
  refine ⟨⟨(d, _), (i, _)⟩, ?_, rfl, rfl, h1, h2⟩
  simp only [Sys.tlbs, h.ptw, e1, e2, Option.bind_eq_bind, Option.bind_some]
  rfl

theorem asked_eq {n : Nat} (k : Shape) (e : Cyc n) : Mmu.asked (e.plain k) = asked e := by
  funext c
  cases c with
  | dtlb => simp only [Mmu.asked, asked, Cyc.plain]; cases e.dop <;> rfl
  | itlb => rfl

theorem SRel.finish {n : Nat} {k : Shape} (hk : k.Ok) {s : Mmu.Sys n} {p : Sys n} (h : SRel k s p) (e : Cyc n) (he : e.dop.Fits k.ports) {t : Tlbs}
    (ht : p.tlbs k e = some t) :
    SRel k (s.cycle k.caps (e.plain k)) (p.finish e t) ∧ p.rcyc e t = s.rcyc k.caps (e.plain k) := by
  obtain ⟨t', ht', _, _, h1, h2⟩ := h.tlbs hk e he
  rw [ht] at ht'
  cases ht'
  have hcalls : t.calls = s.calls k.caps (e.plain k) := by
    funext c
    cases c with
    | dtlb => exact h1.calls
    | itlb => exact h2.calls
  have hfl : ∀ c, (t.mid c).flushed = (s.mid k.caps (e.plain k) c).1.flushed := by
    intro c
    cases c with
    | dtlb => exact h1.flushed
    | itlb => exact h2.flushed
  have hrc : p.rcyc e t = s.rcyc k.caps (e.plain k) := by
    simp only [Sys.rcyc, Mmu.Sys.rcyc, Mmu.Sys.ptw1, hcalls, h.ptw]
    rfl
  refine ⟨⟨?_, ?_, h.mem, rfl, ?_, ?_, h1.seq (hk.cap .dtlb).1 (hk.cap .dtlb).2, h2.seq (hk.cap .itlb).1 (hk.cap .itlb).2⟩, hrc⟩
  · simp only [Sys.finish, Mmu.Sys.cycle, hrc, h.rt]
  · simp only [Sys.finish, Mmu.Sys.cycle, Mmu.Sys.ptw2, Mmu.Sys.ptw1, hrc, h.rt, h.ptw, hcalls]
  · simp only [Sys.finish, Mmu.Sys.cycle, hfl, h.fresh]
  · simp only [Sys.finish, Mmu.Sys.cycle, hfl, h.used, asked_eq]

theorem reach_rel {n : Nat} {k : Shape} (hk : k.Ok) {p : Sys n} (h : Reach k p) : ∃ s, Mmu.Reach k.caps s ∧ SRel k s p := by
  induction h with
  | init m => exact ⟨{ mem := m }, .init m, rfl, rfl, rfl, rfl, rfl, rfl, StRel.init (hk.cap .dtlb).1, StRel.init (hk.cap .itlb).1⟩
  | @cycle p e t _ he ht hv ih =>
    obtain ⟨s, hs, hr⟩ := ih
    obtain ⟨hf, hrc⟩ := hr.finish hk e he ht
    refine ⟨s.step k.caps (.cycle (e.plain k)), .step hs ?_, hf⟩
    obtain ⟨h1, h2⟩ := hv
    rw [hrc, hr.rt] at h1
    rw [hr.rt, hr.same, hr.mem] at h2
    exact ⟨h1, h2⟩
  | write _ m ih =>
    obtain ⟨s, hs, hr⟩ := ih
    exact ⟨s.step k.caps (.write m), .step hs trivial, hr.rt, hr.ptw, rfl, rfl, rfl, hr.used, hr.dtlb, hr.itlb⟩

end Verif.MmuPacked

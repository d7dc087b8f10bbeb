import Verif.Proofs.TageLate
import Verif.Proofs.BpuSys
import Verif.Proofs.BpuRun
import Verif.Proofs.BpuState
/- The predictor as a whole. -/
namespace Verif.Proofs.TageSys
open Verif.Bpu Verif.BpuTab Verif.BpuSys Verif.TageSys Verif.Spec.TageSys
open Verif.Spec.Tage (train)

theorem tCycle_some {c : Cfg} {tc : TCfg} {b : BCfg} {tg : Tage.Cfg} {recs : Nat → Tage.Meta} {s s' : TSt} {i : TIn} {o : Out}
    (h : tCycle c tc b tg recs s i = some (s', o)) :
    pCycle c tc b s.p (pIn c tg s i) = some (s'.p, o) ∧
    ∀ bk, s'.dir bk = match trainedBy c recs o bk with | none => s.dir bk | some u => Tage.update tg (s.dir bk) u := by
  unfold tCycle at h
  rcases hc : pCycle c tc b s.p (pIn c tg s i) with _ | ⟨p, o'⟩
  · rw [hc] at h; cases h
  · rw [hc] at h
    simp only [Option.some.injEq, Prod.mk.injEq] at h
    obtain ⟨rfl, rfl⟩ := h
    exact ⟨rfl, fun _ => rfl⟩

theorem tRun_cons {c : Cfg} {tc : TCfg} {b : BCfg} {tg : Tage.Cfg} {recs : Nat → Tage.Meta} {s s' : TSt} {i : TIn} {r : List TIn}
    {os : List Out} (h : tRun c tc b tg recs s (i :: r) = some (s', os)) :
    ∃ s1 o os', tCycle c tc b tg recs s i = some (s1, o) ∧ tRun c tc b tg recs s1 r = some (s', os') ∧ os = o :: os' := by
  unfold tRun at h
  rcases hc : tCycle c tc b tg recs s i with _ | ⟨s1, o⟩
  · rw [hc] at h; cases h
  · rw [hc] at h
    dsimp only at h
    rcases hr : tRun c tc b tg recs s1 r with _ | ⟨s2, os'⟩
    · rw [hr] at h; cases h
    · rw [hr] at h
      simp only [Option.some.injEq, Prod.mk.injEq] at h
      exact ⟨s1, o, os', rfl, by rw [hr, h.1], h.2.symm⟩

theorem tRun_tables {c : Cfg} {tc : TCfg} {b : BCfg} {tg : Tage.Cfg} {recs : Nat → Tage.Meta} (is : List TIn) :
    ∀ {s s' : TSt} {os : List Out}, tRun c tc b tg recs s is = some (s', os) →
    (∃ ins, pRun c tc b s.p ins = some (s'.p, os) ∧ ins.map PIn.upds = is.map TIn.upds) ∧
    ∀ bk, s'.dir bk = train tg (s.dir bk) ((os.filterMap (fun o => o.train bk)).filterMap (tUpd c recs)) := by
  induction is with
  | nil =>
    intro s s' os h
    simp only [tRun, Option.some.injEq, Prod.mk.injEq] at h
    obtain ⟨rfl, rfl⟩ := h
    exact ⟨⟨[], rfl, rfl⟩, fun _ => rfl⟩
  | cons i r ih =>
    intro s s' os h
    obtain ⟨s1, o, os', hc, hr, rfl⟩ := tRun_cons h
    obtain ⟨h1, h2⟩ := tCycle_some hc
    obtain ⟨⟨ins, i1, i2⟩, i3⟩ := ih hr
    refine ⟨⟨pIn c tg s i :: ins, ?_, ?_⟩, fun bk => ?_⟩
    · unfold pRun; rw [h1]; dsimp only; rw [i1]
    · rw [List.map_cons, List.map_cons, i2]; rfl
    · rw [i3, h2 bk, List.filterMap_cons]
      unfold trainedBy
      cases o.train bk with
      | none => rfl
      | some u =>
        dsimp only [Option.bind_some]
        rw [List.filterMap_cons]
        cases tUpd c recs u <;> rfl

/-- The state reached by a run is one of the predictor top's. -/
theorem top_reach {c : Cfg} {tc : TCfg} {b : BCfg} {tg : Tage.Cfg} {recs : Nat → Tage.Meta} {pc0 : W32} {is : List TIn} {s : TSt}
    {os : List Out} (h : tRun c tc b tg recs (tInit tg pc0) is = some (s, os)) : ∃ L, Reach c pc0 L s.p.top := by
  obtain ⟨⟨ins, h1, -⟩, -⟩ := tRun_tables is h
  obtain ⟨⟨ins', h2, -⟩, -, -⟩ := pRun_tables (log := []) (lb := fun _ => []) ins rfl (fun _ => rfl) h1
  obtain ⟨L, hL, -⟩ := run_reach ins' (Reach.init (c := c) (pc0 := pc0)) h2
  exact ⟨L, hL⟩

/-- The slot of a group asks its own question. -/
theorem asked_slot {c : Cfg} (ok : c.Ok) {m : Nat} (hl : c.Lines m) {s : TSt} {i : TIn} {k : Nat} (hn : i.refetch = none)
    (hk : k < c.fetchWidth) (on : slotOn c s.p.top.pc k = true) :
    asked c s i (bankSel c (slotPc s.p.top.pc k)) =
      some ⟨bankPc c (slotPc s.p.top.pc k), s.p.top.spec.fh, s.p.top.spec.ghr, s.p.top.spec.path⟩ := by
  have key : (List.range c.fetchWidth).find? (fun j => slotOn c s.p.top.pc j && bankSel c (slotPc s.p.top.pc j) ==
      bankSel c (slotPc s.p.top.pc k)) = some k := by
    rcases hf : (List.range c.fetchWidth).find? (fun j => slotOn c s.p.top.pc j && bankSel c (slotPc s.p.top.pc j) ==
      bankSel c (slotPc s.p.top.pc k)) with _ | j
    · rw [List.find?_eq_none] at hf
      exact absurd (by simp [on]) (hf k (List.mem_range.mpr hk))
    · have h1 := List.find?_some hf
      have h2 := List.mem_of_find?_eq_some hf
      simp only [Bool.and_eq_true, beq_iff_eq] at h1
      rw [slot_bank_inj ok hl (List.mem_range.mp h2) hk h1.1 on h1.2]
  unfold asked
  simp only [hn, Option.getD_none]
  rw [key]
  rfl

theorem out_dir {c : Cfg} {s s' : St} {i : In} {o : Out} (h : cycle c s i = some (s', o)) (hn : i.refetch = none)
    (hr : i.ready = true) (k : Nat) : o.predDir k = (((slots c s.pc true i)[k]?).map Slot.taken).getD false := by
  unfold cycle at h
  dsimp only at h
  split at h
  · cases h
  · simp only [Option.some.injEq, Prod.mk.injEq] at h
    obtain ⟨rfl, rfl⟩ := h
    simp [hn, hr]

/-- Folded histories of branches whose newest outcomes agree. -/
theorem fh_same {c : Cfg} (ok : c.Ok) {l l' : List Br} {h h' : GHist} (r : Reps c l h) (r' : Reps c l' h') {n : Nat}
    (hn : ∀ i, i < 4 → c.tnLen i ≤ n) (e : ∀ i, i < n → outcome l i = outcome l' i) (j : Nat) (hj : j < 3) (i : Nat) (hi : i < 4) :
    h.fh j i = h'.fh j i := by
  apply BitVec.eq_of_getLsbD_eq
  intro x hx
  rw [r.fh j hj i hi x hx, r'.fh j hj i hi x hx]
  congr 1
  unfold folded
  have : (List.range (c.tnLen i)).filter (fun y => y % c.fhLen j i == x && outcome l y) =
      (List.range (c.tnLen i)).filter (fun y => y % c.fhLen j i == x && outcome l' y) := by
    apply List.filter_congr
    intro y hy
    rw [List.mem_range] at hy
    rw [e y (Nat.lt_of_lt_of_le hy (hn i hi))]
  rw [this]

theorem tracks_watch {c : Cfg} {tc : TCfg} {b : BCfg} {tg : Tage.Cfg} {recs : Nat → Tage.Meta} {pc0 : W32} {bk : Nat}
    {k : Tage.Key} {W : Nat} {s : TSt} {fl : List Tage.Meta} {os : List Bool} (h : Tracks c tc b tg recs pc0 bk k W s fl os) :
    Watch tg k W (s.dir bk) fl os := by
  induction h with
  | @start is s os h =>
    rw [(tRun_tables is h).2 bk]
    exact Watch.start _
  | @cycle s s' fl fl1 fl2 os os' i o _ hc hask hend ih =>
    have h1 : Watch tg k W (s.dir bk) fl1 os := by
      rcases hask with h | ⟨k', -, hk, hlt, h⟩
      · rw [h]; exact ih
      · rw [h]; exact Watch.ask ih hk hlt
    have hd := (tCycle_some hc).2 bk
    rcases hend with ⟨n, e1, e2, e3⟩ | ⟨n, m, r, d, e1, e2, e3, e4⟩
    · have h2 := Watch.squash n h1
      rw [← e1] at h2
      rw [e2, hd]
      cases ht : trainedBy c recs o bk with
      | none => exact h2
      | some u => exact Watch.other h2 (e3 u ht)
    · have h2 := Watch.squash n h1
      rw [e1] at h2
      rw [e4, hd, e3]
      exact Watch.own d h2 e2

end Verif.Proofs.TageSys

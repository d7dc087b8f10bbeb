import Verif.Spec.Oracle
import Verif.Proofs.HandOff
/- Proofs for the oracle. -/
namespace Verif.Oracle
open Verif.HandOff
open Verif.Front (W32 Out)

variable {W : Nat} {M : Machine}

def Slot.insn (next : W32) (s : Slot) : Insn := ⟨s.pc, s.inst, s.pf, s.dir, next⟩

theorem Follows.append {m m1 m2 l r} (h1 : Follows M m l m1) (h2 : Follows M m1 r m2)
    (hs : ∀ x ∈ l.getLast?, (M.info m1).halts = false) : Follows M m (l ++ r) m2 := by
  induction h1 with
  | nil => exact h2
  | @cons m m1 m' now i l' a b c d e f g ih =>
    refine .cons a b c d e (fun hh => ?_) ?_
    · have := f hh
      subst this
      cases g
      have := hs i (by simp)
      rw [this] at hh; cases hh
    · cases l' with
      | nil => cases g; exact h2
      | cons y ys => exact ih h2 fun x hx => hs x (by rw [List.getLast?_cons_cons]; exact hx)

/-- One group: it follows the machine, at most its last slot is predicted taken, and it ends with a machine that has halted
exactly if the oracle waits. -/
theorem fill_follows (hM : M.Sane) {now n m l m' b} (h : fill M false now n m = some (l, m', b)) :
    l.length ≤ n ∧ Follows M m (l.map (Slot.insn (M.pc m'))) m' ∧ (∀ s ∈ l.dropLast, s.dir = false) ∧
    (b = true → l ≠ []) ∧ (l ≠ [] → (M.info m').halts = b) ∧ (0 < n → l ≠ []) := by
  induction n generalizing m l m' b with
  | zero =>
    simp only [fill, Option.some.injEq, Prod.mk.injEq] at h
    obtain ⟨rfl, rfl, rfl⟩ := h
    exact ⟨Nat.le_refl _, .nil _, by simp, by simp, by simp, by simp⟩
  | succ n ih =>
    unfold fill at h
    cases h1 : M.step now m with
    | none => rw [h1] at h; cases h
    | some m1 =>
      rw [h1] at h
      simp only [Option.bind_eq_bind, Option.bind_some] at h
      split at h
      · rename_i hc
        simp only [Option.pure_def, Option.some.injEq, Prod.mk.injEq] at h
        obtain ⟨rfl, rfl, rfl⟩ := h
        refine ⟨by simp, ?_, by simp, by simp, by simp, by simp⟩
        refine .cons h1 rfl rfl rfl (fun hh hg => ?_) (fun _ => rfl) (.nil _)
        have hio : (M.info m1).io = true := by simpa [hh] using hc
        show (if false then _ else M.pc m + 4#32) = _
        rw [if_neg (by simp)]
        rcases hg with hg | hg
        · rw [hM.io _ _ _ h1 hio] at hg; cases hg
        · exact hg.symm
      · rename_i hc
        have hh : (M.info m1).halts = false := by
          cases hq : (M.info m1).halts with
          | false => rfl
          | true => simp [hq] at hc
        have hpf : (M.info m1).pf = false := by
          cases hq : (M.info m1).pf with
          | false => rfl
          | true =>
            have := hM.fault _ _ _ h1 hq
            simp [Info.halts, this] at hh
        split at h
        · rename_i hd
          simp only [Option.pure_def, Option.some.injEq, Prod.mk.injEq] at h
          obtain ⟨rfl, rfl, rfl⟩ := h
          refine ⟨by simp, ?_, by simp, by simp, by simp [hh], by simp⟩
          refine .cons h1 rfl rfl hpf.symm (fun _ hg => ?_) (fun _ => rfl) (.nil _)
          cases ht : ((M.info m1).br && (M.info m1).taken) with
          | true => exact if_pos rfl
          | false =>
            exact (if_neg (by simp [Slot.insn])).trans (hg.resolve_left (by simp [ht])).symm
        · rename_i hd
          have ht : ((M.info m1).br && (M.info m1).taken) = false := by
            cases hq : ((M.info m1).br && (M.info m1).taken) with
            | false => rfl
            | true => simp [hq] at hd
          cases h2 : fill M false now n m1 with
          | none => rw [h2] at h; cases h
          | some q =>
            obtain ⟨l1, m2, b1⟩ := q
            rw [h2] at h
            simp only [Option.pure_def, Option.bind_some, Option.some.injEq, Prod.mk.injEq] at h
            obtain ⟨rfl, rfl, rfl⟩ := h
            obtain ⟨a1, a2, a3, a4, a5, a6⟩ := ih h2
            refine ⟨by simpa using a1, ?_, ?_, by simp, fun _ => ?_, by simp⟩
            · refine .cons h1 rfl rfl hpf.symm (fun _ hg => ?_) (fun hq => ?_) a2
              · exact (if_neg (by simp [Slot.insn, ht])).trans (hg.resolve_left (by simp [ht])).symm
              · rw [hh] at hq; cases hq
            · intro s hs
              cases l1 with
              | nil => simp at hs
              | cons y ys =>
                rw [List.dropLast_cons_cons] at hs
                rcases List.mem_cons.mp hs with rfl | hs
                · exact ht
                · exact a3 s hs
            · by_cases hl : l1 = []
              · subst hl
                cases a2
                rw [hh]
                cases b1 with
                | false => rfl
                | true => exact absurd rfl (a4 rfl)
              · exact a5 hl

/-- The instructions of a group as the hand-over reads them. -/
theorem upTo_toOut {l : List Slot} {next : W32} (hd : ∀ s ∈ l.dropLast, s.dir = false) (hl : l.length ≤ W) :
    insnsOf (toOut W l next) = l.map (Slot.insn next) := by
  have key : ∀ (k : Nat) (js : List (Fin W)) (r : List Slot), k + js.length = W → (∀ j, (hj : j < js.length) → (js[j]).val = k + j) →
      r = l.drop k → upTo (toOut W l next) js = r.map (Slot.insn next) := by
    intro k js
    induction js generalizing k with
    | nil =>
      intro r h1 _ h3
      have : l.drop k = [] := List.drop_eq_nil_of_le (by simp at h1; omega)
      rw [h3, this]; rfl
    | cons j js ih =>
      intro r h1 h2 h3
      have hj : j.val = k := h2 0 (by simp)
      have ih := ih (k + 1) (l.drop (k + 1)) (by simp at h1; omega) (fun q hq => by
        have := h2 (q + 1) (by simpa using hq)
        simpa [Nat.add_assoc, Nat.add_comm 1] using this) rfl
      unfold upTo
      by_cases hk : k < l.length
      · have hv : (toOut W l next).valid j = true := by simp [toOut, hj, hk]
        rw [if_pos hv]
        have hdrop : l.drop k = l[k] :: l.drop (k + 1) := List.drop_eq_getElem_cons hk
        have he : (⟨(toOut W l next).pc j, (toOut W l next).insts j, (toOut W l next).pf j, (toOut W l next).dir j,
            (toOut W l next).next⟩ : Insn) = Slot.insn next l[k] := by
          simp [toOut, hj, List.getElem?_eq_getElem hk, Slot.insn]
        have hdir : (toOut W l next).dir j = l[k].dir := by simp [toOut, hj, List.getElem?_eq_getElem hk]
        rw [he, h3, hdrop, List.map_cons, ih]
        congr 1
        rw [hdir]
        split
        · rename_i hq
          by_cases hlast : k + 1 < l.length
          · have : l[k] ∈ l.dropLast := by
              rw [List.mem_iff_getElem]
              exact ⟨k, by simp; omega, by simp⟩
            rw [hd _ this] at hq; cases hq
          · rw [List.drop_eq_nil_of_le (by omega)]; rfl
        · rfl
      · have hv : (toOut W l next).valid j = false := by simp [toOut, hj, hk]
        rw [if_neg (by simp [hv]), ih, h3, List.drop_eq_nil_of_le (by omega), List.drop_eq_nil_of_le (by omega)]
  exact key 0 (List.finRange W) l (by simp) (by simp) rfl

theorem call_follows (hM : M.Sane) {i : In} {s s' : St M} {out : Option (Out W Nat)} (h : call M W false i s = some (s', out)) :
    let m := if i.refetch then restart M i s.m else s.m
    Follows M m ((out.map insnsOf).getD []) s'.m ∧
    ((out.map insnsOf).getD [] ≠ [] → (M.info s'.m).halts = s'.stall) ∧
    ((out.map insnsOf).getD [] ≠ [] → i.refetch = false → s.stall = false) ∧
    ((out.map insnsOf).getD [] = [] → s'.m = m ∧ (i.refetch = false → 0 < W → s'.stall = true)) := by
  intro m
  have h : (if (if i.refetch then false else s.stall || (M.info m).simEnd) = true then some ((⟨m, true⟩ : St M), none)
    else (fill M false i.now W m).map fun (l, m', b) => ((⟨m', b⟩ : St M), some (toOut W l (M.pc m')))) = some (s', out) := h
  by_cases hs : (if i.refetch then false else s.stall || (M.info m).simEnd) = true
  · rw [if_pos hs] at h
    simp only [Option.some.injEq, Prod.mk.injEq] at h
    obtain ⟨rfl, rfl⟩ := h
    exact ⟨.nil _, fun h => absurd rfl h, fun h => absurd rfl h, fun _ => ⟨rfl, fun _ _ => rfl⟩⟩
  · rw [if_neg hs] at h
    cases h1 : fill M false i.now W m with
    | none => rw [h1] at h; cases h
    | some q =>
      obtain ⟨l, m', b⟩ := q
      rw [h1] at h
      simp only [Option.map_some, Option.some.injEq, Prod.mk.injEq] at h
      obtain ⟨rfl, rfl⟩ := h
      obtain ⟨a1, a2, a3, a4, a5, a6⟩ := fill_follows hM h1
      simp only [Option.map_some, Option.getD_some, upTo_toOut a3 a1]
      refine ⟨a2, fun hl => a5 (by simpa using hl), fun _ hr => ?_, fun hl => ?_⟩
      · rw [hr] at hs
        cases hq : s.stall with
        | false => rfl
        | true => simp [hq] at hs
      · have hl : l = [] := by simpa using hl
        subst hl
        cases a2
        exact ⟨rfl, fun _ hw => absurd rfl (a6 hw)⟩

/-- What holds in every reachable state. -/
structure Inv (M : Machine) (del : List Insn) (t : Sys M W) : Prop where
  path : Follows M t.start del t.s.m
  halt : del ≠ [] → (M.info t.s.m).halts = true → t.s.stall = true

theorem call_stall {i : In} {s s' : St M} {out : Option (Out W Nat)} (h : call M W false i s = some (s', out))
    (hr : i.refetch = false) (hs : s.stall = true) : s' = s ∧ out = none := by
  unfold call at h
  simp only [hr, hs, Bool.false_eq_true, if_false, Bool.true_or, if_true, Option.some.injEq, Prod.mk.injEq] at h
  obtain ⟨rfl, rfl⟩ := h
  refine ⟨?_, rfl⟩
  cases s
  simp_all

theorem inv_reach (hM : M.Sane) {MI N : Nat} {del : List Insn} {t : Sys M W} (h : Sys.Reach M MI N del t) : Inv M del t := by
  induction h with
  | init m => exact ⟨.nil _, fun h => absurd rfl h⟩
  | @step del t t' out i c _ hc _ ih =>
    unfold Sys.cycle at hc
    simp only [Option.bind_eq_bind] at hc
    by_cases ha : asks t.o.bo t.o.p = true
    · rw [if_pos ha] at hc
      cases h1 : call M W false { i with refetch := t.o.bo.redirect, addr := t.o.bo.pc } t.s with
      | none => rw [h1] at hc; cases hc
      | some q =>
        obtain ⟨s', o1⟩ := q
        rw [h1] at hc
        simp only [Option.bind_some] at hc
        cases h2 : ocycle MI N t.o o1 c with
        | none => rw [h2] at hc; cases hc
        | some o' =>
          rw [h2] at hc
          simp only [Option.bind_some, Option.pure_def, Option.some.injEq, Prod.mk.injEq] at hc
          obtain ⟨rfl, rfl⟩ := hc
          have hf := call_follows hM h1
          simp only at hf
          obtain ⟨f1, f2, f3, f4⟩ := hf
          unfold odeliver
          rw [if_pos ha]
          cases hr : t.o.bo.redirect with
          | true =>
            rw [hr] at f1 f4 h1
            simp only [if_true, List.nil_append] at f1 f4 ⊢
            exact ⟨f1, fun hl hh => (f2 hl).symm.trans hh⟩
          | false =>
            rw [hr] at f1 f3 f4 h1
            simp only [Bool.false_eq_true, if_false] at f1 f3 f4 ⊢
            by_cases hl : (o1.map insnsOf).getD [] = []
            · rw [hl, List.append_nil]
              have hm := (f4 hl).1
              refine ⟨by rw [hm]; exact ih.path, fun hd hh => ?_⟩
              rw [hm] at hh
              have hst := ih.halt hd hh
              have := (call_stall h1 rfl hst).1
              rw [this]; exact hst
            · have hst := f3 hl trivial
              refine ⟨ih.path.append f1 fun x hx => ?_, fun _ hh => (f2 hl).symm.trans hh⟩
              cases hq : (M.info t.s.m).halts with
              | false => rfl
              | true =>
                have := ih.halt (by rintro rfl; simp at hx) hq
                rw [hst] at this; cases this
    · rw [if_neg ha] at hc
      simp only [Option.bind_some] at hc
      cases h2 : ocycle MI N t.o none c with
      | none => rw [h2] at hc; cases hc
      | some o' =>
        rw [h2] at hc
        simp only [Option.bind_some, Option.pure_def, Option.some.injEq, Prod.mk.injEq] at hc
        obtain ⟨rfl, rfl⟩ := hc
        have hr : t.o.bo.redirect = false := by
          cases hq : t.o.bo.redirect with
          | false => rfl
          | true => exact absurd (by simp [asks, hq]) ha
        unfold odeliver
        rw [if_neg ha, hr]
        simp only [Bool.false_eq_true, if_false, List.append_nil]
        exact ⟨ih.path, ih.halt⟩

/-- The hand-over of a run with the oracle is a run of the hand-over (C111). -/
theorem reach_hand {MI N : Nat} {del : List Insn} {t : Sys M W} (h : Sys.Reach M MI N del t) : OReach MI N del t.o := by
  induction h with
  | init m => exact .init
  | @step del t t' out i c _ hc hv ih =>
    unfold Sys.cycle at hc
    simp only [Option.bind_eq_bind] at hc
    refine .step out c ih ?_ hv
    split at hc
    · cases h1 : call M W false { i with refetch := t.o.bo.redirect, addr := t.o.bo.pc } t.s with
      | none => rw [h1] at hc; cases hc
      | some q =>
        obtain ⟨s', o1⟩ := q
        rw [h1] at hc
        simp only [Option.bind_some] at hc
        cases h2 : ocycle MI N t.o o1 c with
        | none => rw [h2] at hc; cases hc
        | some o' =>
          rw [h2] at hc
          simp only [Option.bind_some, Option.pure_def, Option.some.injEq, Prod.mk.injEq] at hc
          obtain ⟨rfl, rfl⟩ := hc
          exact h2
    · simp only [Option.bind_some] at hc
      cases h2 : ocycle MI N t.o none c with
      | none => rw [h2] at hc; cases hc
      | some o' =>
        rw [h2] at hc
        simp only [Option.bind_some, Option.pure_def, Option.some.injEq, Prod.mk.injEq] at hc
        obtain ⟨rfl, rfl⟩ := hc
        exact h2

/-- A prefix of what the machine executes. -/
theorem Follows.prefix {m m' l r} (h : Follows M m (l ++ r) m') : ∃ m1, Follows M m l m1 := by
  induction l generalizing m with
  | nil => exact ⟨_, .nil _⟩
  | cons i l ih =>
    cases h with
    | cons a b c d e f g =>
      obtain ⟨m1, hm⟩ := ih g
      refine ⟨m1, .cons a b c d e (fun hh => ?_) hm⟩
      exact (List.append_eq_nil_iff.mp (f hh)).1

theorem restart_get (hM : M.Sane) (i : In) (m : M.S) :
    (M.get (restart M i m)).1.pc = i.addr ∧ (∀ r < 32, (M.get (restart M i m)).1.gpr r = i.dut.gpr r) ∧
    ∀ c, i.status = some c → (M.get (restart M i m)).2 = c.priv ∧ (M.get (restart M i m)).1.csr .mstatus = c.mstatus ∧
      (M.get (restart M i m)).1.csr .sstatus = c.sstatus ∧ (M.get (restart M i m)).1.csr .satp = c.satp := by
  have hput : ∀ (c : Status) f, c.put f .mstatus = c.mstatus ∧ c.put f .sstatus = c.sstatus ∧ c.put f .satp = c.satp := by
    intro c f; simp [Status.put, Csr.set]
  unfold restart
  simp only
  cases hg : gprMatch M i (syncControl M i (M.resume m)) with
  | true =>
    rw [if_pos rfl]
    refine ⟨?_, ?_, ?_⟩
    · unfold syncControl; rw [hM.get_set]; cases i.status <;> rfl
    · intro r hr
      simp only [gprMatch, List.all_eq_true, List.mem_range, beq_iff_eq] at hg
      exact hg r hr
    · intro c hc; unfold syncControl; rw [hM.get_set, hc]; exact ⟨rfl, hput c (M.get (M.resume m)).1.csr⟩
  | false =>
    rw [if_neg (by simp)]
    unfold syncArch
    rw [hM.get_set]
    refine ⟨by cases i.status <;> rfl, fun r _ => by cases i.status <;> rfl, fun c hc => ?_⟩
    rw [hc]; exact ⟨rfl, hput c i.dut.csr⟩

end Verif.Oracle

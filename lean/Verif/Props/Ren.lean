import Verif.Proofs.RenSys
/-
C12–C15: register renaming.  All statements quantify over every state reachable from reset of
the rename stage closed with its environment (`Verif.Spec.RenWindow`), for any numbers of
physical registers `P`, map entries `A` (`0 < A ≤ P`), branch tags `N` and slots per cycle.
-/
namespace Verif.Props
open Verif.Ring Verif.Ren Verif.RenWindow Verif.Proofs.Ren

variable {P A N : Nat} {s : Sys}

/-- C12: free registers, current mappings and mappings replaced by in-flight instructions are
together exactly the physical registers, each once. -/
theorem C12_partition (hA : 0 < A) (hAP : A ≤ P) (h : Reach P A N s) :
    (free P s.regs ++ ((List.range A).map s.regs.spec ++ olds s.win)).Perm (List.range P) := by
  have inv := (sinv_reach hA hAP h).regs
  have hp := inv.perm
  rw [ring_split hA inv] at hp
  have hc := chain_perm _ _ _ inv.chain
  rw [← inv.specEq] at hc
  refine List.Perm.trans ?_ hp
  rw [← List.append_assoc ((List.range A).map s.regs.arch)]
  exact List.perm_append_comm.trans (hc.append_right _)

/-- C12: free registers, committed mappings and registers allocated to in-flight instructions are
together exactly the physical registers, each once. -/
theorem C12_partition_committed (hA : 0 < A) (hAP : A ≤ P) (h : Reach P A N s) :
    (free P s.regs ++ ((List.range A).map s.regs.arch ++ pregs s.win)).Perm (List.range P) := by
  have inv := (sinv_reach hA hAP h).regs
  have hp := inv.perm
  rw [ring_split hA inv] at hp
  refine List.Perm.trans ?_ hp
  rw [← List.append_assoc ((List.range A).map s.regs.arch)]
  exact List.perm_append_comm

/-- C12: the registers handed out in a cycle are taken, in order, from the free ones; with
`C12_partition` and `C12_partition_committed` they are distinct, mapped to by nothing and owned
by nobody. -/
theorem C12_alloc_from_free (hA : 0 < A) (hAP : A ≤ P) (h : Reach P A N s) :
    pregs (entries (renameGroup P s.regs s.insts)) <+: free P s.regs := by
  have inv := sinv_reach hA hAP h
  have h1 := sinv_fire hA inv true
  have hfr := fire_frame (P := P) (N := N) true (renameGroup P s.regs s.insts) s.regs
  have e1 := ring_split hA h1
  have e2 := ring_split hA inv.regs
  rw [hfr.2.1, hfr.2.2.1, e2, if_pos rfl, pregs_append, List.append_assoc] at e1
  exact ⟨_, (List.append_cancel_left e1).symm⟩

/-- C12: how many registers are free. -/
theorem C12_free_count (hA : 0 < A) (hAP : A ≤ P) (h : Reach P A N s) :
    (free P s.regs).length + (pregs s.win).length = P - A := by
  have inv := (sinv_reach hA hAP h).regs
  have := congrArg List.length (ring_split hA inv)
  rw [ring_length, List.length_append] at this
  omega

/-- C12: register 0 of the map always names physical register 0, which is never handed out. -/
theorem C12_x0 (hA : 0 < A) (hAP : A ≤ P) (h : Reach P A N s) :
    s.regs.spec 0 = 0 ∧ s.regs.arch 0 = 0 ∧ 0 ∉ free P s.regs ∧ 0 ∉ pregs s.win := by
  have inv := (sinv_reach hA hAP h).regs
  have hn : (free P s.regs ++ ((List.range A).map s.regs.arch ++ pregs s.win)).Nodup :=
    (C12_partition_committed hA hAP h).nodup_iff.2 List.nodup_range
  have h0 : 0 ∈ (List.range A).map s.regs.arch := List.mem_map.2 ⟨0, List.mem_range.2 hA, inv.arch0⟩
  obtain ⟨_, n2, n3⟩ := List.nodup_append.1 hn
  have hpw : 0 ∉ pregs s.win := fun hm => (List.nodup_append.1 n2).2.2 0 h0 0 hm rfl
  refine ⟨?_, inv.arch0, fun hm => n3 0 hm 0 (List.mem_append_left _ h0) rfl, hpw⟩
  rw [inv.specEq]
  have : ∀ (w : List Entry) m hh, Chain P A N s.regs.ck s.regs.ckHead m hh w → m 0 = 0 →
      applyAll m w 0 = 0 := by
    intro w
    induction w with
    | nil => intro m hh _ hm; exact hm
    | cons e r ih =>
      intro m hh hc hm
      refine ih _ _ hc.2.2 ?_
      rw [apply]
      by_cases hd : e.destEn = true
      · have := (hc.1 hd).1
        rw [if_pos hd, upd, if_neg (by omega)]; exact hm
      · rw [if_neg hd]; exact hm
  exact this _ _ _ inv.chain inv.arch0

/-- C12: none of the rename stage's assertions ever fails. -/
theorem C12_no_assert (hA : 0 < A) (hAP : A ≤ P) (h : Reach P A N s) : s.regs.ok = true :=
  (sinv_reach hA hAP h).regs.ok

theorem good_at {fl} : ∀ (pre : List Slot) {sl post m hh c},
    Good P A N fl m hh c (pre ++ sl :: post) → sl.valid = true →
    ∃ i, sl.inst = some i ∧ sl.p1 = applyAll m (entries pre) i.src1 ∧
      sl.p2 = applyAll m (entries pre) i.src2 ∧ sl.old = applyAll m (entries pre) i.areg
  | [], sl, post, m, hh, c, hg, hv => by
    obtain ⟨i, h1, _, h2, h3, h4, _⟩ := hg.1 hv
    exact ⟨i, h1, h2, h3, h4⟩
  | x :: pre, sl, post, m, hh, c, hg, hv => by
    have hg2 := hg.2
    rw [entries_cons]
    cases hte : toEntry x with
    | none => rw [hte] at hg2; exact good_at pre hg2 hv
    | some e => rw [hte] at hg2; exact good_at pre hg2 hv

/-- C13: the sources (and the replaced mapping) of an instruction that leaves rename are the
registers of the youngest earlier instruction in program order that writes them: among all
committed ones (`hist`), the in-flight ones (`win`) and the earlier ones of its own group. -/
theorem C13_dataflow (hA : 0 < A) (hAP : A ≤ P) (h : Reach P A N s)
    {pre post : List Slot} {sl : Slot} {i : Inst}
    (hs : renameGroup P s.regs s.insts = pre ++ sl :: post)
    (hi : sl.inst = some i) (hv : sl.valid = true) :
    (i.src1 < A → sl.p1 = mapAfter (s.hist ++ s.win ++ entries pre) i.src1) ∧
    (i.src2 < A → sl.p2 = mapAfter (s.hist ++ s.win ++ entries pre) i.src2) ∧
    (i.areg < A → sl.old = mapAfter (s.hist ++ s.win ++ entries pre) i.areg) := by
  have inv := sinv_reach hA hAP h
  have hg := good_group inv
  rw [hs] at hg
  obtain ⟨j, hj, h1, h2, h3⟩ := good_at pre hg hv
  have : j = i := by rw [hi] at hj; exact (Option.some.inj hj).symm
  subst this
  have key : ∀ a, a < A → applyAll s.regs.spec (entries pre) a
      = mapAfter (s.hist ++ s.win ++ entries pre) a := by
    intro a ha
    rw [inv.regs.specEq, ← applyAll_append, List.append_assoc]
    exact mapAfter_append _ _ _ _ (inv.hist a ha)
  exact ⟨fun ha => h1.trans (key _ ha), fun ha => h2.trans (key _ ha), fun ha => h3.trans (key _ ha)⟩

/-- C13: the map itself is the program-order map of everything renamed and not squashed. -/
theorem C13_map (hA : 0 < A) (hAP : A ≤ P) (h : Reach P A N s) {a : Nat} (ha : a < A) :
    s.regs.spec a = mapAfter (s.hist ++ s.win) a := by
  have inv := sinv_reach hA hAP h
  rw [inv.regs.specEq]
  exact mapAfter_append _ _ _ _ (inv.hist a ha)

/-- C14: after a misprediction the map is the program-order map just after the branch. -/
theorem C14_map (hA : 0 < A) (hAP : A ≤ P) (h : Reach P A N s) {i : Input} (v : Valid P A N s i)
    {t : Nat} (hm : i.mispred = some t) {a : Nat} (ha : a < A) :
    (stepSys P A N s i).regs.spec a = mapAfter (s.hist ++ upTo t s.win) a := by
  have inv := sinv_reach hA hAP h
  obtain ⟨m1, m2, m3⟩ := v.mispred t hm
  have hspec : (stepSys P A N s i).regs.spec = s.regs.ck t := by
    simp only [stepSys, combFire, recover, m2, hm, Bool.false_eq_true, if_false]
  obtain ⟨_, _, k, _⟩ := chain_upTo inv.regs.hcLt m3 inv.regs.chain
  rw [hspec, k]
  exact mapAfter_append _ _ _ _ (inv.hist a ha)

/-- C14: after a misprediction the registers of exactly the squashed instructions are allocatable
again, in front of those that were free. -/
theorem C14_free (hA : 0 < A) (hAP : A ≤ P) (h : Reach P A N s) {i : Input} (v : Valid P A N s i)
    {t : Nat} (hm : i.mispred = some t) :
    free P (stepSys P A N s i).regs = pregs (after t s.win) ++ free P s.regs := by
  have inv := sinv_reach hA hAP h
  obtain ⟨m1, m2, m3⟩ := v.mispred t hm
  have inv' := (sinv_step hA inv v).regs
  have e1 := ring_split hA inv'
  have e2 := ring_split hA inv.regs
  have hwin : (stepSys P A N s i).win = (upTo t s.win).map (survive i.clear) := by
    simp only [stepSys, m2, hm, Bool.false_eq_true, if_false]
  have hfr := fire_frame (P := P) (N := N) i.ready (renameGroup P s.regs s.insts)
    { s.regs with ok := s.regs.ok && sanity P A s.regs.head s.regs.hc s.regs.tail }
  have hfl : (stepSys P A N s i).regs.fl = s.regs.fl := by
    simp only [stepSys, combFire, recover, m2, hm, m1, Bool.false_eq_true, if_false, List.take_zero,
      List.map_nil, List.foldl_nil]
    exact hfr.2.1
  have hhc : (stepSys P A N s i).regs.hc = s.regs.hc := by
    simp only [stepSys, combFire, recover, m2, hm, m1, Bool.false_eq_true, if_false, List.take_zero,
      List.map_nil, List.foldl_nil]
    exact hfr.2.2.1
  rw [hfl, hhc, e2, hwin, pregs_survive] at e1
  have hw := congrArg pregs (upTo_append_after m3)
  rw [pregs_append] at hw
  rw [hw, List.append_assoc] at e1
  exact (List.append_cancel_left e1).symm

/-- C15: after a flush the map is that of the committed instructions. -/
theorem C15_map (hA : 0 < A) (hAP : A ≤ P) (h : Reach P A N s) {i : Input} (v : Valid P A N s i)
    (hf : i.flush = true) {a : Nat} (ha : a < A) :
    (stepSys P A N s i).regs.spec a = mapAfter (stepSys P A N s i).hist a := by
  have inv' := sinv_step hA (sinv_reach hA hAP h) v
  have hwin : (stepSys P A N s i).win = [] := by simp only [stepSys, hf, if_true]
  rw [inv'.regs.specEq, hwin]
  exact inv'.hist a ha

/-- C15: after a flush every register except the mapped ones is allocatable. -/
theorem C15_free (hA : 0 < A) (hAP : A ≤ P) (h : Reach P A N s) {i : Input} (v : Valid P A N s i)
    (hf : i.flush = true) (p : Nat) :
    p ∈ free P (stepSys P A N s i).regs ↔
      p < P ∧ ∀ a, a < A → (stepSys P A N s i).regs.spec a ≠ p := by
  have hr : Reach P A N (stepSys P A N s i) := .step i h v
  have hwin : (stepSys P A N s i).win = [] := by simp only [stepSys, hf, if_true]
  have hp := C12_partition hA hAP hr
  have ho : olds (stepSys P A N s i).win = [] := by rw [hwin]; rfl
  rw [ho, List.append_nil] at hp
  have hn := (List.nodup_append.1 (hp.nodup_iff.2 List.nodup_range)).2.2
  have hmem := hp.mem_iff (a := p)
  rw [List.mem_append, List.mem_map, List.mem_range] at hmem
  constructor
  · intro hm
    refine ⟨hmem.1 (.inl hm), fun a ha he => hn p hm p ?_ rfl⟩
    exact List.mem_map.2 ⟨a, List.mem_range.2 ha, he⟩
  · rintro ⟨h1, h2⟩
    rcases hmem.2 h1 with h' | ⟨a, ha, he⟩
    · exact h'
    · exact absurd he (h2 a (List.mem_range.1 ha))

/-! ### A concrete run: 8 physical registers, 4 map entries, 4 tags, 2 slots.
`x1 := …; branch(tag 1)` are renamed, then `x1 := x1; x2 := x1` behind the branch. -/

def exIn (dec : List (Option Inst)) : Input :=
  ⟨true, false, false, false, 0, none, fun _ => false, dec⟩
def exI1 : Input := exIn [some ⟨true, 1, 0, 0, false, 0⟩, some ⟨false, 0, 1, 0, true, 1⟩]
def exI2 : Input := exIn [some ⟨true, 1, 1, 0, false, 0⟩, some ⟨true, 2, 1, 1, false, 0⟩]
def exI3 : Input := exIn [none, none]
def exI4 : Input := { exIn [none, none] with mispred := some 1, clear := fun t => t == 1 }
def exI5 : Input := { exIn [none, none] with flush := true, retire := 1 }
def exR0 : Sys := ⟨Ren.init 8 4, [none, none], [], []⟩
def exR1 : Sys := stepSys 8 4 4 exR0 exI1
def exR2 : Sys := stepSys 8 4 4 exR1 exI2
def exR3 : Sys := stepSys 8 4 4 exR2 exI3

theorem exR2_reach : Reach 8 4 4 exR2 := by
  refine .step exI2 (.step exI1 (.init 2) ⟨?_, ?_, ?_, ?_, ?_⟩) ⟨?_, ?_, ?_, ?_, ?_⟩
  · intro t h; cases h
  · intro h; rcases h with h | h <;> cases h
  · intro d hd
    simp only [exI1, exIn, List.mem_cons, Option.some.injEq, List.not_mem_nil, or_false] at hd
    rcases hd with rfl | rfl <;> exact ⟨by decide, by decide⟩
  · decide
  · decide
  · intro t h; cases h
  · intro h; rcases h with h | h <;> cases h
  · intro d hd
    simp only [exI2, exIn, List.mem_cons, Option.some.injEq, List.not_mem_nil, or_false] at hd
    rcases hd with rfl | rfl <;> exact ⟨by decide, by decide⟩
  · decide
  · decide

theorem exR3_reach : Reach 8 4 4 exR3 := by
  refine .step exI3 exR2_reach ⟨?_, ?_, ?_, ?_, ?_⟩
  · intro t h; cases h
  · intro h; rcases h with h | h <;> cases h
  · intro d hd; simp [exI3, exIn] at hd
  · decide
  · decide

/-- `x2 := x1` reads the register just given to `x1 := x1` of its own group. -/
example : (renameGroup 8 exR2.regs exR2.insts).map (fun sl => (sl.valid, sl.dest, sl.p1, sl.old))
    = [(true, 5, 4, 4), (true, 6, 5, 2)] := by decide
example : exR3.win.map (fun e => (e.preg, e.old, e.tag))
    = [(4, 1, none), (0, 0, some 1), (5, 4, none), (6, 2, none)] := by decide
example : free 8 exR3.regs = [7] := by decide
example : (List.range 4).map exR3.regs.spec = [0, 5, 6, 3] := by decide

theorem exI4_valid : Valid 8 4 4 exR3 exI4 := by
  refine ⟨?_, ?_, ?_, ?_, ?_⟩
  · intro t h
    have : t = 1 := (Option.some.inj h).symm
    subst this
    exact ⟨rfl, rfl, by decide⟩
  · intro h; rcases h with h | h <;> cases h
  · intro d hd; simp [exI4, exIn] at hd
  · decide
  · decide

/-- The misprediction of the branch. -/
example : (List.range 4).map (stepSys 8 4 4 exR3 exI4).regs.spec = [0, 4, 2, 3] ∧
    free 8 (stepSys 8 4 4 exR3 exI4).regs = [5, 6, 7] := by decide

theorem exI5_valid : Valid 8 4 4 exR3 exI5 := by
  refine ⟨?_, ?_, ?_, ?_, ?_⟩
  · intro t h; cases h
  · intro _; rfl
  · intro d hd; simp [exI5, exIn] at hd
  · decide
  · decide

/-- A flush at the commit of the first instruction. -/
example : (List.range 4).map (stepSys 8 4 4 exR3 exI5).regs.spec = [0, 4, 2, 3] ∧
    free 8 (stepSys 8 4 4 exR3 exI5).regs = [5, 6, 7, 1] := by decide

end Verif.Props

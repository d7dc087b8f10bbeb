import Verif.Proofs.Idu
/-
C10, C11: branch tags and misprediction squash, for every reachable state of the
decode stage closed with an arbitrary environment (`BranchWindow.Reach`).
-/
namespace Verif.Props
open Verif.Idu Verif.BranchWindow Verif.IduProofs

/-- **C10.** Two in-flight unresolved branches never share a tag, and every tag in use is one
of 1 … n-1. -/
theorem C10_distinct {n maxBr : Nat} {s : Sys n} (h : Reach n maxBr s) :
    (∀ f ∈ s.win, ∀ g ∈ s.win, ∀ t, f.tag = some t → g.tag = some t → f = g) ∧
    (∀ f ∈ s.win, ∀ t, f.tag = some t → 0 < t ∧ t < n) :=
  ⟨fun f hf g hg t h1 h2 =>
    seq_inj (inv_reach h).core.sorted hf hg ((inv_reach h).core.uniq f hf g hg t h1 h2),
   fun _ hf _ ht => (inv_reach h).core.tag_pos hf ht⟩

/-- **C10.** A tag is available for allocation exactly if it is a legal tag and no in-flight
unresolved branch owns it: no double allocation, and no tag is ever lost. -/
theorem C10_free_iff_unowned {n maxBr : Nat} {s : Sys n} (h : Reach n maxBr s) (t : Nat) :
    s.idu.tagFree t = true ↔ 0 < t ∧ t < n ∧ ∀ f ∈ s.win, f.tag ≠ some t := by
  have hi := inv_reach h
  rw [hi.core.free, Bool.eq_false_iff, ne_eq, hi.core.own]
  constructor
  · rintro ⟨a, b, c⟩; exact ⟨a, b, fun f hf hh => c ⟨f, hf, hh⟩⟩
  · rintro ⟨a, b, c⟩; exact ⟨a, b, fun ⟨f, hf, hh⟩ => c f hf hh⟩

/-- **C10.** The tags offered to the instructions being decoded are pairwise distinct and
unowned. -/
theorem C10_offered_fresh {n maxBr : Nat} {s : Sys n} (h : Reach n maxBr s) :
    (allocTags s.idu maxBr).Nodup ∧
    ∀ t ∈ allocTags s.idu maxBr, 0 < t ∧ ∀ f ∈ s.win, f.tag ≠ some t := by
  refine ⟨((List.nodup_range (n := n)).filter _).sublist (List.take_sublist _ _), fun t ht => ?_⟩
  have := List.mem_of_mem_take ht
  rw [List.mem_filter] at this
  have := (C10_free_iff_unowned h t).1 this.2
  exact ⟨this.1, this.2.2⟩

/-- **C10.** At most `n - 1` branches are unresolved at any time. -/
theorem C10_count {n maxBr : Nat} {s : Sys n} (h : Reach n maxBr s) :
    (s.win.filter (fun f => f.tag.isSome)).length ≤ n - 1 := by
  have hi := inv_reach h
  have hd := C10_distinct h
  have hnd : ((s.win.filter (fun f => f.tag.isSome)).map (fun f => f.tag.getD 0)).Nodup := by
    rw [List.Nodup, List.pairwise_map]
    refine List.Pairwise.imp_of_mem (R := fun a b => a.seq < b.seq) ?_ (hi.core.sorted.filter _)
    intro a b ha hb hlt heq
    rw [List.mem_filter] at ha hb
    obtain ⟨ta, hta⟩ := Option.isSome_iff_exists.1 ha.2
    obtain ⟨tb, htb⟩ := Option.isSome_iff_exists.1 hb.2
    rw [hta, htb] at heq; simp at heq
    have := hi.core.uniq a ha.1 b hb.1 ta hta (heq ▸ htb)
    omega
  have hsub : ((s.win.filter (fun f => f.tag.isSome)).map (fun f => f.tag.getD 0)) ⊆
      List.range' 1 (n - 1) := by
    intro t ht
    rw [List.mem_map] at ht
    obtain ⟨f, hf, rfl⟩ := ht
    rw [List.mem_filter] at hf
    obtain ⟨t, ht⟩ := Option.isSome_iff_exists.1 hf.2
    have := hd.2 f hf.1 t ht
    rw [ht, List.mem_range'_1]; simp; omega
  have := hnd.length_le_of_subset hsub
  simpa using this

/-- **C11.** When a misprediction is broadcast, the mispredicted branch is in flight and the
instructions the broadcast squashes are exactly those decoded after it. -/
theorem C11_kill_exact {n maxBr : Nat} {s : Sys n} (h : Reach n maxBr s)
    (hm : (combBranch s.idu).mispred = true) :
    ∃ b ∈ s.win, b.tag = some (combBranch s.idu).brId ∧
      ∀ f ∈ s.win, killed (combBranch s.idu) f = true ↔ b.seq < f.seq := by
  have hm' : s.idu.latch.mispred = true := by
    unfold combBranch at hm; split at hm
    · assumption
    · cases hm
  have hid : (combBranch s.idu).brId = s.idu.latch.brId := by simp [combBranch, hm']
  obtain ⟨b, hb, hbt⟩ := (inv_reach h).br hm'
  exact ⟨b, hb, hid ▸ hbt, fun f hf => killed_iff (inv_reach h) hm' hb hbt hf⟩

/-- **C11.** A cycle without a misprediction squashes nothing, whatever branches resolve. -/
theorem C11_no_kill {n : Nat} {s : Sys n} (hm : (combBranch s.idu).mispred = false)
    (f : Flight n) : killed (combBranch s.idu) f = false := by
  simp [killed, hm]

/-- **C11.** The instructions in flight after the misprediction cycle are, in program order,
the ones up to and including the branch (minus those that retire): nothing younger survives
and nothing new is let in. -/
theorem C11_window {n maxBr : Nat} {s : Sys n} (h : Reach n maxBr s)
    (hm : (combBranch s.idu).mispred = true) (i : Input n) (hf : i.flush = false) :
    ∃ b ∈ s.win, b.tag = some (combBranch s.idu).brId ∧
      (stepSys maxBr s i).win.map Flight.seq =
        ((s.win.map Flight.seq).filter (fun k => k ≤ b.seq)).drop i.retire := by
  obtain ⟨b, hb, hbt, hk⟩ := C11_kill_exact h hm
  refine ⟨b, hb, hbt, ?_⟩
  have hm' : s.idu.latch.mispred = true := by
    unfold combBranch at hm; split at hm
    · assumption
    · cases hm
  unfold stepSys fired
  simp only [hf, hm', Bool.false_eq_true, if_false, Bool.or_true, Bool.true_or, if_true, number,
    List.append_nil, List.map_drop]
  congr 1
  unfold afterBcast
  simp only [List.map_map]
  have e1 : (Flight.seq ∘ survive (combBranch s.idu) : Flight n → Nat) = Flight.seq := rfl
  rw [e1, List.filter_map]
  congr 1
  apply List.filter_congr
  intro f hf
  have := hk f hf
  cases hkf : killed (combBranch s.idu) f
  · rw [hkf] at this; simp at this; simp [this]
  · rw [hkf] at this; simp at this; simp; omega

/-- A reachable state with two unresolved branches and a pending misprediction of the older
one: three instructions decoded (branch, add, branch), the first branch mispredicts in
the cycle in which a `jal`, which owns no tag, is reported as well (bit 0). -/
def exSys : Sys 4 :=
  stepSys 2 (stepSys 2 (stepSys 2 ⟨Idu.init 4, [], 0⟩
      ⟨[some true, some false], true, false, 0, Latch.none 4⟩)
      ⟨[some true, none], true, false, 0, Latch.none 4⟩)
    ⟨[], true, false, 0, ⟨true, 1, 0b0011#4⟩⟩

example : Reach 4 2 exSys ∧ (combBranch exSys.idu).mispred = true ∧
    exSys.win.map Flight.seq = [0, 1, 2] ∧ exSys.win.map Flight.tag = [some 1, none, some 2] ∧
    exSys.win.map (killed (combBranch exSys.idu)) = [false, true, true] := by
  refine ⟨?_, by decide, by decide, by decide, by decide⟩
  refine Reach.step _ (Reach.step _ (Reach.step _ Reach.init ?_) ?_) ?_
  · exact ⟨(by intro f hf; simp at hf), (by intro t _ ht; simp [Latch.none] at ht), (by intro h; cases h)⟩
  · exact ⟨(by intro f hf; simp at hf), (by intro t _ ht; simp [Latch.none] at ht), (by intro h; cases h)⟩
  · refine ⟨(by intro f hf; simp at hf), ?_, (by decide)⟩
    intro t h0 ht
    have h4 := BitVec.lt_of_getLsbD ht
    have : t = 1 := by
      have : ∀ t, t < 4 → 0 < t → (0b0011#4).getLsbD t = true → t = 1 := by decide
      exact this t h4 h0 ht
    subst this
    exact ⟨⟨0, 0#4, some 1⟩, by decide, rfl⟩

end Verif.Props

import Verif.Proofs.TopDown
import Verif.Props.Spine
/-
C130: the top-down counters account for every dispatch slot once, each level adds up to the one above, every instruction thrown away before dispatch
is a lost slot or still owed, and the four shares of the report are 100 % together.
-/
namespace Verif.Props
open Verif.TopDown Verif.TopDownProofs
open Verif.RobQueue (insts)

variable {n : Nat} {k : Spine.Cfg} {q : Ckpt} {s : Spine.St n} {p : Perf}

/-- C130: without a warm-up, every slot of every cycle is counted once: dispatched, held back by the back end, or empty. -/
theorem C130_total (hk : Spine.Good k) (hq : q.on = false) (h : TopDown.Reach q k s p) :
    p.issued + p.backend + p.frontend = k.dis.banks * p.cycle := (off_reach hk hq h).all

/-- C130: each slot that was not used has one reason on every level. -/
theorem C130_levels (h : TopDown.Reach q k s p) :
    p.backend = p.memLsu + p.coreIq + p.coreRob ∧ p.memLsu = p.l1 + p.ext ∧ p.ldqFull + p.stqFull ≤ p.l1 ∧
    p.frontend = (p.recMispred + p.recFlush) + p.pure ∧ p.pure = p.fetchLat + p.fetchBw ∧ p.waste = p.recMispred + p.recFlush :=
  let h := sums_reach h
  ⟨h.backend, h.mem, h.full, h.frontend, h.pure, h.waste⟩

/-- C130: the instructions thrown away before dispatch, counted where they were, are the slots counted as recovery plus those still owed. -/
theorem C130_squash (h : TopDown.Reach q k s p) :
    p.mispredRen + p.mispredDis = p.mispredTotal ∧ p.mispredTotal = p.recMispred + p.pendMispred ∧
    p.flushRen + p.flushDis = p.flushTotal ∧ p.flushTotal = p.recFlush + p.pendFlush := by
  have h := sums_reach h
  exact ⟨h.mispredOf.symm, by rw [h.mispred, Nat.add_comm], h.flushOf.symm, by rw [h.flush, Nat.add_comm]⟩

/-- C130: without a warm-up, what has retired and what is in the reorder buffer was dispatched. -/
theorem C130_retired (hk : Spine.Good k) (hq : q.on = false) (h : TopDown.Reach q k s p) :
    p.commits + (insts k.L s.rob).length ≤ p.issued := (off_reach hk hq h).rob

/-- C130, for runs without a warm-up: the four shares are 100 % together, and bad speculation is what was dispatched and did not retire.
Missing: runs from a checkpoint, where it fails (`C130_over`). -/
theorem C130_hundred_partial (hk : Spine.Good k) (hq : q.on = false) (h : TopDown.Reach q k s p) (hc : 0 < p.cycle) :
    (report p).frontend + (report p).backend + (report p).badSpec + (report p).retiring = (report p).total ∧
    (report p).total = k.dis.banks * p.cycle ∧ (report p).badSpec + p.commits = p.issued ∧ ((insts k.L s.rob).length : Int) ≤ (report p).badSpec := by
  obtain ⟨h1, h2, _⟩ := off_reach hk hq h
  have hb : 0 < k.dis.banks := by
    obtain ⟨m, hm⟩ := hk.banks
    rw [hm]
    exact Nat.two_pow_pos m
  have ht : 0 < k.dis.banks * p.cycle := Nat.mul_pos hb hc
  have h1 : p.issued + p.backend + p.frontend = k.dis.banks * p.cycle := h1
  have e : ((k.dis.banks : Int) * p.cycle) = ((k.dis.banks * p.cycle : Nat) : Int) := (Int.natCast_mul ..).symm
  rw [e]
  unfold report
  simp only
  rw [if_neg (by omega), if_neg (by omega)]
  refine ⟨?_, ?_, ?_, ?_⟩ <;> omega

/-- C130: whatever the warm-up, the instructions counted as retired exceed those counted as dispatched by at most what the reorder buffer and one
group hold, and so do the shares. -/
theorem C130_excess (hk : Spine.Good k) (h : TopDown.Reach q k s p) :
    p.commits ≤ p.issued + (k.L + 1) * k.dis.banks ∧
    (report p).frontend + (report p).backend + (report p).badSpec + (report p).retiring ≤ (report p).total + ((k.L + 1) * k.dis.banks : Nat) := by
  have h := over_reach hk h
  refine ⟨by omega, ?_⟩
  unfold report
  simp only
  split <;> split <;> omega

/-- C130: the report at decode, for runs without a warm-up: nothing is cut off - offered fits the slots, taken fits offered, and what has retired and
what is in flight was taken; so the shares are what they say and 100 % together. -/
theorem C130_decode (hk : Spine.Good k) (hq : q.on = false) (h : TopDown.Reach q k s p) (hc : 0 < p.cycle) :
    p.consumed = s.next ∧ p.commits + (Spine.inflight k s).length ≤ p.consumed ∧
    reportIdu k.dis.banks p = ⟨p.cycle * k.dis.banks, p.cycle * k.dis.banks - p.avail, p.avail - p.consumed, p.consumed - p.commits, p.commits⟩ := by
  obtain ⟨_, _, h3, h4, h5, h6⟩ := off_reach hk hq h
  have hb : 0 < k.dis.banks := by
    obtain ⟨m, hm⟩ := hk.banks
    rw [hm]
    exact Nat.two_pow_pos m
  have ht : 0 < p.cycle * k.dis.banks := Nat.mul_pos hc hb
  have e : ((p.cycle : Int) * k.dis.banks) = ((p.cycle * k.dis.banks : Nat) : Int) := (Int.natCast_mul ..).symm
  refine ⟨h5, h6, ?_⟩
  rw [e]
  unfold reportIdu
  simp only
  rw [if_neg (by omega), if_neg (by omega), if_neg (by omega), if_neg (by omega)]
  congr 1 <;> omega

/-- C130: at decode the shares are 100 % together in every run, also from a checkpoint, and none is negative. -/
theorem C130_decode_hundred (w : Nat) (p : Perf) : let r := reportIdu w p
    r.frontend + r.backend + r.badSpec + r.retiring = r.total ∧ 0 < r.total ∧ 0 ≤ r.frontend ∧ 0 ≤ r.backend ∧ 0 ≤ r.badSpec ∧ 0 ≤ r.retiring := by
  simp only [reportIdu]
  have ht : 0 < (if p.cycle * w = 0 then 1 else p.cycle * w) := by split <;> omega
  generalize (if p.cycle * w = 0 then 1 else p.cycle * w) = t at *
  have h1 : (if p.avail > t then t else p.avail) ≤ t := by split <;> omega
  generalize (if p.avail > t then t else p.avail) = a at *
  have h2 : (if p.consumed > a then a else p.consumed) ≤ a := by split <;> omega
  generalize (if p.consumed > a then a else p.consumed) = b at *
  have h3 : (if p.commits > b then b else p.commits) ≤ b := by split <;> omega
  generalize (if p.commits > b then b else p.commits) = d at *
  refine ⟨?_, ?_, ?_, ?_, ?_, ?_⟩ <;> omega

/-! ### Concrete runs -/
namespace TopDownRun
open SpineRun

def go (q : Ckpt) : List (Spine.Cyc 4) → Spine.St 4 → Perf → Spine.St 4 × Perf
  | [], s, p => (s, p)
  | c :: l, s, p => go q l (Spine.step kx s c) (perfStep q kx s c {} p)

theorem go_reach (q : Ckpt) : ∀ (l : List (Spine.Cyc 4)) {s : Spine.St 4} {p : Perf}, TopDown.Reach q kx s p → (SpineRun.run s l).isSome = true →
    (∀ c ∈ l, Packed c.ib) → TopDown.Reach q kx (go q l s p).1 (go q l s p).2
  | [], _, _, h, _, _ => h
  | c :: l, _, _, h, hr, hp => by
    rw [SpineRun.run] at hr
    split at hr
    · rename_i hc
      exact go_reach q l (.step c {} h (chk_valid hc) (hp c (List.mem_cons_self ..))) hr (fun x hx => hp x (List.mem_cons_of_mem _ hx))
    · cases hr

theorem packed : ∀ c ∈ SpineRun.prog, Packed c.ib := by
  have hq : Packed SpineRun.quiet.ib := ⟨[], 2, rfl⟩
  have hf : ∀ a b, Packed (SpineRun.fetch a b).ib := fun a b => ⟨[(a, false), (b, false)], 0, rfl⟩
  intro c hc
  simp only [SpineRun.prog, List.mem_cons, List.not_mem_nil, or_false] at hc
  rcases hc with rfl | rfl | rfl | rfl | rfl | rfl | rfl | rfl | rfl | rfl | rfl | rfl | rfl
  all_goals first | exact hq | exact hf _ _

def perf (q : Ckpt) (i : Nat) : Perf := (go q (SpineRun.prog.take i) (Spine.init 4 kx) {}).2

theorem reach (q : Ckpt) (i : Nat) : ∃ s : Spine.St 4, TopDown.Reach q kx s (perf q i) :=
  ⟨_, go_reach q _ .init (by
    by_cases hi : i < 13
    · have : ∀ i < 13, (SpineRun.run (Spine.init 4 kx) (SpineRun.prog.take i)).isSome = true := by decide +kernel
      exact this i hi
    · rw [List.take_of_length_le (by simp only [SpineRun.prog, List.length_cons, List.length_nil]; omega)]
      decide +kernel) (fun c hc => packed c (List.mem_of_mem_take hc))⟩

end TopDownRun
open TopDownRun

/-- C130: with a warm-up it fails.  The counters are set to 0 when the first instruction retires; the second one retires in the same cycle, counts as
retired, and was dispatched before: one cycle later two slots are accounted for, three are reported. -/
theorem C130_over : ∃ (s : Spine.St 4) (p : Perf), TopDown.Reach ⟨true, 1⟩ SpineRun.kx s p ∧ 0 < p.cycle ∧
    report p = ⟨2, 2, 0, 0, 1⟩ ∧
    (report p).total < (report p).frontend + (report p).backend + (report p).badSpec + (report p).retiring := by
  obtain ⟨s, h⟩ := reach ⟨true, 1⟩ 7
  exact ⟨s, _, h, by decide +kernel, by decide +kernel, by decide +kernel⟩

/-- The run without a warm-up: of 26 slots six were dispatched, five held back, fifteen empty, two of these for the two instructions the misprediction
threw away before dispatch; four instructions retired. -/
example : ∃ s : Spine.St 4, TopDown.Reach ⟨false, 0⟩ SpineRun.kx s (perf ⟨false, 0⟩ 13) := reach _ _
example : (perf ⟨false, 0⟩ 13).cycle = 13 ∧ (perf ⟨false, 0⟩ 13).issued = 6 ∧ (perf ⟨false, 0⟩ 13).backend = 5 ∧
    (perf ⟨false, 0⟩ 13).coreIq = 5 ∧ (perf ⟨false, 0⟩ 13).frontend = 15 ∧ (perf ⟨false, 0⟩ 13).recMispred = 2 ∧ (perf ⟨false, 0⟩ 13).mispredTotal = 2 ∧
    report (perf ⟨false, 0⟩ 13) = ⟨26, 15, 5, 2, 4⟩ := by decide +kernel

/-- At decode: eight instructions were offered, all eight taken, four retired. -/
example : (perf ⟨false, 0⟩ 13).avail = 8 ∧ (perf ⟨false, 0⟩ 13).consumed = 8 ∧
    reportIdu 2 (perf ⟨false, 0⟩ 13) = ⟨26, 18, 0, 4, 4⟩ := by decide +kernel
example : Spine.Good SpineRun.kx := SpineRun.kx_good

/-- After the misprediction both instructions are owed, one cycle before the slots they cost. -/
example : (perf ⟨false, 0⟩ 5).pendMispred = 2 ∧ (perf ⟨false, 0⟩ 5).mispredDis = 2 ∧ (perf ⟨false, 0⟩ 6).pendMispred = 0 := by decide +kernel

end Verif.Props

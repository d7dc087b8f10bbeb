import Verif.Spec.Driver
/-
C107, C108: what the simulator's exit status says about the guest program, and which instructions a checkpoint run measures.
-/
namespace Verif.Props
open Verif.Driver

/-! ### A run without a checkpoint -/

theorem commits_plain : ∀ (n : Nat) (x : Ctx), x.isCkpt = false →
    commits n x = { x with commitNum := x.commitNum + n, total := x.total + n }
  | 0, x, _ => rfl
  | n + 1, x, h => by
    have e : commitOne x = { x with commitNum := x.commitNum + 1, total := x.total + 1 } := by simp [commitOne, h]
    have h' : (commitOne x).isCkpt = false := by rw [e]; exact h
    rw [commits, commits_plain n _ h', e]
    simp only [Ctx.mk.injEq, true_and]
    omega

theorem beat_plain {b : Beat} {x : Ctx} (h : x.isCkpt = false) :
    beat b x = { x with commitNum := x.commitNum + b.commits, total := x.total + b.commits, reason := b.halt.getD x.reason } := by
  exact commits_plain b.commits { x with reason := b.halt.getD x.reason } h

theorem loop_max {max left t : Nat} {core : Nat → Beat} {x y : Ctx} (hy : beat (core t) x = y) (hs : (core t).sigint = false)
    (hm : max ≤ y.commitNum) : loop max core (left + 1) t x = .ret 0 { y with reason := .simpoint } := by
  subst hy
  simp [loop, hs, hm, report]

theorem loop_halt {max left t : Nat} {core : Nat → Beat} {x y : Ctx} (hy : beat (core t) x = y) (hs : (core t).sigint = false)
    (hm : y.commitNum < max) (hr : y.reason ≠ .none) : loop max core (left + 1) t x = report y (core t).a0 := by
  subst hy
  have hm' : ¬ max ≤ (beat (core t) x).commitNum := by omega
  simp [loop, hs, hm', hr]

theorem loop_go {max left t : Nat} {core : Nat → Beat} {x y : Ctx} (hy : beat (core t) x = y) (hs : (core t).sigint = false)
    (hm : y.commitNum < max) (hr : y.reason = .none) : loop max core (left + 1) t x = loop max core left (t + 1) y := by
  subst hy
  have hm' : ¬ max ≤ (beat (core t) x).commitNum := by omega
  simp [loop, hs, hm', hr]

/-- The state of the loop at the beginning of cycle `t` if nothing happened before. -/
def quietAt (x : Ctx) (core : Nat → Beat) (t : Nat) : Ctx :=
  { x with commitNum := x.commitNum + committed core t, total := x.total + committed core t }

theorem loop_prefix {max : Nat} {core : Nat → Beat} {x : Ctx} (hx : x.isCkpt = false) (hr : x.reason = .none) :
    ∀ (t left : Nat), (∀ i < t, (core i).halt = none ∧ (core i).sigint = false) →
      (t ≠ 0 → x.commitNum + committed core t < max) →
      loop max core (t + left) 0 x = loop max core left t (quietAt x core t)
  | 0, left, _, _ => by
    rw [Nat.zero_add]; congr 1
  | t + 1, left, hq, hc => by
    have hc' : x.commitNum + committed core (t + 1) < max := hc (by omega)
    simp only [committed] at hc'
    have ih := loop_prefix (max := max) hx hr t (left + 1) (fun i hi => hq i (by omega)) (fun _ => by omega)
    rw [show t + 1 + left = t + (left + 1) by omega, ih]
    have hb := beat_plain (b := core t) (x := quietAt x core t) hx
    obtain ⟨h1, h2⟩ := hq t (by omega)
    rw [h1] at hb
    rw [loop_go hb h2 (by simp only [quietAt]; omega) hr]
    congr 1
    simp only [quietAt, committed, Ctx.mk.injEq, true_and, Option.getD_none]
    omega

/-- C107: when the program ends in the core before the commit limit, the exit status is a0 after EBREAK and 0 after WFI.
Partial: see `C107_limit_status_lost` and `C107_fast_status_lost`. -/
theorem C107_status_partial {dflt time t : Nat} {o : Opts} {core : Nat → Beat} (ht : t < time) (hu : Undisturbed core t)
    (hh : (core t).halt = some .ebreak ∨ (core t).halt = some .wfi) (hl : committed core (t + 1) < o.maxCommit.getD dflt) :
    code (runMode dflt time o core) = if (core t).halt = some .ebreak then (core t).a0 else 0 := by
  obtain ⟨left, rfl⟩ : ∃ left, time = t + (left + 1) := ⟨time - t - 1, by omega⟩
  have hcm : committed core (t + 1) = committed core t + (core t).commits := rfl
  rw [runMode, loop_prefix rfl rfl t (left + 1) (fun i hi => ⟨hu.1 i hi, hu.2 i (by omega)⟩)
    (fun _ => by simp only [ctx0]; omega)]
  have hb := beat_plain (b := core t) (x := quietAt ctx0 core t) rfl
  rw [loop_halt hb (hu.2 t (by omega)) (by simp only [quietAt, ctx0]; omega) (by rcases hh with hh | hh <;> simp [hh])]
  rcases hh with hh | hh <;> simp [report, code, hh]

/-- C107: the same after fast-forwarding, if the program does not end during it. -/
theorem C107_fast_status_partial {dflt time t : Nat} {o : Opts} {ref : Nat → RefBeat} {core : Nat → Beat} (hf : 0 < o.fastForward)
    (hr : ∀ i < o.fastForward, (ref i).ended = false) (ht : t < time) (hu : Undisturbed core t)
    (hh : (core t).halt = some .ebreak ∨ (core t).halt = some .wfi) (hl : committed core (t + 1) < o.maxCommit.getD dflt) :
    (fastMode dflt time o ref core).map code = some (if (core t).halt = some .ebreak then (core t).a0 else 0) := by
  have hrun : ∀ (n i : Nat), (∀ j < i + n, (ref j).ended = false) → refRun ref n i = (i + n, .none) := by
    intro n
    induction n with
    | zero => intro i _; rfl
    | succ n ih =>
      intro i h
      rw [refRun, if_neg (by rw [h i (by omega)]; simp), ih (i + 1) (fun j hj => h j (by omega))]
      rw [show i + 1 + n = i + (n + 1) by omega]
  rw [fastMode, if_neg (by omega), hrun _ 0 (fun j hj => hr j (by omega))]
  have := C107_status_partial (o := o) ht hu hh hl
  rw [runMode] at this
  simp only [if_true, Option.map_some, Option.some.injEq]
  exact this

/-- C107: a program that does not end before stops within the commit group that reaches the limit, with status 0. -/
theorem C107_limit {dflt time t w : Nat} {o : Opts} {core : Nat → Beat} (ht : t < time) (hu : Undisturbed core t)
    (hw : (core t).commits ≤ w) (hl : committed core t < o.maxCommit.getD dflt)
    (hg : o.maxCommit.getD dflt ≤ committed core (t + 1)) :
    code (runMode dflt time o core) = 0 ∧ (final (runMode dflt time o core)).reason = .simpoint ∧
      o.maxCommit.getD dflt ≤ (final (runMode dflt time o core)).total ∧
      (final (runMode dflt time o core)).total < o.maxCommit.getD dflt + w := by
  obtain ⟨left, rfl⟩ : ∃ left, time = t + (left + 1) := ⟨time - t - 1, by omega⟩
  have hcm : committed core (t + 1) = committed core t + (core t).commits := rfl
  rw [runMode, loop_prefix rfl rfl t (left + 1) (fun i hi => ⟨hu.1 i hi, hu.2 i (by omega)⟩)
    (fun _ => by simp only [ctx0]; omega)]
  have hb := beat_plain (b := core t) (x := quietAt ctx0 core t) rfl
  rw [loop_max hb (hu.2 t (by omega)) (by simp only [quietAt, ctx0]; omega)]
  simp only [code, final, quietAt, ctx0, true_and]
  omega

/-- C107: a program that neither ends nor reaches the limit in time gives status 1. -/
theorem C107_timeout {dflt time : Nat} {o : Opts} {core : Nat → Beat} (hu : ∀ i < time, (core i).halt = none ∧ (core i).sigint = false)
    (hl : time ≠ 0 → committed core time < o.maxCommit.getD dflt) : code (runMode dflt time o core) = 1 := by
  have := loop_prefix (x := ctx0) (max := o.maxCommit.getD dflt) rfl rfl time 0 hu (by simpa [ctx0] using hl)
  rw [runMode, show time = time + 0 from rfl, this]; rfl

/-- The code violates C107 in `fast` mode: a program that ends with EBREAK while it is fast-forwarded gives status 0
whatever its a0 is, because the core's registers are read, not the reference's. -/
theorem C107_fast_status_lost {dflt time i : Nat} {o : Opts} {ref : Nat → RefBeat} {core : Nat → Beat}
    (hi : i < o.fastForward) (he : (ref i).ended = true) : (fastMode dflt time o ref core).map code = some 0 := by
  have key : ∀ (n j : Nat), j ≤ i → i < j + n → (refRun ref n j).2 ≠ .none := by
    intro n
    induction n with
    | zero => intro j h1 h2; omega
    | succ n ih =>
      intro j h1 h2
      rw [refRun]
      by_cases hj : (ref j).ended = true
      · rw [if_pos hj]; split <;> simp
      · rw [if_neg hj]
        have : j ≠ i := by rintro rfl; exact hj he
        exact ih (j + 1) (by omega) (by omega)
  have hk := key o.fastForward 0 (by omega) (by omega)
  rw [fastMode, if_neg (by omega)]
  simp only [hk, if_false, Option.map_some, Option.some.injEq]
  unfold report
  split <;> rfl

/-- It also loses a0 when the EBREAK is committed in the cycle that reaches the commit limit. -/
theorem C107_limit_status_lost {dflt time t : Nat} {o : Opts} {core : Nat → Beat} (ht : t < time) (hu : Undisturbed core t)
    (_hh : (core t).halt = some .ebreak) (ha : (core t).a0 ≠ 0)
    (hl : committed core t < o.maxCommit.getD dflt) (hg : o.maxCommit.getD dflt ≤ committed core (t + 1)) :
    code (runMode dflt time o core) ≠ (core t).a0 := by
  rw [(C107_limit ht hu (Nat.le_refl _) hl hg).1]
  exact fun h => ha h.symm

/-! ### Checkpoints -/

/-- C108: the reference's steps and the core's warm-up together are the checkpoint's interval. -/
theorem C108_plan {interval : Nat} {o : Opts} {p : Plan} (h : plan interval o = some p) :
    p.prewarm + p.warm = interval ∧ p.warm = o.warmup.getD interval ∧ p.max = o.maxCommit.getD interval := by
  unfold plan at h
  split at h
  · cases h
  · dsimp only at h
    split at h
    · cases h
    · rename_i _ h2
      simp only [Option.some.injEq] at h
      subst h
      exact ⟨Nat.sub_add_cancel (by omega), rfl, rfl⟩

theorem counts_one {x : Ctx} (h : Counts x) : Counts (commitOne x) ∧ (commitOne x).warm = x.warm ∧
    (commitOne x).meas = x.meas ∧ (commitOne x).total = x.total + 1 ∧
    ((commitOne x).reason = x.reason ∨ ((commitOne x).reason = .simpoint ∧ (commitOne x).perfStart = true ∧
      x.meas ≤ (commitOne x).commitNum)) ∧ (x.perfStart = true → (commitOne x).perfStart = true) := by
  obtain ⟨hc, h⟩ := h
  unfold commitOne Counts
  rcases h with ⟨hp, he, hl⟩ | ⟨hp, he⟩
  · by_cases hw : x.warm ≤ x.commitNum + 1
    · by_cases hm : x.meas ≤ 0
      · simp [hc, hp, hw, hm]; omega
      · simp [hc, hp, hw, hm]; omega
    · simp [hc, hp, hw]; omega
  · by_cases hm : x.meas ≤ x.commitNum + 1
    · simp [hc, hp, hm]; omega
    · simp [hc, hp, hm]; omega

theorem counts_beat : ∀ (n : Nat) {x : Ctx}, Counts x → Counts (commits n x) ∧ (commits n x).warm = x.warm ∧
    (commits n x).meas = x.meas ∧ (commits n x).total = x.total + n ∧
    ((commits n x).reason = x.reason ∨ ((commits n x).reason = .simpoint ∧ (commits n x).perfStart = true ∧
      x.meas ≤ (commits n x).commitNum)) ∧ (x.perfStart = true → (commits n x).perfStart = true)
  | 0, x, h => ⟨h, rfl, rfl, rfl, .inl rfl, id⟩
  | n + 1, x, h => by
    obtain ⟨a, b, c, d, e, f⟩ := counts_one h
    obtain ⟨a', b', c', d', e', f'⟩ := counts_beat n a
    rw [commits]
    refine ⟨a', b'.trans b, c'.trans c, by omega, ?_, fun h => f' (f h)⟩
    rcases e' with e' | ⟨e1, e2, e3⟩
    · rcases e with e | ⟨e1, e2, e3⟩
      · exact .inl (e'.trans e)
      · refine .inr ⟨e'.trans e1, f' e2, ?_⟩
        rcases a.2 with ⟨hh, _⟩ | ⟨_, h1⟩
        · rw [hh] at e2; cases e2
        · rcases a'.2 with ⟨hh, _⟩ | ⟨_, h2⟩
          · rw [f' e2] at hh; cases hh
          · rw [b'] at h2; omega
    · exact .inr ⟨e1, e2, by rw [← c]; exact e3⟩

/-- C108: a checkpoint run that is not ended by the program and whose limit is not below its warm-up skips exactly the
warm-up: the counters at the end cover the instructions after the first `warm` ones, and there are `max` of them, up to the
rest of the last commit group.  Partial: see `C108_never_measured`. -/
theorem C108_measured_partial {core : Nat → Beat} {w : Nat} (hw : ∀ i, (core i).commits ≤ w)
    (hh : ∀ i, (core i).halt = none) (hs : ∀ i, (core i).sigint = false) :
    ∀ (left t : Nat) (x : Ctx), Counts x → x.reason = .none → x.warm ≤ x.meas → (x.perfStart = true → x.commitNum < x.meas) →
      x.total = committed core t → x.warm + x.meas ≤ committed core (t + left) →
      code (loop x.meas core left t x) = 0 ∧ (final (loop x.meas core left t x)).reason = .simpoint ∧
      (final (loop x.meas core left t x)).perfStart = true ∧
      (final (loop x.meas core left t x)).total = x.warm + (final (loop x.meas core left t x)).commitNum ∧
      x.meas ≤ (final (loop x.meas core left t x)).commitNum ∧ (final (loop x.meas core left t x)).commitNum < x.meas + w
  | 0, t, x, hc, hr, hle, hlt, ht, hg => by
    exfalso
    rw [Nat.add_zero, ← ht] at hg
    rcases hc.2 with ⟨_, _, h⟩ | ⟨hp, h⟩
    · omega
    · have := hlt hp; omega
  | left + 1, t, x, hc, hr, hle, hlt, ht, hg => by
    have e0 : beat (core t) x = commits (core t).commits x := by
      rw [beat, hh t]; rfl
    obtain ⟨a, b, c, d, e, f⟩ := counts_beat (core t).commits hc
    generalize hy : commits (core t).commits x = y at *
    have htot : y.total = committed core (t + 1) := by rw [d, ht]; rfl
    have hcw := hw t
    by_cases hm : x.meas ≤ y.commitNum
    · have hps : y.perfStart = true := by
        rcases a.2 with ⟨hp, h1, h2⟩ | ⟨hp, _⟩
        · omega
        · exact hp
      have hy2 : y.total = x.warm + y.commitNum := by
        rcases a.2 with ⟨hp, _⟩ | ⟨_, h⟩
        · rw [hps] at hp; cases hp
        · rw [← b]; exact h
      rw [loop_max e0 (hs t) hm]
      simp only [code, final]
      refine ⟨trivial, trivial, hps, hy2, hm, ?_⟩
      rcases hc.2 with ⟨hp, h1, h2⟩ | ⟨hp, h1⟩
      · omega
      · have := hlt hp; omega
    · have hyr : y.reason = .none := by
        rcases e with e | ⟨_, _, e⟩
        · rw [e, hr]
        · omega
      rw [loop_go e0 (hs t) (by omega) hyr]
      have ih := C108_measured_partial hw hh hs left (t + 1) y a hyr (by rw [b, c]; exact hle) (fun _ => by rw [c]; omega) htot
        (by rw [b, c, show t + 1 + left = t + (left + 1) by omega]; exact hg)
      rw [b, c] at ih
      exact ih

/-- C108 for the whole mode: `warm ≤ max`. -/
theorem C108_mode_partial {interval time w : Nat} {o : Opts} {ref : Nat → RefBeat} {core : Nat → Beat} {p : Plan}
    (hp : plan interval o = some p) (hr : ∀ i < p.prewarm, (ref i).ended = false) (hle : p.warm ≤ p.max) (h0 : 0 < p.max)
    (hw : ∀ i, (core i).commits ≤ w) (hh : ∀ i, (core i).halt = none) (hs : ∀ i, (core i).sigint = false)
    (hg : p.warm + p.max ≤ committed core time) :
    ∃ r, ckptMode interval time o ref core = some r ∧ code r = 0 ∧ (final r).total = p.warm + (final r).commitNum ∧
      p.max ≤ (final r).commitNum ∧ (final r).commitNum < p.max + w ∧ (final r).perfStart = true := by
  have hrun : ∀ (n i : Nat), (∀ j < i + n, (ref j).ended = false) → refRun ref n i = (i + n, .none) := by
    intro n
    induction n with
    | zero => intro i _; rfl
    | succ n ih =>
      intro i h
      rw [refRun, if_neg (by rw [h i (by omega)]; simp), ih (i + 1) (fun j hj => h j (by omega))]
      rw [show i + 1 + n = i + (n + 1) by omega]
  rw [ckptMode, hp]
  refine ⟨_, rfl, ?_⟩
  simp only [hrun p.prewarm 0 (fun j hj => hr j (by omega)), if_true]
  have hc : Counts ⟨0, decide (p.warm = 0), true, p.warm, p.max, .none, 0⟩ := by
    refine ⟨rfl, ?_⟩
    by_cases h : p.warm = 0
    · right; simp [h]
    · left; simp [h]; omega
  have := C108_measured_partial hw hh hs time 0 _ hc rfl hle (fun _ => h0) rfl (by simpa using hg)
  exact ⟨this.1, this.2.2.2.1, this.2.2.2.2.1, this.2.2.2.2.2, this.2.2.1⟩

/-- The code violates C108 when the commit limit is below the warm-up: a cycle that ends with the limit reached and the
warm-up not yet done stops the run, and nothing is measured. -/
theorem C108_never_measured {core : Nat → Beat} {x : Ctx} {left t : Nat} (hc : Counts x)
    (hh : (core t).halt = none) (hs : (core t).sigint = false)
    (h1 : x.meas ≤ x.total + (core t).commits) (h2 : x.total + (core t).commits < x.warm) :
    (final (loop x.meas core (left + 1) t x)).perfStart = false ∧
      (final (loop x.meas core (left + 1) t x)).reason = .simpoint := by
  have e0 : beat (core t) x = commits (core t).commits x := by rw [beat, hh]; rfl
  obtain ⟨a, b, c, d, e, f⟩ := counts_beat (core t).commits hc
  generalize hy : commits (core t).commits x = y at *
  have hps : y.perfStart = false ∧ y.commitNum = y.total := by
    rcases a.2 with ⟨hp, h, _⟩ | ⟨_, h⟩
    · exact ⟨hp, h⟩
    · rw [b] at h; omega
  rw [loop_max e0 hs (by omega)]
  exact ⟨hps.1, rfl⟩

/-! ### Concrete runs -/
namespace DriverRun

/-- Three instructions per cycle; EBREAK with a0 = 7 in cycle 4. -/
def core : Nat → Beat := fun t => if t = 4 then ⟨1, some .ebreak, 7, false⟩ else ⟨3, none, 5, false⟩
def endless : Nat → Beat := fun _ => ⟨3, none, 5, false⟩
def fails : Nat → RefBeat := fun i => ⟨i == 6, false, 7⟩
def opts : Opts := ⟨10, none, none⟩

/-- The guest fails with code 7 and so does the simulator. -/
example : code (runMode 1000 100 opts core) = 7 := by decide +kernel
example : Undisturbed core 4 := ⟨by decide, by decide⟩

/-- Fast-forwarded over its end, the same guest is reported as successful. -/
example : (fastMode 1000 100 opts fails core).map code = some 0 ∧ (fails 6).ended = true ∧ (fails 6).a0 = 7 := by decide +kernel

/-- With `--max-commit 13` too: the EBREAK is the thirteenth instruction. -/
example : code (runMode 1000 100 { opts with maxCommit := some 13 } core) = 0 ∧ committed core 5 = 13 := by decide +kernel

/-- Interval 10, warm-up 4, limit 5: six steps on the reference, four instructions skipped, five measured. -/
example : plan 10 ⟨0, some 4, some 5⟩ = some ⟨4, 5, 6⟩ ∧
    (ckptMode 10 100 ⟨0, some 4, some 5⟩ (fun _ => ⟨false, false, 0⟩) endless).map (fun r => ((final r).total, (final r).commitNum)) =
      some (9, 5) := by decide +kernel

/-- The default warm-up is the interval: `--max-commit 5` on a checkpoint with interval 10 measures nothing. -/
example : (ckptMode 10 100 ⟨0, none, some 5⟩ (fun _ => ⟨false, false, 0⟩) endless).map
    (fun r => ((final r).total, (final r).perfStart, code r)) = some (6, false, 0) := by decide +kernel

end DriverRun
end Verif.Props

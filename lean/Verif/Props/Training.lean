import Verif.Model.HandOff
import Verif.Spec.Tage

/-!
C112: what the direction predictor learns from is the record of the prediction it made.  It is not, for the statistical corrector
and the loop table: `C112_partial` is what holds, `C112_lost`, `C112_deaf`, `C112_stray` what does not.
-/
namespace Verif.Props
open Verif.Tage
open Verif.Spec.Tage (train)
open Verif.HandOff (carried)

/-- Trainings whose records came through the hand-over. -/
def Carried (us : List Upd) : Prop := ∀ u ∈ us, ∃ m, u.m = carried m

/-- C112 fails: a branch at `0x80000010` is predicted with a loop entry, and trained with another one. -/
theorem C112_lost : ∃ k : Key, (carried (predict cfg0 (init cfg0) k)).loopIdx ≠ (predict cfg0 (init cfg0) k).loopIdx ∧
    (carried (predict cfg0 (init cfg0) k)).loopTag ≠ (predict cfg0 (init cfg0) k).loopTag := by
  refine ⟨⟨0x80000010#32, fun _ _ => 0, fun _ => false, 0⟩, ?_, ?_⟩ <;> decide +kernel

/-- What is left of the loop table: one entry, for tag 0. -/
theorem carried_inv {c : Cfg} {us : List Upd} (h : Carried us) : ∀ s : St, (∀ t x, s.scl t x = c.sclInit) → s.theta = c.thetaInit →
    (∀ x, x ≠ 0 → s.loop x = loopEmpty) → (s.loop 0).tag = 0 →
    let s' := train c s us
    (∀ t x, s'.scl t x = c.sclInit) ∧ s'.theta = c.thetaInit ∧ (∀ x, x ≠ 0 → s'.loop x = loopEmpty) ∧ (s'.loop 0).tag = 0 ∧
      s'.loop 0 = us.foldl (fun e u => loopNext c e 0 u.dir) (s.loop 0) := by
  induction us with
  | nil => intro s h1 h2 h3 h4; exact ⟨h1, h2, h3, h4, rfl⟩
  | cons u us ih =>
    intro s h1 h2 h3 h4
    obtain ⟨m, hm⟩ := h u List.mem_cons_self
    have hl : (update c s u).loop = fun x => if x = 0 then loopNext c (s.loop 0) 0 u.dir else s.loop x := by
      simp only [update, hm, carried, Nat.zero_mod]
    have htag : ∀ e : LoopE, e.tag = 0 → ∀ d, (loopNext c e 0 d).tag = 0 := by
      intro e he d
      grind [loopNext]
    have := ih (fun v hv => h v (List.mem_cons_of_mem _ hv)) (update c s u)
      (by intro t x; simp [update, hm, carried, sclTrain, h1])
      (by simp [update, hm, carried, thetaNext, h2])
      (by intro x hx; rw [hl]; simp only [if_neg hx]; exact h3 x hx)
      (by rw [hl]; simp only [if_true]; exact htag _ h4 _)
    refine ⟨this.1, this.2.1, this.2.2.1, this.2.2.2.1, ?_⟩
    rw [show train c s (u :: us) = train c (update c s u) us from rfl, this.2.2.2.2, List.foldl_cons, hl]
    simp only [if_true]

theorem fold_init (n : Nat) (h : 8 * n < 65536) : (List.range 8).foldl (fun a _ => (a + n) % 65536) 0 = 8 * n := by
  simp only [show List.range 8 = [0, 1, 2, 3, 4, 5, 6, 7] from rfl, List.foldl_cons, List.foldl_nil]
  omega

/-- C112 fails, and this is what follows: whatever branches are predicted and retired, the tables of the statistical corrector never
change, so that it never has a say; the loop table has none either, except for a branch whose entry and tag are both 0; for every
other branch the direction is that of the tagged tables alone. -/
theorem C112_deaf {c : Cfg} (h8 : 8 * c.sclInit < 65536) (ht : 0 < (c.thetaInit + c.margin) % 65536) {us : List Upd} (h : Carried us)
    (k : Key) (hk : ¬(loopIdx c k.pc = 0 ∧ loopTag c k.pc = 0)) :
    let s := train c (init c) us
    (∀ t x, s.scl t x = (init c).scl t x) ∧ (predict c s k).scUsed = false ∧ (predict c s k).loopUsed = false ∧
      (predict c s k).pred =
        (select c (s.base (baseIdx c k.pc)) (row c s k) (tagOf c k.pc k.fh) (s.sc (scIdx c k.pc)) s.useAlt).1 := by
  obtain ⟨h1, h2, h3, h4, _⟩ := carried_inv h (init c) (fun _ _ => rfl) rfl (fun _ _ => rfl) rfl
  intro s
  have hsum : sclSum c s k = sclBias c := by
    unfold sclSum sclBias
    rw [show (fun (a t : Nat) => (a + s.scl t (sclIdx c k.pc k.ghr k.path t)) % 65536) = fun a _ => (a + c.sclInit) % 65536 from
      funext fun a => funext fun t => by rw [h1]]
    exact fold_init _ h8
  have hsc : (predict c s k).scUsed = false := by
    simp only [predict, hsum]
    rw [h2]
    have : decide ((c.thetaInit + c.margin) % 65536 ≤ absDiff (sclBias c) (sclBias c)) = false := by
      simp [absDiff]; omega
    rw [this, Bool.and_false]
  have hlp : loopSays c (s.loop (loopIdx c k.pc)) (loopTag c k.pc) = none := by
    by_cases hi : loopIdx c k.pc = 0
    · have hne : loopTag c k.pc ≠ 0 := fun ht => hk ⟨hi, ht⟩
      unfold loopSays
      rw [hi, h4]
      have : (0 == loopTag c k.pc) = false := by simpa using Ne.symm hne
      rw [this]; simp
    · rw [h3 _ hi]; rfl
  have hlu : (predict c s k).loopUsed = false := by simp [predict, hlp]
  refine ⟨h1, hsc, hlu, ?_⟩
  have hp : (predict c s k).pred = if (predict c s k).loopUsed then (loopSays c (s.loop (loopIdx c k.pc)) (loopTag c k.pc)).getD false
      else if (predict c s k).scUsed then (predict c s k).scPred
      else (select c (s.base (baseIdx c k.pc)) (row c s k) (tagOf c k.pc k.fh) (s.sc (scIdx c k.pc)) s.useAlt).1 := rfl
  rw [hp, hlu, hsc]
  rfl

/-- C112, the part that holds: after any trainings, training a branch with the record that comes back and training it with the
record of its prediction leave the same base table, tagged tables, corrector counters, choice counter and random state.  Missing:
the tables of the statistical corrector and of the loop predictor (`C112_deaf`), and branches whose loop entry and tag are both 0
(`C112_stray`). -/
theorem C112_partial {c : Cfg} (h8 : 8 * c.sclInit < 65536) (ht : 0 < (c.thetaInit + c.margin) % 65536) {us : List Upd} (h : Carried us)
    (k : Key) (hk : ¬(loopIdx c k.pc = 0 ∧ loopTag c k.pc = 0)) (d : Bool) :
    let s := train c (init c) us
    let m := predict c s k
    let a := update c s ⟨k.pc, d, carried m⟩
    let b := update c s ⟨k.pc, d, m⟩
    a.base = b.base ∧ a.tn = b.tn ∧ a.sc = b.sc ∧ a.useAlt = b.useAlt ∧ a.lsfr = b.lsfr ∧ a.rst = b.rst := by
  obtain ⟨_, h1, h2, _⟩ := C112_deaf h8 ht h k hk
  intro s m
  have hs : m.scUsed = false := h1
  have hl : m.loopUsed = false := h2
  have hu : ∀ e : Ent, provUseful e ⟨k.pc, d, carried m⟩ = provUseful e ⟨k.pc, d, m⟩ := by
    intro e; simp only [provUseful, carried, hs, hl]; rfl
  have ha : ∀ rows rand, allocTab rows ⟨k.pc, d, carried m⟩ rand = allocTab rows ⟨k.pc, d, m⟩ rand := fun _ _ => rfl
  have hg : ∀ rows, agesTabs rows ⟨k.pc, d, carried m⟩ = agesTabs rows ⟨k.pc, d, m⟩ := fun _ => rfl
  have hr : ∀ rows rand i, newRow rows ⟨k.pc, d, carried m⟩ rand i = newRow rows ⟨k.pc, d, m⟩ rand i := by
    intro rows rand i
    simp only [newRow, ha, hg, hu]
    rfl
  have hw : ∀ rows rand i, usefulWe rows ⟨k.pc, d, carried m⟩ rand i = usefulWe rows ⟨k.pc, d, m⟩ rand i := by
    intro rows rand i
    simp only [usefulWe, ha, hg, hu]
    rfl
  have hurow : urow c s ⟨k.pc, d, carried m⟩ = urow c s ⟨k.pc, d, m⟩ := rfl
  have hsc : ∀ e v, scNext c e ⟨k.pc, d, carried m⟩ v = scNext c e ⟨k.pc, d, m⟩ v := by
    intro e v; simp only [scNext, carried, hs, hl]; rfl
  refine ⟨rfl, ?_, ?_, rfl, rfl, rfl⟩
  · funext i r
    simp only [update, hurow, hr, hw]
    rfl
  · funext x
    simp only [update, hurow, hsc]
    rfl

/-- The committed sizes meet the hypotheses, and a branch with another entry exists. -/
example : 8 * cfg0.sclInit < 65536 ∧ 0 < (cfg0.thetaInit + cfg0.margin) % 65536 ∧
    ¬(loopIdx cfg0 0x80000010#32 = 0 ∧ loopTag cfg0 0x80000010#32 = 0) := by decide +kernel

/-- A record as it comes back for a branch not taken, with no provider. -/
def plainRec : Meta := carried (predict cfg0 (init cfg0) ⟨0x80000010#32, fun _ _ => 0, fun _ => false, 0⟩)

/-- `n` times taken, once not. -/
def trips (n : Nat) : List Upd := List.replicate n ⟨0x80000010#32, true, plainRec⟩ ++ [⟨0x80000010#32, false, plainRec⟩]

/-- Trainings as `C112_partial` and `C112_deaf` ask for: a loop of three trips. -/
example : Carried (trips 3) ∧ (trips 3).length = 4 :=
  ⟨fun u hu => by
    rw [trips, List.mem_append] at hu
    rcases hu with hu | hu
    · rw [(List.mem_replicate.mp hu).2]; exact ⟨_, rfl⟩
    · rw [List.mem_singleton.mp hu]; exact ⟨_, rfl⟩, by decide⟩

/-- C112 fails the other way round, too: for an address whose entry and tag are 0 the loop table speaks with the experience of other
branches: all of them are trained into that entry. -/
theorem C112_stray : ∃ us : List Upd, Carried us ∧ (∀ u ∈ us, u.pc = 0x80000010#32) ∧ loopIdx cfg0 0x80000010#32 ≠ 0 ∧
    loopIdx cfg0 0#32 = 0 ∧
    loopSays cfg0 ((train cfg0 (init cfg0) us).loop (loopIdx cfg0 0#32)) (loopTag cfg0 0#32) = some true := by
  have hrec : ∀ n, ∀ u ∈ trips n, u.m = plainRec ∧ u.pc = 0x80000010#32 := by
    intro n u hu
    rw [trips, List.mem_append] at hu
    rcases hu with hu | hu
    · rw [(List.mem_replicate.mp hu).2]; exact ⟨rfl, rfl⟩
    · rw [List.mem_singleton.mp hu]; exact ⟨rfl, rfl⟩
  let us := trips 3 ++ trips 3 ++ trips 3 ++ trips 3 ++ trips 3 ++ trips 3 ++ trips 3 ++ trips 3 ++ trips 3
  have hall : ∀ u ∈ us, u.m = plainRec ∧ u.pc = 0x80000010#32 := by
    intro u hu
    simp only [us, List.mem_append] at hu
    have : u ∈ trips 3 := by
      rcases hu with (((((((hu | hu) | hu) | hu) | hu) | hu) | hu) | hu) | hu <;> exact hu
    exact hrec 3 u this
  have hc : Carried us := fun u hu => ⟨_, (hall u hu).1⟩
  refine ⟨us, hc, fun u hu => (hall u hu).2, by decide +kernel, by decide +kernel, ?_⟩
  have hl := (carried_inv (c := cfg0) hc (init cfg0) (fun _ _ => rfl) rfl (fun _ _ => rfl) rfl).2.2.2.2
  rw [show loopIdx cfg0 0#32 = 0 by decide +kernel, hl]
  decide +kernel

end Verif.Props

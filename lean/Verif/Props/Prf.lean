import Verif.Proofs.Prf
import Verif.Props.Exu
/-
C26, C48: reading registers.  `Prf.Spec.Reach s` ranges over every state of the register file
under arbitrary deliveries and broadcasts, `s.val p` is the value last delivered for `p`
(`Verif.Spec.PrfView`).  `Core.Available` describes every run of the execution ports and the
register file from the cycle in which a result is first broadcast.
-/
namespace Verif.Props
open Verif.Exu Verif.Exu.Spec Verif.Prf Verif.Prf.Spec Verif.Prf.Proofs

variable {n : Nat}

/-- C26: a result being broadcast is what a reader of its register gets, whatever older value the
register has (the first broadcast, should there be several). -/
theorem C26_bypass (s : State n) (p : Nat) (pre post : List (Option (Op n))) (o : Op n)
    (hpre : ∀ o', some o' ∈ pre → ¬ Writes p o') (ho : Writes p o) :
    readOperand p true s (pre ++ some o :: post) = o.result := by
  show bypRead p _ _ = _
  unfold bypRead
  rw [List.findSome?_append]
  have : pre.findSome? (hit p) = none := by
    rw [List.findSome?_eq_none_iff]
    intro e he
    cases e with
    | none => rfl
    | some o' => rw [hit_eq, if_neg (hpre o' he)]
  rw [this, Option.none_or, List.findSome?_cons, hit_eq, if_pos ho]
  rfl

/-- C26: when no result for it is being broadcast, a register reads as the value last delivered
for it, from the very next cycle on and for ever until the next delivery. -/
theorem C26_latest {s : Sys n} (h : Prf.Spec.Reach s) {p : Nat} (hp : p ≠ 0) {byp : List (Option (Op n))}
    (hb : ∀ o, some o ∈ byp → ¬ Writes p o) : readOperand p true s.prf byp = s.val p := by
  show bypRead p _ _ = _
  rw [bypRead_none hb, inv_val h p hp]

/-- C26: a source that is not used reads as zero. -/
theorem C26_unused (s : State n) (p : Nat) (byp : List (Option (Op n))) :
    readOperand p false s byp = 0#32 := rfl

/-- C26: register 0 holds zero in every reachable state … -/
theorem C26_x0_stored {s : Sys n} (h : Prf.Spec.Reach s) : s.prf.file 0 = 0#32 := file_zero h

/-- C26: … and reads as zero, provided that nothing in flight claims to write it.  The last
hypotheses cannot be dropped and do not hold for the program: see `C26_x0_polluted`. -/
theorem C26_x0_partial {s : Sys n} (h : Prf.Spec.Reach s) {byp : List (Option (Op n))}
    (hs : ∀ o, some o ∈ s.prf.stage → ¬ Writes 0 o) (hb : ∀ o, some o ∈ byp → ¬ Writes 0 o) :
    readOperand 0 true s.prf byp = 0#32 := by
  show bypRead 0 _ _ = _
  rw [bypRead_none hb, stageRead_none hs, file_zero h]

/-- C26: no value for register 0 survives the write-back stage: two cycles after a delivery the
register reads as zero again. -/
theorem C26_x0_recovers {s : Sys n} (h : Prf.Spec.Reach s) (c : Ctl n) {entry byp : List (Option (Op n))}
    (he : ∀ o, some o ∈ entry → ¬ Writes 0 o) (hb : ∀ o, some o ∈ byp → ¬ Writes 0 o) :
    readOperand 0 true (s.step c entry).prf byp = 0#32 := by
  refine C26_x0_partial (Prf.Spec.Reach.step c entry s h) ?_ hb
  intro o ho hw
  obtain ⟨e, he', hh⟩ := List.mem_map.1 ho
  cases e with
  | none => by_cases hf : c.flush = true <;> simp [hf] at hh
  | some o' =>
    rw [pipe_one] at hh
    by_cases hc : cancelled c o'
    · simp [hc] at hh
    · rw [if_neg hc] at hh
      cases hh
      exact he o' he' hw

/-- C48: from the first cycle in which a result is broadcast by an arithmetic port, every reader of
the register gets it: while the unit waits for the port, in the cycle after the port took it, and
later, for as long as the register has no other producer. -/
theorem C48_available {opCsr alu p : Nat} {v : BitVec 32} {t : Nat} {s : Core n} {x : Input n}
    {st : Option (Nat × Nat × Op n)} (hp : p ≠ 0) (h : Core.Available opCsr alu p v t s x st) :
    readOperand p true s.reg.prf (s.bypass t x) = v :=
  available_read hp h

/-- C48: a loaded value is announced in the cycle after its delivery (unless a misprediction of that
cycle cancels the load) … -/
theorem C48_load_announced (isLoad : Nat → Bool) (width : Nat) (c c' : Ctl n) (s : Sys n)
    (entry : List (Option (Op n))) (hw : (entry.filterMap (fun e => e.filter (fun o => isLoad o.op))).length ≤ width)
    (p : Nat) :
    p ∈ awake isLoad width c' (s.step c entry).prf ↔
      ∃ o, some o ∈ entry ∧ isLoad o.op = true ∧ Writes p o ∧ ¬ cancelled c o ∧
        ¬ cancelled { c' with flush := false } (resolve c o) := by
  have hone : ∀ o : Op n, brKilled c' (resolve c o) = true ↔
      cancelled { c' with flush := false } (resolve c o) := by
    intro o
    have := Exu.Proofs.brKilled_eq { c' with flush := false } (resolve c o)
    simp only [Bool.false_or] at this
    have e : brKilled c' (resolve c o) = brKilled { c' with flush := false } (resolve c o) := rfl
    rw [e, this, decide_eq_true_eq]
  have hlen : ((pipeline c entry).filterMap (fun e => e.bind (fun o : Op n =>
      if o.destEn && isLoad o.op && !brKilled c' o then some o.dest else none))).length ≤ width := by
    refine Nat.le_trans ?_ hw
    clear hw
    unfold pipeline
    induction entry with
    | nil => simp
    | cons e l ih =>
      cases e with
      | none => simpa using ih
      | some o =>
        rw [List.map_cons, pipe_one]
        by_cases hl : isLoad o.op = true
        · have e2 : ((some o :: l).filterMap (fun e => e.filter (fun o : Op n => isLoad o.op))).length =
              (l.filterMap (fun e => e.filter (fun o : Op n => isLoad o.op))).length + 1 := by
            simp [hl, Option.filter]
          rw [e2, List.filterMap_cons]
          split
          · exact Nat.le_succ_of_le ih
          · simpa using ih
        · have e2 : ((some o :: l).filterMap (fun e => e.filter (fun o : Op n => isLoad o.op))).length =
              (l.filterMap (fun e => e.filter (fun o : Op n => isLoad o.op))).length := by
            simp [hl, Option.filter]
          rw [e2, List.filterMap_cons]
          split
          · exact ih
          · rename_i h
            exfalso
            by_cases hc : cancelled c o
            · simp [hc] at h
            · have : isLoad (resolve c o).op = false := by simpa [resolve] using hl
              simp [hc, this] at h
  show p ∈ List.take width ((pipeline c entry).filterMap (fun e => e.bind (fun o : Op n =>
      if o.destEn && isLoad o.op && !brKilled c' o then some o.dest else none))) ↔ _
  rw [List.take_of_length_le hlen, List.mem_filterMap]
  constructor
  · rintro ⟨e, he, hh⟩
    obtain ⟨e', he', rfl⟩ := List.mem_map.1 he
    cases e' with
    | none => by_cases hf : c.flush = true <;> simp [hf] at hh
    | some o =>
      rw [pipe_one] at hh
      by_cases hc : cancelled c o
      · simp [hc] at hh
      · rw [if_neg hc] at hh
        simp only [Option.bind_some] at hh
        split at hh
        · rename_i hcond
          simp only [Bool.and_eq_true, Bool.not_eq_true'] at hcond
          cases hh
          refine ⟨o, he', hcond.1.2, ⟨hcond.1.1, rfl⟩, hc, fun h => ?_⟩
          rw [(hone o).2 h] at hcond
          exact absurd hcond.2 (by simp)
        · cases hh
  · rintro ⟨o, ho, hl, hwr, hc, hk⟩
    refine ⟨some (resolve c o), List.mem_map.2 ⟨some o, ho, ?_⟩, ?_⟩
    · rw [pipe_one, if_neg hc]
    · have h1 : brKilled c' (resolve c o) = false := by
        cases hb : brKilled c' (resolve c o) with
        | false => rfl
        | true => exact absurd ((hone o).1 hb) hk
      have h2 : (resolve c o).destEn = true := hwr.1
      have h3 : isLoad (resolve c o).op = true := hl
      have h4 : (resolve c o).dest = p := hwr.2
      simp [h1, h2, h3, h4]

/-- C48: … and is what a reader gets in that cycle. -/
theorem C48_load_readable {s : Sys n} (h : Prf.Spec.Reach s) {p : Nat} (hp : p ≠ 0) {c : Ctl n}
    {entry byp : List (Option (Op n))} {o : Op n} (ho : some o ∈ entry) (hw : Writes p o)
    (hc : ¬ cancelled c o) (hu : ∀ o', some o' ∈ entry → Writes p o' → o' = o)
    (hb : ∀ o', some o' ∈ byp → ¬ Writes p o') :
    readOperand p true (s.step c entry).prf byp = o.result := by
  rw [C26_latest (Prf.Spec.Reach.step c entry s h) hp hb]
  exact deliver_some (fun o' ho' hw' => by rw [hu o' ho' hw']) ho hw hc

namespace PrfRun
open ExuRun

/-- The value read from x0 is not zero: in the cycle after a load with destination x0 (which rename
gives physical register 0, Ren.cpp:110, 162) has been written back, any instruction that reads
x0 gets the loaded value. -/
theorem C26_x0_polluted :
    ∃ s : Sys 16, Prf.Spec.Reach s ∧
      s = Sys.step quiet [none, none, some (loadWb 4 { op 1 4 0 0 with destEn := false, dest := 0 } 0xDEAD#32)]
        ⟨Prf.init 16 3, fun _ => 0#32⟩ ∧
      readOperand 0 true s.prf [] = 0xDEAD#32 :=
  ⟨_, .step _ _ _ (.init 3), rfl, by decide +kernel⟩

/-- A read that meets the hypotheses of `C26_latest`: register 9 was delivered twice, the second
delivery is still in the write-back stage. -/
def twice : Sys 16 :=
  Sys.step quiet [some { op 2 1 0 0 with dest := 9, result := 22#32 }]
    (Sys.step quiet [some { op 1 1 0 0 with dest := 9, result := 11#32 }] ⟨Prf.init 16 1, fun _ => 0#32⟩)

example : Prf.Spec.Reach twice ∧ readOperand 9 true twice.prf [] = 22#32 ∧ twice.prf.file 9 = 11#32 :=
  ⟨.step _ _ _ (.step _ _ _ (.init 1)), by decide +kernel, by decide +kernel⟩

/-- … while a broadcast for register 9 overrides both. -/
example : readOperand 9 true twice.prf
    ([none, some { op 5 1 0 0 with dest := 8 }] ++ some { op 3 1 0 0 with dest := 9, result := 33#32 } :: []) = 33#32 :=
  C26_bypass _ _ _ _ _ (by
    intro o' ho'
    simp only [List.mem_cons, reduceCtorEq, Option.some.injEq, List.not_mem_nil, or_false, false_or] at ho'
    subst ho'
    decide +kernel) (by decide +kernel)

/-- Two loads written back in one cycle; both are announced. -/
example : awake (· == 4) 2 quiet
    (Sys.step quiet [some { op 1 4 0 0 with dest := 9 }, some { op 2 4 0 0 with dest := 10 }]
      ⟨Prf.init 16 1, fun _ => 0#32⟩).prf = [9, 10] := by decide +kernel

/-! A run for C48 on port 0 of the shipped configuration (`ExuRun.busy`): the ADD with payload 13
(destination 23) is broadcast in cycle 3 but multiplication 12 wins the port; it is broadcast
again and taken in cycle 4, read from the write-back stage in cycle 5 and from the file in 6. -/

def inp (e : Ctl 16 × Option (Op 16)) : Input 16 := ⟨e.1, fun _ => e.2, [], none⟩
def core0 : Core 16 := ⟨[start mulPort], ⟨Prf.init 16 1, fun _ => 0#32⟩⟩
def coreAt : Nat → Core 16
  | 0 => core0
  | t + 1 => (coreAt t).step 9 1 t (inp ((busy[t]?).getD (quiet, none)))
def inpAt (t : Nat) : Input 16 := inp ((busy[t]?).getD (quiet, none))

def quietB (p : Nat) (own : Option (Nat × Nat)) (t : Nat) (s : Core 16) (x : Input 16) : Bool :=
  (List.range s.ports.length).all (fun k => (List.range ((s.ports[k]?).getD []).length).all (fun i =>
    (s.offer t x k i).all (fun o => !decide (Writes p o) || own == some (k, i)))) &&
  x.lsu.all (fun e => e.all (fun o => !decide (Writes p o)))

theorem quiet_of {p : Nat} {own : Option (Nat × Nat)} {t : Nat} {s : Core 16} {x : Input 16}
    (h : quietB p own t s x = true) : s.Quiet p own t x := by
  simp only [quietB, Bool.and_eq_true, List.all_eq_true, List.mem_range] at h
  refine ⟨?_, ?_⟩
  · intro k i o ho hw
    obtain ⟨us, u, h1, h2, h3⟩ := offer_eq.1 ho
    have hk := (List.getElem?_eq_some_iff.1 h1).1
    have hi := (List.getElem?_eq_some_iff.1 h2).1
    have := h.1 k hk i (by simpa [h1] using hi)
    simpa [ho, hw] using this
  · intro o ho hw
    have := h.2 _ ho
    simp [hw] at this

theorem core_valid {t : Nat} {s : Core 16} {us : List (Spec.Unit 16)} {e : Ctl 16 × Option (Op 16)}
    (h1 : s.ports = [us]) (h2 : IssueOk e.1 t e.2 us) (h3 : e.1.flush = false) : s.Valid t (inp e) := by
  intro k us' hk
  rw [h1] at hk
  match k, hk with
  | 0, hk =>
    have : us = us' := by simpa using hk
    subst this
    obtain ⟨c, o⟩ := e
    refine ⟨?_, ?_⟩
    · rintro o' h
      have : o = some o' := h
      subst this
      exact h2
    · intro h
      have h' : c.flush = true := h
      have h'' : c.flush = false := h3
      rw [h''] at h'
      cases h'

def unitsAt (t : Nat) : List (Spec.Unit 16) := after 0 (start mulPort) ((busy ++ [(quiet, none)]).take t)

theorem ports_at : ∀ t, t ≤ 6 → (coreAt t).ports = [unitsAt t]
  | 0, _ => rfl
  | 1, _ => rfl
  | 2, _ => rfl
  | 3, _ => rfl
  | 4, _ => rfl
  | 5, _ => rfl
  | 6, _ => rfl
  | t + 7, h => by omega

theorem valid_at (t : Nat) (ht : t ≤ 6) : (coreAt t).Valid t (inpAt t) := by
  have h2 : ∀ t ≤ 6, IssueOk ((busy[t]?).getD (quiet, none)).1 t ((busy[t]?).getD (quiet, none)).2 (unitsAt t) := by
    decide +kernel
  have h3 : ∀ t ≤ 6, ((busy[t]?).getD (quiet, none)).1.flush = false := by decide +kernel
  exact core_valid (ports_at t ht) (h2 t ht) (h3 t ht)

theorem reach_at : ∀ t, t ≤ 6 → Core.Reach 9 1 t (coreAt t)
  | 0, _ => Core.Reach.init 0 1 [mulPort] (by
      intro xs hxs
      simp only [List.mem_singleton] at hxs
      subst hxs
      exact mulPort_ok)
  | t + 1, h => .step t _ (inpAt t) (reach_at t (by omega)) (valid_at t (by omega))

theorem run3 : Core.Available 9 1 23 7#32 3 (coreAt 3) (inpAt 3) (some (0, 1, op 13 1 0 0)) :=
  .first 3 _ _ 0 1 _ (reach_at 3 (by omega)) (valid_at 3 (by omega)) (by omega) (by decide +kernel)
    (by decide +kernel) rfl (by decide +kernel) (quiet_of (by decide +kernel))

theorem run4 : Core.Available 9 1 23 7#32 4 (coreAt 4) (inpAt 4) (some (0, 1, resolve (inpAt 4).c (op 13 1 0 0))) :=
  .keep 3 _ _ (inpAt 4) 0 1 _ run3 ⟨0, by omega, by decide +kernel⟩ (valid_at 4 (by omega)) (by decide +kernel)
    (quiet_of (by decide +kernel))

theorem run5 : Core.Available 9 1 23 7#32 5 (coreAt 5) (inpAt 5) none :=
  .take 4 _ _ (inpAt 5) 0 1 _ run4
    (by intro j hj; obtain rfl : j = 0 := by omega
        decide +kernel)
    (valid_at 5 (by omega)) (quiet_of (by decide +kernel))

theorem run6 : Core.Available 9 1 23 7#32 6 (coreAt 6) (inpAt 6) none :=
  .rest 5 _ _ (inpAt 6) run5 (valid_at 6 (by omega)) (quiet_of (by decide +kernel))

example : (coreAt 6).reg.prf.file 23 = 7#32 ∧ (coreAt 5).reg.prf.file 23 = 0#32 ∧
    readOperand 23 true (coreAt 4).reg.prf ((coreAt 4).bypass 4 (inpAt 4)) = 7#32 :=
  ⟨by decide +kernel, by decide +kernel, C48_available (by decide) run4⟩

end PrfRun
end Verif.Props

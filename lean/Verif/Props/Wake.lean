import Verif.Proofs.Wake
import Verif.Props.Exu
/-
C46: results with a latency are announced to waiting instructions exactly one cycle before they
can be read, and the announcement registers never overflow.  C47: two announcements never collide —
false as stated.
-/
namespace Verif.Props
open Verif.Exu Verif.Exu.Spec Verif.Exu.Proofs Verif.Wake Verif.Wake.Spec Verif.Wake.Proofs

variable {n : Nat} {k : Cls n} {t : Nat} {us : List (Exu.Spec.Unit n)}

/-- C46: the issue stage and the floating-point unit assume the same latency for every encoding. -/
theorem C46_fp_latency_agrees (f7 : BitVec 7) : isuFpLatency f7 = fpuLatency f7 := by
  revert f7
  decide +kernel

/-- C46, divider and floating-point unit: register `p` is announced in cycle `t` exactly when the
unit owes an operation for `p` that was handed over `lat` cycles ago … -/
theorem C46_iter_announces_iff {ss : List (Option (Entry n))} (h : IterReach k t us ss) (p : Nat) :
    (0, p) ∈ iterDue ss ↔
      ∃ o tin, (o, tin) ∈ owed k us ∧ o.destEn = true ∧ o.dest = p ∧ tin + o.lat = t := by
  obtain ⟨h1, hk, u, cur, s, hu, hcur, rfl, hs⟩ := iter_inv h
  have howed : owed k us = u.q := by simp [owed, hu]
  rw [howed]
  cases s with
  | none =>
    simp only [iterDue, List.zipIdx_cons, List.zipIdx_nil, List.filterMap_cons, List.filterMap_nil,
      List.not_mem_nil, false_iff]
    rintro ⟨o, tin, hm, hen, _, hl⟩
    have : tin + o.lat < t := hs (o, tin) hm hen
    omega
  | some e =>
    obtain ⟨o, tin, hq, hen, hpr, hbm, hcd⟩ := hs
    rw [hq]
    by_cases h0 : e.cd = 0
    · simp only [iterDue, List.zipIdx_cons, List.zipIdx_nil, List.filterMap_cons, List.filterMap_nil,
        h0, if_true, List.mem_singleton, Prod.mk.injEq, true_and]
      constructor
      · rintro rfl; exact ⟨o, tin, ⟨rfl, rfl⟩, hen, hpr.symm, by omega⟩
      · rintro ⟨o', tin', ⟨rfl, rfl⟩, _, h5, _⟩; rw [hpr, h5]
    · simp only [iterDue, List.zipIdx_cons, List.zipIdx_nil, List.filterMap_cons, List.filterMap_nil,
        h0, if_false, List.not_mem_nil, List.mem_singleton, Prod.mk.injEq, false_iff]
      rintro ⟨o', tin', ⟨rfl, rfl⟩, _, _, h5⟩
      omega

/-- C46: … so that in the next cycle, the first in which a woken instruction can issue, the unit
offers that very result (unless a flush or misprediction cancelled it in between). -/
theorem C46_iter_in_time {ss ss' : List (Option (Entry n))} (h : IterReach k t us ss) {p : Nat}
    (hp : (0, p) ∈ iterDue ss) {c c' : Ctl n} {inc inc' : Option (Op n)}
    (hv : Exu.Spec.Valid c t inc us) (hlat : ∀ o, inc = some o → k.isOp o.op = true → 2 ≤ o.lat)
    (hn : iterNext c (k.issued inc) ss = some ss')
    (hv' : Exu.Spec.Valid c' (t + 1) inc' (portStep c t inc us)) {r : CellOut n}
    (hr : (portGo c' (t + 1) false inc' ((portStep c t inc us).map (·.cell)))[k.unit]? = some r) :
    ∃ o, (∃ tin, (o, tin) ∈ owed k us) ∧ o.dest = p ∧
      (cancelled c o ∨ cancelled c' (resolve c o) ∨ r.offer = some (resolve c' (resolve c o))) := by
  obtain ⟨o, tin, hm, hen, hd, hl⟩ := (C46_iter_announces_iff h p).1 hp
  refine ⟨o, ⟨tin, hm⟩, hd, ?_⟩
  by_cases hc : cancelled c o
  · exact Or.inl hc
  by_cases hc' : cancelled c' (resolve c o)
  · exact Or.inr (Or.inl hc')
  refine Or.inr (Or.inr ?_)
  obtain ⟨h1, hk, u, cur, s, hu, hcur, rfl, hs⟩ := iter_inv h
  have hi := inv_reach h1
  obtain ⟨won, inc2, h2, hst⟩ := owed_step hi hk hv hu
  have howed : owed k us = u.q := by simp [owed, hu]
  rw [howed] at hm
  have hcap := capacity_of_rel (hi.rel u (List.mem_of_getElem? hu))
  have hq : u.q = [(o, tin)] := by
    simp only [capacity, hcur] at hcap
    match huq : u.q, hcap with
    | [e], _ => rw [huq] at hm; simp only [List.mem_singleton] at hm; rw [hm]
    | [], _ => rw [huq] at hm; cases hm
  have hsv : survivors c u.q = [(resolve c o, tin)] := by simp [hq, survivors, hc]
  have hdn : (cellStep c t won inc2 u.cell).del = none := by
    cases hd' : (cellStep c t won inc2 u.cell).del with
    | none => rfl
    | some d =>
      obtain ⟨tin', rest, h3, h4⟩ := (offer_iff h2.rel h2.wide d).1 (del_offer hd')
      rw [hsv] at h3
      simp only [List.cons.injEq, Prod.mk.injEq] at h3
      have h5 : d.lat = o.lat := by rw [← h3.1.1]; rfl
      simp only [delay, hcur] at h4
      omega
  have hr1 : Reach (t + 1) (portStep c t inc us) := .step t us c inc h1 hv
  refine (C25_announced_partial hr1 hv' hst hr _).2 ?_
  obtain ⟨cur', hcur'⟩ := iter_step (c := c) (t := t) (won := won) (inc := inc2) hcur
  refine ⟨tin, ?_⟩
  rw [hdn]
  simp only [settle, hsv, Option.isSome_none, Bool.false_eq_true, if_false, List.singleton_append]
  refine ⟨survivors c' (((inc.filter (fun o => k.isOp o.op)).map (resolve c)).toList.map
    (fun o => (o, t))), ?_, ?_⟩
  · simp [survivors, hc']
  · simp only [delay, hcur', resolve]; omega

/-- C46: the countdown slot is always free when an operation of the class is issued (the assertions
"DIV/FP 延迟唤醒槽位不足" cannot fail). -/
theorem C46_iter_no_overflow {ss : List (Option (Entry n))} (h : IterReach k t us ss) {c : Ctl n}
    {inc : Option (Op n)} (hv : Exu.Spec.Valid c t inc us)
    (hlat : ∀ o, inc = some o → k.isOp o.op = true → 2 ≤ o.lat) :
    ∃ ss', iterNext c (k.issued inc) ss = some ss' := by
  obtain ⟨h1, hk, u, cur, s, hu, hcur, rfl, hs⟩ := iter_inv h
  obtain ⟨s', h3, _⟩ := iter_slot_step (inv_reach h1) hk hv hu hcur hlat hs
  exact ⟨_, h3⟩

/-- C46, multiplier of latency `l ≥ 2`: register `p` is announced in cycle `t` exactly when the unit
owes an operation for `p` that will be delivered in cycle `t + 1`. -/
theorem C46_mul_announces_iff {l : Nat} (hl : 2 ≤ l) {ss : List (List (Option (Entry n)))}
    (h : MulReach k l t us ss) (p : Nat) :
    (0, p) ∈ mulDue ss ↔
      ∃ o tin, (o, tin) ∈ owed k us ∧ o.destEn = true ∧ o.dest = p ∧ tin + l = t + 1 := by
  obtain ⟨h1, hk, u, pp, hu, hfu, hs⟩ := mul_inv h
  have howed : owed k us = u.q := by simp [owed, hu]
  rw [howed]
  have hlen := hs.len
  have hlast : ss.getLast? = ss[l - 2]? := by
    rw [List.getLast?_eq_getElem?, hlen, Nat.sub_sub]
  have hlt : l - 2 < ss.length := by omega
  obtain ⟨s, hst⟩ := hs.shape ss[l - 2] (List.getElem_mem hlt)
  have hget : ss[l - 2]? = some [s] := by rw [List.getElem?_eq_getElem hlt, hst]
  have hdue : mulDue ss = (s.map (fun e => (0, e.preg))).toList := by
    unfold mulDue
    rw [hlast, hget]
    cases s <;> rfl
  rw [hdue]
  constructor
  · intro hm
    cases s with
    | none => simp at hm
    | some e =>
      obtain ⟨o, tin, h3, h4, h5, h6, h7⟩ := hs.sound (l - 2) e hget
      simp only [Option.map_some, Option.toList, List.mem_singleton, Prod.mk.injEq, true_and] at hm
      exact ⟨o, tin, h3, h5, by rw [← h6, hm], by omega⟩
  · rintro ⟨o, tin, h3, h5, h6, h7⟩
    obtain ⟨e, he, h8, h9, h10⟩ := hs.complete (l - 2) o tin h3 (by omega) (by omega) h5
    rw [hget] at he
    have : s = some e := by simpa using he
    rw [this]
    simp [h9, h6]

/-- C46: the multiplier's announcement register always has room. -/
theorem C46_mul_no_overflow {l : Nat} {ss : List (List (Option (Entry n)))}
    (h : MulReach k l t us ss) {c : Ctl n} {inc : Option (Op n)} (hv : Exu.Spec.Valid c t inc us) :
    ∃ ss', mulNext c (k.issued inc) ss = some ss' := by
  obtain ⟨h1, hk, u, pp, hu, hfu, hs⟩ := mul_inv h
  obtain ⟨s', h3, _⟩ := pipe_slot_step (inv_reach h1) hk hv hu hfu hs
  exact ⟨_, h3⟩

/-- C47: announcements of classes on different ports never collide: if the units that announce in a
cycle are on pairwise different ports, every announcement is on the bus.  (False when two classes
share a port, see `C47_collision`.) -/
theorem C47_bus_partial (divPort fpPort mulPort : Nat → Nat) (div fp : List (Option (Entry n)))
    (mul : List (List (Option (Entry n))))
    (hd : (((iterDue div).map (fun r => divPort r.1) ++ (iterDue fp).map (fun r => fpPort r.1)) ++
      (mulDue mul).map (fun r => mulPort r.1)).Nodup) :
    ∃ ch, delayedBus divPort fpPort mulPort div fp mul = .ok ch ∧
      (∀ r ∈ iterDue div, ch (divPort r.1) = some r.2) ∧
      (∀ r ∈ iterDue fp, ch (fpPort r.1) = some r.2) ∧
      (∀ r ∈ mulDue mul, ch (mulPort r.1) = some r.2) := by
  have key : ∀ (l : List (Nat × Nat)) (ch : Nat → Option Nat), (l.map (·.1)).Nodup →
      (∀ r ∈ l, ch r.1 = none) →
      ∃ ch', l.foldl (fun b r => b.drive r.1 r.2) (Bus.ok ch) = .ok ch' ∧
        (∀ r ∈ l, ch' r.1 = some r.2) ∧ ∀ p, (∀ r ∈ l, r.1 ≠ p) → ch' p = ch p := by
    intro l
    induction l with
    | nil => intro ch _ _; exact ⟨ch, rfl, by simp, fun _ _ => rfl⟩
    | cons r l ih =>
      intro ch hnd hfree
      rw [List.map_cons, List.nodup_cons] at hnd
      have hr := hfree r (by simp)
      obtain ⟨ch', h1, h2, h3⟩ := ih (fun p => if p = r.1 then some r.2 else ch p) hnd.2 (by
        intro r' hr'
        have hne : r'.1 ≠ r.1 := fun he => hnd.1 (List.mem_map.2 ⟨r', hr', he⟩)
        simp [hne, hfree r' (by simp [hr'])])
      refine ⟨ch', ?_, ?_, ?_⟩
      · rw [List.foldl_cons]
        show l.foldl _ (Bus.drive (.ok ch) r.1 r.2) = _
        simp only [Bus.drive, hr, Option.isSome_none, Bool.false_eq_true, if_false]
        exact h1
      · intro r' hr'
        rcases List.mem_cons.1 hr' with rfl | hr'
        · rw [h3 r'.1 (fun x hx he => hnd.1 (List.mem_map.2 ⟨x, hx, he⟩))]
          simp
        · exact h2 r' hr'
      · intro p hp
        rw [h3 p (fun x hx => hp x (by simp [hx]))]
        have : p ≠ r.1 := fun he => hp r (by simp) he.symm
        simp [this]
  obtain ⟨ch, h1, h2, _⟩ := key ((iterDue div).map (fun r => (divPort r.1, r.2)) ++
    (iterDue fp).map (fun r => (fpPort r.1, r.2)) ++ (mulDue mul).map (fun r => (mulPort r.1, r.2)))
    (fun _ => none) (by
      simpa [List.map_append, List.map_map, Function.comp_def] using hd) (by simp)
  refine ⟨ch, h1, ?_, ?_, ?_⟩
  · intro r hr
    exact h2 (divPort r.1, r.2) (by simp only [List.mem_append, List.mem_map]; exact Or.inl (Or.inl ⟨r, hr, rfl⟩))
  · intro r hr
    exact h2 (fpPort r.1, r.2) (by simp only [List.mem_append, List.mem_map]; exact Or.inl (Or.inr ⟨r, hr, rfl⟩))
  · intro r hr
    exact h2 (mulPort r.1, r.2) (by simp only [List.mem_append, List.mem_map]; exact Or.inr ⟨r, hr, rfl⟩)

/-! ### Concrete runs -/
namespace WakeRun
open ExuRun

/-- Port 1 of the shipped configuration: divider (operation 3), ALU (operation 1), floating-point
unit (operation 9). -/
def port1 : List (Cell 16) :=
  [⟨(· == 3), .iter none, none⟩, ⟨(· == 1), .single, none⟩, ⟨(· == 9), .iter none, none⟩]

theorem port1_ok : PortOk port1 := by
  constructor
  · intro x hx
    simp only [port1, List.mem_cons, List.not_mem_nil, or_false] at hx
    rcases hx with rfl | rfl | rfl
    · exact ⟨rfl, Or.inr (Or.inr rfl)⟩
    · exact ⟨rfl, Or.inl rfl⟩
    · exact ⟨rfl, Or.inr (Or.inr rfl)⟩
  · intro x hx
    simp only [port1, List.tail_cons, List.mem_cons, List.not_mem_nil, or_false] at hx
    rcases hx with rfl | rfl <;> (rintro ⟨l, p, h⟩; cases h)

def divCls : Cls 16 := ⟨(· == 3), 0⟩
def fpCls : Cls 16 := ⟨(· == 9), 2⟩

theorem divCls_only : divCls.Only port1 := by
  intro i x o hx hs
  match i with
  | 0 => cases hx; simpa [divCls] using hs
  | 1 => cases hx; simp only [beq_iff_eq] at hs; subst hs; decide
  | 2 => cases hx; simp only [beq_iff_eq] at hs; subst hs; decide
  | i + 3 => simp [port1] at hx

theorem fpCls_only : fpCls.Only port1 := by
  intro i x o hx hs
  match i with
  | 0 => cases hx; simp only [beq_iff_eq] at hs; subst hs; decide
  | 1 => cases hx; simp only [beq_iff_eq] at hs; subst hs; decide
  | 2 => cases hx; simpa [fpCls] using hs
  | i + 3 => simp [port1] at hx

/-- The wake-up slot of a class along a run. -/
def slotAfter (k : Cls 16) : List (Option (Entry 16)) → List (Ctl 16 × Option (Op 16)) →
    Option (List (Option (Entry 16)))
  | ss, [] => some ss
  | ss, (c, inc) :: rest => (iterNext c (k.issued inc) ss).bind (fun ss' => slotAfter k ss' rest)

theorem iterReach_of_legal (k : Cls 16) : ∀ (r : List (Ctl 16 × Option (Op 16))) (t : Nat)
    (us : List (Exu.Spec.Unit 16)) (ss ss' : List (Option (Entry 16))), IterReach k t us ss →
    Legal t us r → (∀ e ∈ r, e.1.flush = false) →
    (∀ e ∈ r, ∀ o, e.2 = some o → 2 ≤ o.lat) → slotAfter k ss r = some ss' →
    IterReach k (t + r.length) (after t us r) ss'
  | [], _, _, _, _, h, _, _, _, hs => by cases hs; exact h
  | (c, inc) :: rest, t, us, ss, ss', h, hl, hf, hla, hs => by
    have hv : Exu.Spec.Valid c t inc us := by
      refine ⟨?_, fun h' => ?_⟩
      · rintro o rfl; exact hl.1
      · have hff := hf (c, inc) (by simp)
        rw [show c.flush = true from h'] at hff; cases hff
    simp only [slotAfter] at hs
    cases hn : iterNext c (k.issued inc) ss with
    | none => rw [hn] at hs; cases hs
    | some ss1 =>
      rw [hn] at hs
      have := iterReach_of_legal k rest (t + 1) (portStep c t inc us) ss1 ss'
        (.step t us ss ss1 c inc h hv (fun o ho _ => hla (c, inc) (by simp) o ho) hn)
        hl.2 (fun e he => hf e (by simp [he])) (fun e he => hla e (by simp [he])) hs
      rw [List.length_cons, Nat.add_comm rest.length 1, ← Nat.add_assoc]
      exact this

/-- DIV (latency 18) issued in cycle 0, FADD (latency 5) in cycle 13, both on port 1. -/
def clash : List (Ctl 16 × Option (Op 16)) :=
  (quiet, some (op 1 3 18 0)) :: (List.replicate 12 (quiet, none) ++
    (quiet, some (op 2 9 5 0)) :: List.replicate 4 (quiet, none))

/-- Non-vacuity of C46: after the run the port and the divider's slot are a reachable state that
announces register 11. -/
theorem clash_div : IterReach divCls 18 (after 0 (start port1) clash) [some ⟨0, 11, 0#16⟩] :=
  iterReach_of_legal divCls clash 0 (start port1) [none] _
    (.init 0 port1 port1_ok divCls_only ⟨_, rfl, rfl⟩) (by decide +kernel) (by decide +kernel)
    (by decide +kernel) (by decide +kernel)

theorem clash_fp : IterReach fpCls 18 (after 0 (start port1) clash) [some ⟨0, 12, 0#16⟩] :=
  iterReach_of_legal fpCls clash 0 (start port1) [none] _
    (.init 0 port1 port1_ok fpCls_only ⟨_, rfl, rfl⟩) (by decide +kernel) (by decide +kernel)
    (by decide +kernel) (by decide +kernel)

example : iterDue [some (⟨0, 11, 0#16⟩ : Entry 16)] = [(0, 11)] := by decide +kernel

/-- C47 is false in the shipped configuration, where the divider and the floating-point unit share
port 1 and hence one announcement channel: in this reachable state both announce in the same cycle.
A debug build stops at the assertion "Delayed writeback collision"; a release build announces only
the floating-point result, and the divider's slot, now expired, never announces register 11 again:
instructions waiting for the quotient wait for ever. -/
theorem C47_collision :
    ∃ us div fp, IterReach divCls 18 us div ∧ IterReach fpCls 18 us fp ∧
      (0, 11) ∈ iterDue div ∧ (0, 12) ∈ iterDue fp ∧
      (delayedBus (fun _ => 1) (fun _ => 1) (fun _ => 0) div fp [[none]] matches .collision) = true ∧
      (∀ p, delayedBusRelease (fun _ => 1) (fun _ => 1) (fun _ => 0) div fp [[none]] p =
        if p = 1 then some 12 else none) ∧
      iterNext quiet [] div = some [none] := by
  refine ⟨_, _, _, clash_div, clash_fp, by decide +kernel, by decide +kernel, by decide +kernel,
    ?_, by decide +kernel⟩
  intro p
  by_cases hp : p = 1
  · subst hp; decide +kernel
  · simp [delayedBusRelease, iterDue, mulDue, hp]

/-- Non-vacuity of `C47_bus_partial`: the divider of port 1 and the multiplier of port 0 announce in the
same cycle, each on its channel. -/
example : ((((iterDue [some (⟨0, 11, 0#16⟩ : Entry 16)]).map (fun _ => 1) ++
    (iterDue [(none : Option (Entry 16))]).map (fun _ => 1)) ++
    (mulDue [[some (⟨0, 20, 0#16⟩ : Entry 16)]]).map (fun _ => 0))).Nodup := by decide +kernel

def mulCls : Cls 16 := ⟨(· == 2), 0⟩

theorem mulCls_only : mulCls.Only mulPort := by
  intro i x o hx hs
  match i with
  | 0 => cases hx; simpa [mulCls] using hs
  | 1 => cases hx; simp only [beq_iff_eq] at hs; subst hs; decide
  | i + 2 => simp [mulPort] at hx

/-- Non-vacuity of C46 for the multiplier: one cycle after a multiplication for register 21 was
issued, register 21 is announced. -/
example : MulReach mulCls 2 1 (after 0 (start mulPort) [(quiet, some (op 11 2 0 0))])
    [[some ⟨0, 21, 0#16⟩]] := by
  refine .step 0 (start mulPort) [[none]] _ quiet (some (op 11 2 0 0))
    (.init 0 mulPort mulPort_ok mulCls_only ⟨_, rfl, rfl⟩) ?_ (by decide +kernel)
  refine ⟨?_, by intro h; cases h⟩
  rintro o h
  cases h
  exact ⟨rfl, rfl, by decide +kernel⟩

example : mulDue [[some (⟨0, 21, 0#16⟩ : Entry 16)]] = [(0, 21)] := by decide +kernel

end WakeRun
end Verif.Props

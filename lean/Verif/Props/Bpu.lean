import Verif.Proofs.BpuRun
/-
C93–C97: the top of the branch predictor.
-/
namespace Verif.Props
open Verif.Bpu

theorem cfg0_ok : cfg0.Ok where
  fetchPos := by decide
  commitPos := by decide
  banksFetch := by decide
  banksCommit := by decide
  rasPos := by decide
  qCommit := by decide
  pathPos := by decide
  tn := by decide
  fh := by decide

theorem cfg0_lines : cfg0.Lines 6 := ⟨by decide, by decide, by decide⟩

/-- A quiet cycle: no redirect, the front end ready, nothing retired, nothing predicted. -/
def quiet : In := ⟨none, true, [], fun _ => .nonctl, fun _ => none, fun _ => none⟩

/-- A retired conditional branch, predicted correctly. -/
def condAt (pc : BitVec 32) (d : Bool) : Upd := ⟨pc, d, .direct, pc + 16#32, d, 0⟩

/-- A retired call and a retired return. -/
def callAt (pc : BitVec 32) : Upd := ⟨pc, true, .call, pc + 0x100#32, true, 0⟩
def retAt (pc : BitVec 32) : Upd := ⟨pc, true, .ret, pc + 0x100#32, true, 0⟩

/-! ### C93: training queues -/

/-- Each bank is trained with exactly the retired instructions of its addresses, each once, in retirement order. -/
theorem C93_order {c : Cfg} (ok : c.Ok) {pc0 : BitVec 32} {is : List In} {s : St} {os : List Out} (b : Nat)
    (h : run c (init pc0) is = some (s, os)) :
    os.filterMap (fun o => o.train b) ++ (s.bank b).waiting c = ofBank c b (reported is) := by
  have := run_queue b is (inv_init c ok pc0).bank h
  simpa [init, QBank.waiting] using this

/-- Whatever the reorder buffer does, the queues never overflow (the simulator never exits), although the stall does not stop
retirement. -/
theorem C93_no_overflow {c : Cfg} (ok : c.Ok) {pc0 : BitVec 32} {steps : List (RobIn × In)}
    (h : Paced c false (init pc0) steps) : (run c (init pc0) (steps.map Prod.snd)).isSome := by
  refine paced_run ok steps (inv_init c ok pc0).bank (fun _ k _ => ?_) h
  have := ok.qCommit
  show 0 + c.commitWidth ≤ c.qDepth
  omega

/-- The stall does not stop retirement: a complete instruction still retires in every stalled cycle. -/
theorem C93_stall_leaks {r : RobIn} {k : Nat} {u : Rob.Uop} (h : Rob.firstValid r.row = some (k, u)) (hm : r.mispred = false)
    (hi : r.intReq = false) (hc : Rob.complete u = true) (hf : Rob.isFlush u = false) (hg : Rob.isFence u = false) :
    retires true r = [u] := by
  have hv := firstValid_get h
  have hsome : r.row.any Option.isSome = true := List.any_eq_true.mpr ⟨some u, List.mem_of_getElem? hv, rfl⟩
  have ha : Rob.arbitrate r.row r.empty false true false r.storePending = .single k false := by
    unfold Rob.arbitrate
    dsimp only
    rw [h]
    simp [hsome, hc, hf, hg]
  unfold retires
  rw [hm, hi, ha]
  simp [Rob.commits, hv]

/-- An instruction waiting in a bank trains it after exactly as many cycles as there are instructions before it, so within the
depth of the queue. -/
theorem C93_wait {c : Cfg} (ok : c.Ok) {pc0 : BitVec 32} {is js : List In} {s s' : St} {os os' : List Out} {b k : Nat} {u : Upd}
    (h : run c (init pc0) is = some (s, os)) (hu : ((s.bank b).waiting c)[k]? = some u)
    (h' : run c s js = some (s', os')) (hk : k < js.length) :
    k < c.qDepth ∧ os'[k]?.map (fun o => o.train b) = some (some u) := by
  obtain ⟨L, hr, -⟩ := run_reach is (Reach.init (c := c) (pc0 := pc0)) h
  have hq := (reach_inv ok hr).bank
  refine ⟨?_, run_wait b js hq h' hu hk⟩
  have h1 := (List.getElem?_eq_some_iff.mp hu).1
  rw [waiting_length] at h1
  have h2 := (hq b).cnt
  omega

/-- Two branches of one bank retire together: they train it one after the other, in the two following cycles. -/
example : ((run cfg0 (init 0x80000000#32)
      [{ quiet with upds := [some (condAt 0x80000010#32 true), some (condAt 0x80000020#32 false)] }, quiet, quiet, quiet]).map
      (fun p => p.2.map (fun o => o.train 0))) =
    some [none, some (condAt 0x80000010#32 true), some (condAt 0x80000020#32 false), none] := by decide +kernel

/-- A reorder buffer that retires two instructions, then one under a stall. -/
example : ∃ steps : List (RobIn × In), steps.length = 2 ∧ (reported (steps.map Prod.snd)).length = 2 ∧
    Paced cfg0 false (init 0x80000000#32) steps := by
  let u : Rob.Uop := ⟨0, 0, false, .other, 1#3, 1#3, 0#32, false, false, false, false, false⟩
  refine ⟨[(⟨[some u, some u], false, false, false, false⟩,
            { quiet with upds := [some (condAt 0x80000010#32 true), some (condAt 0x80000020#32 false)] }),
           (⟨[none, none], true, false, false, false⟩, quiet)], rfl, rfl, ?_⟩
  refine Paced.cons rfl rfl (fun s' o _ => Paced.cons rfl ?_ (fun _ _ _ => Paced.nil))
  cases o.full <;> rfl

/-! ### C94: histories -/

/-- The retired history registers hold the outcomes of exactly the retired conditional branches, in order. -/
theorem C94_retired {c : Cfg} (ok : c.Ok) {pc0 : BitVec 32} {is : List In} {s : St} {os : List Out}
    (h : run c (init pc0) is = some (s, os)) : Reps c (history (reported is)) s.arch := by
  obtain ⟨L, hr, hl⟩ := run_reach is (Reach.init (c := c) (pc0 := pc0)) h
  have := (reach_inv ok hr).arch
  rwa [hl] at this

/-- The speculative history registers hold the outcomes of the logged speculative branches. -/
theorem C94_spec {c : Cfg} (ok : c.Ok) {pc0 : BitVec 32} {L : Log} {s : St} (h : Reach c pc0 L s) : Reps c L.spec s.spec :=
  (reach_inv ok h).spec

/-- A redirect makes the speculative history and stack exactly the retired ones, and the next fetch is at the given address. -/
theorem C94_redirect {c : Cfg} {s s' : St} {i : In} {o : Out} {a : BitVec 32} (h : cycle c s i = some (s', o))
    (hr : i.refetch = some a) :
    s'.spec = s'.arch ∧ s'.specRas = s'.archRas ∧ s'.pc = a ∧ o.ptabWrite = false := by
  unfold cycle at h
  dsimp only at h
  split at h
  · cases h
  · simp only [Option.some.injEq, Prod.mk.injEq] at h
    obtain ⟨rfl, rfl⟩ := h
    simp [hr]

/-- Registers of the same branches are the same: two runs that retired the same conditional branches cannot be told apart by
the histories. -/
theorem C94_determined {c : Cfg} (ok : c.Ok) {pc0 pc1 : BitVec 32} {is js : List In} {s t : St} {os ps : List Out}
    (h : run c (init pc0) is = some (s, os)) (h' : run c (init pc1) js = some (t, ps))
    (e : condBranches (reported is) = condBranches (reported js)) : Same c s.arch t.arch := by
  have h1 := C94_retired ok h
  have h2 := C94_retired ok h'
  have he : history (reported is) = history (reported js) := by unfold history; rw [e]
  rw [he] at h1
  exact same_of_reps h1 h2

/-- The path history forgets: only the newest `pathBits` branches matter. -/
theorem C94_path {c : Cfg} (ok : c.Ok) {l l' : List Br} {h h' : GHist} (r : Reps c l h) (r' : Reps c l' h')
    (e : l.take c.pathBits = l'.take c.pathBits) : h.path = h'.path := by
  rw [r.path, r'.path]
  exact pathOf_recent c ok.pathPos l l' e

/-- Three branches: taken, not taken, taken.  The 8-bit folded copy of 13 outcomes. -/
example : ((run cfg0 (init 0x80000000#32)
      [{ quiet with upds := [some (condAt 0x80000010#32 true), some (condAt 0x80000020#32 false)] },
       { quiet with upds := [some (condAt 0x80000030#32 true)] }]).map
      (fun p => ((List.range 4).map p.1.arch.ghr, p.1.arch.fh 1 1, decide (p.1.arch.path = 0#32)))) =
    some ([true, false, true, false], 5#32, false) := by decide +kernel

/-! ### C95: return-address stack -/

/-- The retired stack holds the open calls of the retired program, innermost first, as many as fit. -/
theorem C95_contents {c : Cfg} (ok : c.Ok) {pc0 : BitVec 32} {is : List In} {s : St} {os : List Out}
    (h : run c (init pc0) is = some (s, os)) :
    s.archRas.contents = recent c.rasDepth ((reported is).filterMap opOf) ∧
    s.archRas.contents <+: openCalls ((reported is).filterMap opOf) ∧
    s.archRas.contents.length ≤ c.rasDepth ∧
    ((∀ p, p <+: (reported is).filterMap opOf → (openCalls p).length ≤ c.rasDepth) →
      s.archRas.contents = openCalls ((reported is).filterMap opOf)) := by
  obtain ⟨L, hr, hl⟩ := run_reach is (Reach.init (c := c) (pc0 := pc0)) h
  have hh := (reach_inv ok hr).archRas
  rw [hl] at hh
  obtain ⟨h1, h2⟩ := hh
  rw [List.nil_append] at h1
  refine ⟨h1, ?_, by rw [contents_length]; exact h2, fun hd => ?_⟩
  · rw [h1]; exact recent_prefix _ _
  · rw [h1]; exact recent_exact _ _ hd

/-- A predicted return goes to the innermost speculative call; without an open call, to the target buffer's answer. -/
theorem C95_return {c : Cfg} (ok : c.Ok) {pc0 : BitVec 32} {L : Log} {s s' : St} {i : In} {o : Out} {sl : Slot} {t : BitVec 32}
    (hr : Reach c pc0 L s) (h : cycle c s i = some (s', o)) (hn : i.refetch = none) (hready : i.ready = true)
    (hf : (slots c s.pc true i).find? decides = some sl) (hty : sl.ty = .ret) (ht : sl.target = some t) :
    o.nextAddr = L.calls.head?.getD t ∧ s'.pc = o.nextAddr := by
  obtain ⟨h1, h2, -, -⟩ := cycle_next h hn hready
  refine ⟨?_, h2⟩
  rw [h1, nextAddr_find, hf]
  simp only [hty, if_true, ht, Option.getD_some]
  rw [top_contents, (reach_inv ok hr).specRas.1]

/-- Which instruction words are reported as what, for all 32-bit words. -/
theorem C95_report (w : BitVec 32) : reportType (Decode.decode w) = kindOf w := reportType_decode w

/-- What is pushed is a call and what pops is a return by the manual's hints. -/
theorem C95_hints_sound (w : BitVec 32) :
    (reportType (Decode.decode w) = .call → hint w = .push) ∧ (reportType (Decode.decode w) = .ret → hint w = .pop) := by
  rw [reportType_decode]
  unfold kindOf hint
  dsimp only
  by_cases h1 : w.extractLsb' 0 7 = 0b1100011#7
  · simp [h1]
  · by_cases h2 : w.extractLsb' 0 7 = 0b1101111#7
    · by_cases h3 : w.extractLsb' 7 5 = 1#5 <;> simp [h2, h3]
    · by_cases h3 : w.extractLsb' 0 7 = 0b1100111#7
      · by_cases h4 : w.extractLsb' 7 5 = 0#5 ∧ w.extractLsb' 15 5 = 1#5 ∧ w.extractLsb' 20 12 = 0#12
        · simp [h3, h4.1, h4.2.1, h4.2.2]
        · simp [h3, h4]
      · simp [h1, h2, h3]

/-- Not conversely: `jalr ra, 0(t1)`, a call through a pointer, pushes by the manual and is reported as a plain indirect jump;
`jr t0`, a return to the alternate link register, likewise. -/
theorem C95_indirect_call_lost :
    hint 0x000300e7#32 = .push ∧ reportType (Decode.decode 0x000300e7#32) = .idirect ∧
    hint 0x00028067#32 = .pop ∧ reportType (Decode.decode 0x00028067#32) = .idirect := by
  refine ⟨by decide, ?_, by decide, ?_⟩ <;> rw [reportType_decode] <;> decide

/-- The claim for code that calls with `jal ra` and returns with `ret` only: each jump does to the stack what the manual says.
Missing: indirect calls, the link register `x5`, co-routine jumps. -/
theorem C95_partial (w : BitVec 32)
    (hcall : hint w = .push → w.extractLsb' 0 7 = 0b1101111#7 ∧ w.extractLsb' 7 5 = 1#5)
    (hret : hint w = .pop → w.extractLsb' 7 5 = 0#5 ∧ w.extractLsb' 15 5 = 1#5 ∧ w.extractLsb' 20 12 = 0#12)
    (hco : hint w ≠ .popPush) (u : Upd) (hu : u.ty = reportType (Decode.decode w)) :
    opOf u = match hint w with
      | .push => some (.call (u.pc + 4#32))
      | .pop => some .ret
      | _ => none := by
  have hs := C95_hints_sound w
  rw [← hu] at hs
  have hk : u.ty = kindOf w := by rw [hu, reportType_decode]
  unfold opOf
  rcases hh : hint w with _ | _ | _ | _
  · have h1 : u.ty ≠ .call := fun h => by rw [hs.1 h] at hh; cases hh
    have h2 : u.ty ≠ .ret := fun h => by rw [hs.2 h] at hh; cases hh
    simp [h1, h2]
  · obtain ⟨a, b⟩ := hcall hh
    have : u.ty = .call := by rw [hk]; unfold kindOf; simp [a, b]
    simp [this]
  · obtain ⟨a, b, d⟩ := hret hh
    have ho : w.extractLsb' 0 7 = 0b1100111#7 := by
      unfold hint at hh
      dsimp only at hh
      split at hh
      · split at hh <;> cases hh
      · split at hh
        · assumption
        · cases hh
    have : u.ty = .ret := by rw [hk]; unfold kindOf; simp [a, b, d, ho]
    simp [this]
  · exact absurd hh hco

/-- An interrupt is taken instead of the oldest instruction, complete or not; yet that instruction is in the report to the
predictor. -/
theorem C95_interrupted {r : RobIn} {k : Nat} {u : Rob.Uop} (stall : Bool) (h : Rob.firstValid r.row = some (k, u))
    (hm : r.mispred = false) (hi : r.intReq = true) : retires stall r = [u] := retires_interrupt stall h hm hi

/-- So a call that is interrupted and then executed is on the stack twice. -/
theorem C95_called_twice : ∃ (r : RobIn) (u : Rob.Uop) (s : St) (os : List Out), Rob.complete u = false ∧ retires false r = [u] ∧
    run cfg0 (init 0x80000000#32) [{ quiet with upds := [some (callAt 0x80000000#32)] },
      { quiet with upds := [some (callAt 0x80000000#32)] }] = some (s, os) ∧
    s.archRas.contents = [0x80000004#32, 0x80000004#32] := by
  refine ⟨⟨[some ⟨0, 0, false, .other, 1#3, 0#3, 0#32, false, false, false, false, false⟩, none], false, false, true, false⟩,
    ⟨0, 0, false, .other, 1#3, 0#3, 0#32, false, false, false, false, false⟩, ?_⟩
  have h : ((run cfg0 (init 0x80000000#32) [{ quiet with upds := [some (callAt 0x80000000#32)] },
      { quiet with upds := [some (callAt 0x80000000#32)] }]).map (fun p => p.1.archRas.contents)) =
      some [0x80000004#32, 0x80000004#32] := by decide +kernel
  obtain ⟨⟨s, os⟩, h1, h2⟩ := Option.map_eq_some_iff.mp h
  exact ⟨s, os, by decide, by decide, h1, h2⟩

/-- Two calls and a return: the outer call is open. -/
example : ((run cfg0 (init 0x80000000#32)
      [{ quiet with upds := [some (callAt 0x80000010#32), some (callAt 0x80000110#32)] },
       { quiet with upds := [some (retAt 0x80000220#32)] }]).map (fun p => p.1.archRas.contents)) =
    some [0x80000014#32] := by decide +kernel

/-- A call is predicted, then a return: fetch continues after the call. -/
example : ((run cfg0 (init 0x80000000#32)
      [{ quiet with pType := fun k => if k = 1 then .call else .nonctl, btb := fun _ => some 0x80001000#32 },
       { quiet with pType := fun k => if k = 2 then .ret else .nonctl, btb := fun _ => some 0x12340000#32 }]).map
      (fun p => p.2.map (fun o => o.nextAddr))) = some [0x80001000#32, 0x80000008#32] := by decide +kernel

/-! ### C96: fetch groups and banks -/

/-- The slots of a group that are predicted are consecutive words of the line of the fetch address, and every word of the group
that is in this line is predicted. -/
theorem C96_line {c : Cfg} {m : Nat} (hl : c.Lines m) {base : BitVec 32} {going : Bool} {i : In} {k : Nat} {s : Slot}
    (h : (slots c base going i)[k]? = some s) :
    (s.on = true → s.pc.toNat = base.toNat + 4 * k ∧ s.pc.toNat / 2 ^ m = base.toNat / 2 ^ m) ∧
    (base.toNat + 4 * c.fetchWidth < 2 ^ 32 → (s.on = true ↔ (base.toNat + 4 * k) / 2 ^ m = base.toNat / 2 ^ m)) :=
  ⟨slot_on hl h, slot_on_iff hl h⟩

/-- The predicted slots of a group are in different banks: no two of them compete for a port. -/
theorem C96_banks {c : Cfg} (ok : c.Ok) {m : Nat} (hl : c.Lines m) {base : BitVec 32} {going : Bool} {i : In} {j k : Nat}
    {s t : Slot} (hs : (slots c base going i)[j]? = some s) (ht : (slots c base going i)[k]? = some t)
    (hon : s.on = true) (hon' : t.on = true) (hjk : j ≠ k) : bankSel c s.pc ≠ bankSel c t.pc := by
  rcases Nat.lt_or_gt_of_ne hjk with h | h
  · exact banks_distinct ok hl hs ht hon hon' h
  · exact (banks_distinct ok hl ht hs hon' hon h).symm

/-- Bank and bank address together identify the word: what one instruction teaches a bank is never mistaken for another's by
the addressing. -/
theorem C96_faithful {c : Cfg} (ok : c.Ok) {p q : BitVec 32} (hb : bankSel c p = bankSel c q)
    (ha : bankPc c p >>> 2 = bankPc c q >>> 2) : p >>> 2 = q >>> 2 := by
  have hN : 0 < c.bankNum := by have := ok.fetchPos; have := ok.banksFetch; omega
  have h := congrArg BitVec.toNat ha
  rw [bankPc_word hN, bankPc_word hN] at h
  unfold bankSel at hb
  apply BitVec.eq_of_toNat_eq
  rw [← Nat.div_add_mod (p >>> 2).toNat c.bankNum, ← Nat.div_add_mod (q >>> 2).toNat c.bankNum, h, hb]

/-- The next fetch address: without a taken slot with a target, the end of the group, which is the next word after the predicted
slots; otherwise the target of the first such slot. -/
theorem C96_next {c : Cfg} {s s' : St} {i : In} {o : Out} (h : cycle c s i = some (s', o)) (hn : i.refetch = none)
    (hr : i.ready = true) :
    o.fetchAddr = s.pc ∧ s'.pc = o.nextAddr ∧
    ((slots c s.pc true i).find? decides = none → o.nextAddr = boundary c s.pc) ∧
    (∀ sl t, (slots c s.pc true i).find? decides = some sl → sl.ty ≠ .ret → sl.target = some t → o.nextAddr = t) := by
  obtain ⟨h1, h2, h3, -⟩ := cycle_next h hn hr
  refine ⟨h3, h2, fun hf => ?_, fun sl t hf hty ht => ?_⟩
  · rw [h1, nextAddr_find, hf]
  · rw [h1, nextAddr_find, hf]
    simp [hty, ht]

/-- Directions: jumps are predicted taken, other instructions not, conditional branches as the direction predictor says; outside
the group nothing is. -/
theorem C96_direction {c : Cfg} {base : BitVec 32} {i : In} {k : Nat} {s : Slot} (h : (slots c base true i)[k]? = some s) :
    (s.on = false → s.taken = false) ∧
    (s.on = true → s.ty = .nonctl → s.taken = false) ∧
    (s.on = true → s.ty = .direct → s.taken = (i.tage (bankSel c s.pc)).getD false) ∧
    (s.on = true → s.ty ≠ .nonctl → s.ty ≠ .direct → s.taken = true) := by
  obtain ⟨-, -, -, hty, ht, -⟩ := slots_get h
  rw [← hty] at ht
  refine ⟨fun ho => ?_, fun ho hn => ?_, fun ho hn => ?_, fun ho hn hd => ?_⟩
  · rw [ht, ho]; simp
  · rw [ht, ho, hn]; rfl
  · rw [ht, ho, hn]; simp [predTaken]
  · rw [ht, ho]
    cases hs : s.ty <;> simp_all [predTaken]

/-- The end of the group is one word after its last predicted slot: the groups tile the address space. -/
theorem C96_tiles {c : Cfg} (ok : c.Ok) {m : Nat} (hl : c.Lines m) {base : BitVec 32} (ha : base.toNat % 4 = 0)
    (hw : base.toNat + 4 * c.fetchWidth < 2 ^ 32) (going : Bool) (i : In) :
    ∃ n, 0 < n ∧ n ≤ c.fetchWidth ∧ (boundary c base).toNat = base.toNat + 4 * n ∧
      ∀ k s, (slots c base going i)[k]? = some s → (s.on = true ↔ k < n) := by
  have hf := ok.fetchPos
  have hb := boundary_toNat hl hf base
  rw [if_neg (by omega)] at hb
  have hr := hl.range
  have hS : 0 < 2 ^ m := Nat.two_pow_pos m
  obtain ⟨q, hq⟩ : ∃ q, 2 ^ m = 4 * q := ⟨2 ^ (m - 2), by rw [show 4 = 2 ^ 2 from rfl, ← Nat.pow_add]; congr 1; omega⟩
  have hbt : ∃ n, 0 < n ∧ n ≤ c.fetchWidth ∧ (boundary c base).toNat = base.toNat + 4 * n := by
    by_cases he : base.toNat / 2 ^ m = (base.toNat + 4 * c.fetchWidth) / 2 ^ m
    · rw [if_pos he] at hb
      exact ⟨c.fetchWidth, hf, Nat.le_refl _, hb⟩
    · rw [if_neg he] at hb
      have h1 : base.toNat < (base.toNat / 2 ^ m + 1) * 2 ^ m := by
        rw [Nat.mul_comm]; exact Nat.lt_mul_div_succ _ hS
      have h2 : (base.toNat / 2 ^ m + 1) * 2 ^ m ≤ base.toNat + 4 * c.fetchWidth := by
        have : base.toNat / 2 ^ m + 1 ≤ (base.toNat + 4 * c.fetchWidth) / 2 ^ m := by
          have : base.toNat / 2 ^ m ≤ (base.toNat + 4 * c.fetchWidth) / 2 ^ m := Nat.div_le_div_right (by omega)
          omega
        exact (Nat.le_div_iff_mul_le hS).mp this
      generalize hE : (base.toNat / 2 ^ m + 1) * 2 ^ m = E at *
      have h4 : E % 4 = 0 := by
        rw [← hE, hq, Nat.mul_comm, Nat.mul_assoc]; exact Nat.mul_mod_right 4 _
      exact ⟨(E - base.toNat) / 4, by omega, by omega, by omega⟩
  obtain ⟨n, hn, hnf, hbn⟩ := hbt
  refine ⟨n, hn, hnf, hbn, fun k s hs => ?_⟩
  obtain ⟨hk, hpc, ho, -⟩ := slots_get hs
  have hp : s.pc.toNat = base.toNat + 4 * k := by
    rw [hpc, BitVec.toNat_add, BitVec.toNat_ofNat, Nat.add_mod_mod, Nat.mod_eq_of_lt (by omega)]
    omega
  rw [ho, decide_eq_true_eq, hp, hbn]
  omega

/-- The group at 0x80000038 ends with its line after two instructions. -/
example : (slots cfg0 0x80000038#32 true quiet).map (fun s => (s.on, bankSel cfg0 s.pc)) =
      [(true, 2), (true, 3), (false, 0), (false, 1)] ∧
    boundary cfg0 0x80000038#32 = 0x80000040#32 := by decide

/-- Two words with the same bank address are in different banks. -/
example : bankPc cfg0 0x80000010#32 >>> 2 = bankPc cfg0 0x80000014#32 >>> 2 ∧
    bankSel cfg0 0x80000010#32 ≠ bankSel cfg0 0x80000014#32 := by decide +kernel

/-! ### C97: speculative state in step with the program -/

/-- After a redirect, as long as there is no other and every retired branch was predicted right: once all that was predicted has
retired, speculative and retired history and stack are the same.
Missing: the redirect of a mispredicted branch that executes while older branches wait to retire (`C97_out_of_step`). -/
theorem C97_partial {c : Cfg} (ok : c.Ok) {pc0 : BitVec 32} {L L' : Log} {s s1 s' : St} {i : In} {o : Out} {js : List In}
    (hr : Reach c pc0 L s) (h : cycle c s i = some (s1, o)) (hre : i.refetch.isSome = true)
    (hrun : runLog c js (L.next c s.pc i, s1) = some (L', s')) (hno : ∀ j ∈ js, j.refetch = none)
    (hright : ∀ u ∈ reported js, u.predDir = u.dir) (hbr : condBranches (reported js) = (predicted c js s1).1)
    (hops : (reported js).filterMap opOf = (predicted c js s1).2) :
    Same c s'.spec s'.arch ∧ s'.specRas.contents = s'.archRas.contents := by
  have hinv := reach_inv ok (runLog_reach js (hr.step h) hrun)
  obtain ⟨h1, h2, h3⟩ := runLog_predicted js hno hright hrun
  obtain ⟨a, ha⟩ := Option.isSome_iff_exists.mp hre
  have hs : (L.next c s.pc i).spec = history (L.next c s.pc i).retired ∧
      (L.next c s.pc i).calls = recent c.rasDepth ((L.next c s.pc i).retired.filterMap opOf) := by
    unfold Log.next
    rw [ha]
    exact ⟨rfl, rfl⟩
  generalize L.next c s.pc i = M at *
  constructor
  · refine same_of_reps (l := L'.spec) hinv.spec ?_
    have := hinv.arch
    rw [h3, history_append, hbr, ← hs.1, ← h1] at this
    exact this
  · rw [hinv.specRas.1, hinv.archRas.1, h2, h3, List.filterMap_append, recent_append, hops, ← hs.2]

/-- In general not: a branch is predicted taken; a younger instruction redirects before the branch retires; the branch retires as
predicted.  Nothing is in flight, the program has one taken branch behind it, and the speculative history has none. -/
theorem C97_out_of_step : ∃ (L : Log) (s : St) (js : List In),
    runLog cfg0 js (⟨[], [], []⟩, init 0x80000000#32) = some (L, s) ∧ Reach cfg0 0x80000000#32 L s ∧
    condBranches (reported js) = [(0x80000000#32, true)] ∧ (∀ u ∈ reported js, u.predDir = u.dir) ∧
    (predicted cfg0 js (init 0x80000000#32)).1 = [(0x80000000#32, true)] ∧ s.arch.ghr 0 = true ∧ s.spec.ghr 0 = false := by
  let js : List In :=
    [{ quiet with pType := fun k => if k = 0 then .direct else .nonctl, tage := fun _ => some true,
                  btb := fun _ => some 0x80000010#32 },
     { quiet with refetch := some 0x80000020#32 },
     { quiet with upds := [some (condAt 0x80000000#32 true)] }]
  have h : ((runLog cfg0 js (⟨[], [], []⟩, init 0x80000000#32)).map (fun p => (p.2.arch.ghr 0, p.2.spec.ghr 0))) =
      some (true, false) := by decide +kernel
  obtain ⟨⟨L, s⟩, h1, h2⟩ := Option.map_eq_some_iff.mp h
  simp only [Prod.mk.injEq] at h2
  exact ⟨L, s, js, h1, runLog_reach js .init h1, by decide +kernel, by decide +kernel, by decide +kernel, h2.1, h2.2⟩

/-- A redirect, a branch predicted and retired: in step. -/
example : ∃ (js : List In) (L : Log) (s : St),
    runLog cfg0 ({ quiet with refetch := some 0x80000000#32 } :: js) (⟨[], [], []⟩, init 0#32) = some (L, s) ∧
    condBranches (reported js) = [(0x80000000#32, true)] ∧
    ((cycle cfg0 (init 0#32) { quiet with refetch := some 0x80000000#32 }).map (fun p => (predicted cfg0 js p.1).1)) =
      some [(0x80000000#32, true)] ∧ s.spec.ghr 0 = true := by
  let js : List In :=
    [{ quiet with pType := fun k => if k = 0 then .direct else .nonctl, tage := fun _ => some true,
                  btb := fun _ => some 0x80000010#32 },
     { quiet with upds := [some (condAt 0x80000000#32 true)] }]
  have h : ((runLog cfg0 ({ quiet with refetch := some 0x80000000#32 } :: js) (⟨[], [], []⟩, init 0#32)).map
      (fun p => p.2.spec.ghr 0)) = some true := by decide +kernel
  obtain ⟨⟨L, s⟩, h1, h2⟩ := Option.map_eq_some_iff.mp h
  exact ⟨js, L, s, h1, by decide +kernel, by decide +kernel, h2⟩

end Verif.Props

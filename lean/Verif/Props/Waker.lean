import Verif.Proofs.Waker
import Verif.Props.Sched
/-
C123: the wake-up bus behind the issue queues: every result that is computed is announced exactly once, in the cycle its latency
calls for, and nothing else is announced; so what reads a result leaves its queue when the result is there.
-/
namespace Verif.Props
open Verif.Spine Verif.Waker Verif.WakerProofs Verif.SpineProofs
open Verif.Decode (Iq decompose MicroOp)
open Verif.RobQueue (insts)

section
variable {n : Nat} {k : Waker.Cfg} {s : Waker.State n}

/-- C123: with the wake-up bus the machine of C121 runs: the bus announces nothing whose producer has not been dispatched. -/
theorem C123_queues (hk : Good k.sc.sp) (ha : Alu k) (h : Waker.Reach k s) : Sched.Reach k.sc s.sc := (reach hk ha h).1

/-- C123: neither early nor late nor lost: of an instruction in the reorder buffer whose result is computed by operation `m`, the
result has been announced exactly if `m` was issued more than its delay ago; it was issued exactly if it left its queue. -/
theorem C123_announced (hk : Good k.sc.sp) (ha : Alu k) (h : Waker.Reach k s) {u : Nat} (hu : u ∈ robIds k.sc.sp s.sc.sp) {m : MicroOp}
    (hm : computes (s.sc.inst u).dec m) :
    (s.sc.ann u = true ↔ delay k m < s.since u) ∧ (0 < s.since u ↔ u ∈ s.sc.out .int) := by
  obtain ⟨_, hr, bw, rw, Z, g, hl, I, W⟩ := reach hk ha h
  exact ⟨(W.ann u hu m hm).2.1, (W.ann u hu m hm).1⟩

/-- C123: what is broadcast in a cycle: an announcement of a load, or the destination of an instruction in the reorder buffer
whose operation is issued in this cycle and takes one cycle, or was issued exactly its delay ago. -/
theorem C123_broadcast (hk : Good k.sc.sp) (ha : Alu k) (h : Waker.Reach k s) {c : Waker.Cyc n} (hv : Waker.Valid k s c) {ws : List Nat}
    (hw : wakes k s c = some ws) {p : Nat} : p ∈ ws ↔ p ∈ c.slow ∨
      ∃ u ∈ robIds k.sc.sp s.sc.sp, ∃ m, computes (s.sc.inst u).dec m ∧ (s.sc.inst u).destPreg = p ∧
        ((0 < s.since u ∧ s.since u = delay k m) ∨ (delay k m = 0 ∧ ∃ x ∈ Sched.issued k.sc s.sc (cyc c ws) .int, x.id = u)) := by
  obtain ⟨_, hr, bw, rw, Z, g, hl, I, W⟩ := reach hk ha h
  have hiff : ∀ u m, computes (s.sc.inst u).dec m → ((∃ o ∈ issues k s c, o.uop.id = u ∧ o.mop.inst.destEn = true) ↔
      ∃ x ∈ Sched.issued k.sc s.sc (cyc c ws) .int, x.id = u) := by
    intro u m hm
    constructor
    · rintro ⟨o, ho, rfl, hd⟩
      obtain ⟨q, _, e1, e2, e3⟩ := issue_q I ho
      obtain rfl := (int_op hm.1 hm.2.2).2.2.2.2.2 o.mop e2 hd
      have hq : q = .int := by rw [← e1]; exact hm.2.2
      subst hq
      exact ⟨_, e3 ws, rfl⟩
    · rintro ⟨x, hx, rfl⟩
      obtain ⟨o, ho, e1, e2, _⟩ := issue_of I hx (show Sched.part s.sc x.id .int = some m by rw [← hm.2.2]; exact OooProofs.part_mem hm.1)
      exact ⟨o, ho, by rw [e1], by rw [e2]; exact hm.2.1⟩
  constructor
  · intro hp
    rcases (wakes_mem hw p).1 hp with h1 | ⟨op, b, h1⟩ | h1
    · exact .inl h1
    · obtain ⟨v, hvm, m, hm, _, h2, _, _, h3, h4⟩ := W.pend _ _ _ _ h1
      exact .inr ⟨v.id, List.mem_map_of_mem hvm, m, hm, h2, .inl ⟨h3, by omega⟩⟩
    · by_cases hs : p ∈ c.slow
      · exact .inl hs
      · obtain ⟨o, ho, rfl⟩ := List.mem_map.1 h1
        obtain ⟨ho, hc⟩ := List.mem_filter.1 ho
        simp only [Bool.and_eq_true, decide_eq_true_eq] at hc
        obtain ⟨q, h1, h2, h3, h4⟩ := issue_q I ho
        have hint : o.mop.iq = .int := dest_int (W.plain _ (SchedProofs.queued_rob I h1)) h3 hc.1.1.1.1 hc.1.1.2 hc.1.2
        have hm : computes (s.sc.inst o.uop.id).dec o.mop := ⟨h3, hc.1.1.1.1, hint⟩
        refine .inr ⟨o.uop.id, SchedProofs.queued_rob I h1, o.mop, hm, rfl, .inr ⟨?_, (hiff _ _ hm).1 ⟨o, ho, rfl, hc.1.1.1.1⟩⟩⟩
        unfold delay; rw [if_pos hc.1.1.1.2]
  · rintro (h1 | ⟨u, hu, m, hm, rfl, h1⟩)
    · exact (wakes_mem hw p).2 (.inl h1)
    · rw [announce_iff hk ha hr hv I W hw hu hm]
      rcases h1 with h1 | ⟨h1, h2⟩
      · exact .inl h1
      · exact .inr ⟨h1, (hiff u m hm).2 h2⟩

/-- C123: once: a computed result that has been announced is not announced again while its instruction is in the reorder buffer. -/
theorem C123_once (hk : Good k.sc.sp) (ha : Alu k) (h : Waker.Reach k s) {c : Waker.Cyc n} (hv : Waker.Valid k s c) {ws : List Nat}
    (hw : wakes k s c = some ws) {u : Nat} (hu : u ∈ robIds k.sc.sp s.sc.sp) {m : MicroOp} (hm : computes (s.sc.inst u).dec m)
    (hann : s.sc.ann u = true) : (s.sc.inst u).destPreg ∉ ws := by
  obtain ⟨_, hr, bw, rw, Z, g, hl, I, W⟩ := reach hk ha h
  have hd := (W.ann u hu m hm).2.1.1 hann
  rw [announce_iff hk ha hr hv I W hw hu hm]
  rintro (⟨_, h2⟩ | ⟨h1, o, ho, rfl, h3⟩)
  · omega
  · have := (not_again I W ho hm h3).1
    omega

/-- C123: what reads a computed result leaves its queue at the earliest when the result is there: one cycle after an operation of
one cycle, the latency after a multiplication, one cycle more after a division or a floating-point operation. -/
theorem C123_operands (hk : Good k.sc.sp) (ha : Alu k) (h : Waker.Reach k s) (c : Sched.Cyc n) {q : Iq} {x : IssueQueue.Uop n}
    (hx : x ∈ Sched.issued k.sc s.sc c q) : ∃ m, Sched.part s.sc x.id q = some m ∧
      ∀ b, ∀ j ∈ robIds k.sc.sp s.sc.sp, Sched.feeds s.sc j x.id m b → ∀ m', computes (s.sc.inst j).dec m' →
        1 ≤ s.since j ∧ latency k m' ≤ s.since j ∧ (m'.op = .div ∨ m'.op = .fp → 1 < latency k m' → latency k m' < s.since j) := by
  obtain ⟨m, h1, _, _, h2⟩ := C121_operands hk (C123_queues hk ha h) c hx
  refine ⟨m, h1, fun b j hj hf m' hm' => ?_⟩
  have hd := (C123_announced hk ha h hj hm').1.1 (h2 b j hj hf)
  refine ⟨by omega, ?_, fun ho hlt => ?_⟩
  · unfold delay at hd
    split at hd
    · omega
    · split at hd <;> omega
  · unfold delay at hd
    rw [if_neg (by omega), if_neg (by rcases ho with ho | ho <;> rw [ho] <;> simp)] at hd
    exact hd

end

/-! ### A concrete run

`mul x3,x1,x2`, `add x4,x3,x3`, `div x6,x1,x2`, `beq x0,x0`, `div x7,x6,x6`, `sub x8,x6,x0`, `lw x9,0(x1)`, `jal x1`: multiplications take three cycles,
divisions four. -/

namespace WakerRun

def kw : Waker.Cfg := ⟨SchedRun.kq, 3, 4, 2, 2, 2, fun _ => 0, fun _ => 1, fun _ => 1, fun i => decide (i < 2)⟩

theorem alu : Alu kw := by
  intro p hp
  have hp : p ∈ [SchedRun.port 0, SchedRun.port 1] := hp
  simp only [List.mem_cons, List.not_mem_nil, or_false] at hp
  rcases hp with rfl | rfl <;> decide

abbrev S := Waker.State 4

def ok (s : S) (c : Waker.Cyc 4) : Bool :=
  WholeRun.spineOk s.sc.sp (Sched.hw kw.sc s.sc ⟨c.hw, c.fuReady⟩) &&
  (c.hw.wbs ++ c.hw.res.map brWb).all (fun w => (insts 4 s.sc.sp.rob).all fun v => !decide (v.robIdx = w.robIdx) ||
    (SchedRun.qs.all (fun q => (IssueWindow.queued (s.sc.iq q)).all fun x => !decide (x.id = v.id) ||
      decide (w.bit &&& Sched.partBit (s.sc.inst v.id).dec q = 0#3)) &&
     (decompose (s.sc.inst v.id).dec).all fun m => !decide (s.since v.id < delay kw m) || !m.inst.destEn || !decide (m.iq = .int) ||
      decide (w.bit &&& Sched.partBit (s.sc.inst v.id).dec .int = 0#3))) &&
  c.slow.all (fun p => decide (p = 0) || (robIds kw.sc.sp s.sc.sp).any fun u => decide ((s.sc.inst u).destPreg = p) &&
    (s.sc.inst u).dec.destEn && (decide ((s.sc.inst u).dec.type = .load) || decide ((s.sc.inst u).dec.type = .amo)))

theorem ok_sound {s : S} {c : Waker.Cyc 4} (h : ok s c = true) : Waker.Valid kw s c := by
  simp only [ok, Bool.and_eq_true, Bool.or_eq_true, List.all_eq_true, List.any_eq_true, decide_eq_true_eq, Bool.not_eq_true',
    decide_eq_false_iff_not] at h
  obtain ⟨⟨h1, h2⟩, h3⟩ := h
  refine ⟨WholeRun.spineOk_sound h1, fun w hw v hv e q x hx hi => ?_, fun w hw v hv e m hm hlt => ?_, fun p hp => ?_⟩
  · have hq : q ∈ SchedRun.qs := by cases q <;> simp [SchedRun.qs]
    exact ((((h2 w hw v hv).resolve_left (fun h => h e)).1 q hq x hx)).resolve_left (fun h => h hi)
  · rcases ((h2 w hw v hv).resolve_left (fun h => h e)).2 m hm.1 with ((h | h) | h) | h
    · exact absurd hlt h
    · rw [hm.2.1] at h; cases h
    · exact absurd hm.2.2 h
    · exact h
  · rcases h3 p hp with h | ⟨u, hu, ⟨h1, h2⟩, h3⟩
    · exact .inl h
    · exact .inr ⟨u, hu, h1, h2, h3⟩

def drive (s : S) : List (Waker.Cyc 4) → Option S
  | [] => some s
  | c :: l => if ok s c then (Waker.step kw s c).bind fun t => drive t l else none

theorem drive_reach : ∀ (l : List (Waker.Cyc 4)) {s t : S}, Waker.Reach kw s → drive s l = some t → Waker.Reach kw t
  | [], _, _, h, e => by cases e; exact h
  | c :: l, s, t, h, e => by
    rw [drive] at e
    split at e
    · rename_i hk
      obtain ⟨r, h1, h2⟩ := Option.bind_eq_some_iff.1 e
      exact drive_reach l (.step c h (ok_sound hk) h1) h2
    · cases e

def fetch (a b : BitVec 32) : Waker.Cyc 4 :=
  ⟨{ SpineRun.quiet with ib := [some (a, false), some (b, false)] }, fun _ _ => true, []⟩
def quiet (wbs : List Rob.Wb) (slow : List Nat) : Waker.Cyc 4 := ⟨{ SpineRun.quiet with wbs := wbs }, fun _ _ => true, slow⟩

/-- The reorder buffer; what the integer queue holds; the instructions announced; the cycles since issue. -/
def look (s : S) : List Nat × List Nat × List Nat × List Nat :=
  (robIds kw.sc.sp s.sc.sp, (IssueWindow.queued (s.sc.iq .int)).map (·.id), (robIds kw.sc.sp s.sc.sp).filter s.sc.ann,
    (robIds kw.sc.sp s.sc.sp).map s.since)

def prog : List (Waker.Cyc 4) := [fetch 0x022081b3 0x00318233, fetch 0x0220c333 0x00000463, fetch 0x026343b3 0x40030433, fetch 0x0000a483 0x008000ef]

/-- The branch, found mispredicted. -/
def beq : Exu.Op 4 := ⟨3, 0, 0, 0#4, 3, false, 1, true, 0x40#32, false, 0, 0⟩

def run (l : List (Waker.Cyc 4)) : Option S := drive (Waker.init 4 kw) l
def idle (i : Nat) : List (Waker.Cyc 4) := List.replicate i (quiet [] [])
def bus (s : S) : Option (List Nat) := wakes kw s (quiet [] [])

def wrong : List (Waker.Cyc 4) := prog ++ idle 6 ++ [⟨{ SpineRun.quiet with res := [beq] }, fun _ _ => true, []⟩]

/-- The multiplication `0`, issued two cycles ago, is announced; next cycle the addition `1` is issued and announced at once. -/
theorem run5 : (run (prog ++ idle 1)).map (fun s => (look s, bus s)) =
    some (([0, 1, 2, 3, 4, 5], [4, 1, 5], [], [2, 0, 1, 0, 0, 0]), some [33]) := by decide +kernel

theorem run6 : (run (prog ++ idle 2)).map (fun s => (look s, bus s)) =
    some (([0, 1, 2, 3, 4, 5, 6, 7], [4, 1, 5, 7], [0], [3, 0, 2, 0, 0, 0, 0, 0]), some [34, 39]) := by decide +kernel

/-- The division `2`, issued four cycles ago, is announced; `4` and `5` wait for it. -/
theorem run8 : (run (prog ++ idle 4)).map (fun s => (look s, bus s)) =
    some (([0, 1, 2, 3, 4, 5, 6, 7], [4, 5], [0, 1, 7], [5, 2, 4, 0, 0, 0, 2, 2]), some [35]) := by decide +kernel

theorem run9 : (run (prog ++ idle 5)).map (fun s => (look s, bus s)) =
    some (([0, 1, 2, 3, 4, 5, 6, 7], [4, 5], [0, 1, 2, 7], [6, 3, 5, 0, 0, 0, 3, 3]), some [37]) := by decide +kernel

/-- The division `4` is announced four cycles after it was issued. -/
theorem run13 : (run (prog ++ idle 9)).map bus = some (some [36]) := by decide +kernel

/-- The branch `3` squashes it: then it is not. -/
theorem squash : (run (wrong ++ idle 1)).map look = some ([0, 1, 2, 3], [], [0, 1, 2], [9, 6, 8, 0]) := by decide +kernel

theorem squash_bus : (List.range 5).map (fun i => (run (wrong ++ idle i)).map bus) = List.replicate 5 (some (some [])) := by decide +kernel

/-- A load's announcement, and reports of a division and of the load. -/
example : (run (prog ++ idle 4 ++ [quiet [] [38], quiet [WholeRun.wb 2 1, WholeRun.wb 6 1] []])).map look =
    some ([0, 1, 2, 3, 4, 5, 6, 7], [], [0, 1, 2, 5, 6, 7], [7, 4, 6, 0, 1, 1, 4, 4]) := by decide +kernel

/-- A division reported before its delay is over is not a cycle of the machine. -/
example : (run (prog ++ idle 3 ++ [quiet [WholeRun.wb 2 1] []])).isNone = true := by decide +kernel

/-- The hypotheses of the theorems hold in the run: the state is reachable, the cycle valid, `0` (a multiplication) computes its
result by an integer operation. -/
example : ∃ s m ws, run (prog ++ idle 2) = some s ∧ Waker.Reach kw s ∧ Waker.Valid kw s (quiet [] []) ∧ Good kw.sc.sp ∧
    wakes kw s (quiet [] []) = some ws ∧ 0 ∈ robIds kw.sc.sp s.sc.sp ∧ computes (s.sc.inst 0).dec m ∧ m.op = .mul ∧ s.sc.ann 0 = true := by
  have h : (run (prog ++ idle 2)).map (fun s => (ok s (quiet [] []), bus s, decide (0 ∈ robIds kw.sc.sp s.sc.sp), s.sc.ann 0)) =
      some (true, some [34, 39], true, true) := by decide +kernel
  have h2 : (run (prog ++ idle 2)).map (fun s => ((decompose (s.sc.inst 0).dec).filter fun m => m.inst.destEn && decide (m.iq = .int) &&
      decide (m.op = .mul)).length) = some 1 := by decide +kernel
  obtain ⟨s, hs, hl⟩ := Option.map_eq_some_iff.1 h
  rw [hs, Option.map_some, Option.some.injEq] at h2
  simp only [Prod.mk.injEq, decide_eq_true_eq] at hl
  obtain ⟨m, hm⟩ := List.exists_mem_of_length_pos (by omega : 0 < ((decompose (s.sc.inst 0).dec).filter fun m => m.inst.destEn && decide (m.iq = .int) &&
      decide (m.op = .mul)).length)
  obtain ⟨h3, h4⟩ := List.mem_filter.1 hm
  simp only [Bool.and_eq_true, decide_eq_true_eq] at h4
  exact ⟨s, m, _, hs, drive_reach _ .init hs, ok_sound hl.1, SpineRun.kx_good, hl.2.1, hl.2.2.1, ⟨h3, h4.1.1, h4.1.2⟩, h4.2, hl.2.2.2⟩

end WakerRun
end Verif.Props

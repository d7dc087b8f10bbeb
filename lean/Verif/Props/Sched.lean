import Verif.Proofs.Sched
import Verif.Props.Whole
/-
C121: the issue queues behind the in-order stages: an operation is issued only after the producers of its operands have been
broadcast, exactly once, and only while its instruction is in the reorder buffer; no queue overflows.
-/
namespace Verif.Props
open Verif.Spine Verif.Sched Verif.SpineProofs Verif.SchedProofs
open Verif.Decode (Iq decompose)
open Verif.IssueWindow (queued)
open Verif.RobQueue (insts)

section
variable {n : Nat} {k : Sched.Cfg} {s : Sched.State n}

/-- C121: no queue ever fails its assertion that there is room (IssueQueue.h:217-224): dispatch sends what fits. -/
theorem C121_no_assert (hk : Good k.sp) (h : Sched.Reach k s) (c : Sched.Cyc n) : ∃ s', Sched.step k s c = some s' := by
  obtain ⟨hr, bw, rw, Z, g, hl, I⟩ := inv_reach hk h
  refine queues_some fun q => ?_
  obtain ⟨t, _, h1, _⟩ := C23_conservation (I.iqr q) (iqIn k s c q) (iq_valid hk hr hl c q)
  exact ⟨t, h1⟩

/-- C121: every operation in a queue belongs to an instruction in the reorder buffer, under its index and wrap flag, that still
waits for this part; squashed and retired instructions leave nothing behind. -/
theorem C121_live (hk : Good k.sp) (h : Sched.Reach k s) {q : Iq} {x : IssueQueue.Uop n} (hx : x ∈ queued (s.iq q)) :
    ∃ v ∈ insts k.sp.L s.sp.rob, v.id = x.id ∧ v.robIdx = x.robIdx ∧ v.robFlag = x.robFlag ∧ Rob.complete v = false := by
  obtain ⟨_, bw, rw, Z, g, hl, I⟩ := inv_reach hk h
  obtain ⟨v, hv, h1, h2, h3, h4⟩ := (I.ops q x hx).mem
  refine ⟨v, hv, h1, h2, h3, ?_⟩
  obtain ⟨m, hm, m1, _⟩ := (I.ops q x hx).op
  cases hc : Rob.complete v with
  | false => rfl
  | true =>
    exfalso
    have hc : v.cplt = v.expect := by unfold Rob.complete at hc; simpa using hc
    rw [hc, I.expect v hv, h1, ← m1] at h4
    exact (part_bit _ m hm).2 h4

/-- C121: an operation that is issued is the one its instruction decodes to for this queue, it names the registers rename gave
the instruction, and every instruction in the reorder buffer that produces one of them has been broadcast. -/
theorem C121_operands (hk : Good k.sp) (h : Sched.Reach k s) (c : Sched.Cyc n) {q : Iq} {x : IssueQueue.Uop n}
    (hx : x ∈ issued k s c q) :
    ∃ m, part s x.id q = some m ∧ x.op = k.kind m.op ∧
      (∀ b p, reads (s.inst x.id) m b = some p ↔ (x.src b).en = true ∧ (x.src b).preg = p) ∧
      ∀ b, ∀ j ∈ robIds k.sp s.sp, feeds s j x.id m b → s.ann j = true := by
  obtain ⟨_, bw, rw, Z, g, hl, I⟩ := inv_reach hk h
  obtain ⟨hq, hrd⟩ := issued_mem I hx
  obtain ⟨m, hm, m1, m2, m3, m4⟩ := (I.ops q x hq).op
  refine ⟨m, ?_, m2, fun b p => ?_, fun b j hj hf => ?_⟩
  · have hnd := Proofs.Dispatch.decompose_nodup (s.inst x.id).dec
    unfold part
    generalize decompose (s.inst x.id).dec = l at hm hnd
    induction l with
    | nil => cases hm
    | cons a l ih =>
      rw [List.map_cons, List.nodup_cons] at hnd
      rcases List.mem_cons.1 hm with rfl | hm
      · rw [List.find?_cons_of_pos (by simpa using m1)]
      · rw [List.find?_cons_of_neg, ih hm hnd.2]
        intro he
        refine hnd.1 (List.mem_map.2 ⟨m, hm, ?_⟩)
        rw [m1]; symm; simpa using he
  · rw [← m3 b]
    unfold srcReg
    split
    · rename_i hen; simp [hen]
    · rename_i hen; simp [hen]
  · refine m4 b j hj hf ?_
    obtain ⟨r1, r2⟩ := reads_src (m3 b) hf.2.1
    cases hb : (x.src b).busy with
    | false => rfl
    | true => exact absurd ⟨r1, hb, rfl⟩ (hrd b (x.src b).preg)

/-- C121: exactly once: an instruction in the reorder buffer that has an operation for a queue is in that queue once and has not
been issued from it, or is not in it and has been issued once; one that has none is never there. -/
theorem C121_once (hk : Good k.sp) (h : Sched.Reach k s) {u : Nat} (hu : u ∈ robIds k.sp s.sp) (q : Iq) :
    ((queued (s.iq q)).map (·.id)).count u + (s.out q).count u = if (part s u q).isSome then 1 else 0 := by
  obtain ⟨_, bw, rw, Z, g, hl, I⟩ := inv_reach hk h
  exact I.once u hu q

/-- C121: what is issued belongs to an instruction in the reorder buffer and is issued for the first time. -/
theorem C121_first (hk : Good k.sp) (h : Sched.Reach k s) (c : Sched.Cyc n) {q : Iq} {x : IssueQueue.Uop n}
    (hx : x ∈ issued k s c q) : x.id ∈ robIds k.sp s.sp ∧ x.id ∉ s.out q ∧ ((issued k s c q).map (·.id)).Nodup := by
  obtain ⟨hr, bw, rw, Z, g, hl, I⟩ := inv_reach hk h
  obtain ⟨t, rest, _, hp, _⟩ := C23_conservation (I.iqr q) (iqIn k s c q) (iq_valid hk hr hl c q)
  have hp : (queued (s.iq q)).Perm (issued k s c q ++ rest) := hp
  have hone : ∀ u, ((issued k s c q).map (·.id)).count u + (s.out q).count u ≤ 1 ∨ u ∉ (issued k s c q).map (·.id) := by
    intro u
    by_cases hu : u ∈ robIds k.sp s.sp
    · left
      have := I.once u hu q
      rw [(hp.map _).count_eq, List.map_append, List.count_append] at this
      split at this <;> omega
    · right
      intro hm
      obtain ⟨y, hy, rfl⟩ := List.mem_map.1 hm
      exact hu (queued_rob I (issued_mem I hy).1)
  refine ⟨queued_rob I (issued_mem I hx).1, ?_, ?_⟩
  · have hm : x.id ∈ (issued k s c q).map (·.id) := List.mem_map_of_mem hx
    have h1 := (hone x.id).resolve_right (fun h => h hm)
    have := List.count_pos_iff.2 hm
    intro ho
    have := List.count_pos_iff.2 ho
    omega
  · rw [List.nodup_iff_count]
    intro u
    rcases hone u with h | h
    · omega
    · rw [List.count_eq_zero.2 h]; omega

/-- C121: with the age policy, if an operation `v` of an older instruction is ready and port `p`, which issued `u`, can execute
it, then `v` was offered an earlier port that can, and issued there unless that port's unit refused it. -/
theorem C121_oldest (hk : Good k.sp) (h : Sched.Reach k s) {q : Iq} (hq : k.policy q = true) (c : Sched.Cyc n) {x j : Nat}
    {p : IssueQueue.Port} {u v : IssueQueue.Uop n}
    (hg : (x, p) ∈ IssueQueue.granted true (k.ports q) (s.iq q) c.fuReady (iqIn k s c q).block)
    (hu : (s.iq q).ent[x]? = some (some u)) (hv : (s.iq q).ent[j]? = some (some v)) (hready : IssueWindow.ready v)
    (hcap : p.cap v.op = true) (hlt : v.id < u.id) :
    ∃ p', [p', p].Sublist (k.ports q) ∧ p'.cap v.op = true ∧
      ((j, p') ∈ IssueQueue.granted true (k.ports q) (s.iq q) c.fuReady (iqIn k s c q).block ∨ c.fuReady p'.idx v.op = false) := by
  obtain ⟨hr, bw, rw, Z, g, hl, I⟩ := inv_reach hk h
  have hpos : ∀ w ∈ queued (s.iq q), ∃ m, (insts k.sp.L s.sp.rob)[m]?.map (·.id) = some w.id ∧
      IssueWindow.atPos k.sp.L s.sp.rob w m := by
    intro w hw
    obtain ⟨z, hz, h1, h2, h3, _⟩ := (I.ops q w hw).mem
    obtain ⟨m, hm⟩ := List.mem_iff_getElem?.1 hz
    exact ⟨m, by rw [hm, Option.map_some, h1], z, hm, h2, h3⟩
  obtain ⟨mu, hmu, pu⟩ := hpos u (Proofs.IssueQueue.mem_queued.2 ⟨x, hu⟩)
  obtain ⟨mv, hmv, pv⟩ := hpos v (Proofs.IssueQueue.mem_queued.2 ⟨j, hv⟩)
  have hiq := I.iqr q
  rw [hq] at hiq
  refine C23_oldest_partial hk.lines hl.qr hiq (fun w hw => ?_) (iqIn k s c q) hg hu hv hready hcap pu pv ?_
  · obtain ⟨m, _, hm⟩ := hpos w hw
    exact ⟨m, hm⟩
  · have ho := (C106_ordered hk hr).1
    unfold inflight at ho
    rw [List.append_assoc, List.pairwise_append] at ho
    have ho := ho.1
    rcases Nat.lt_trichotomy mv mu with e | e | e
    · exact e
    · rw [e, hmu, Option.some.injEq] at hmv; omega
    · exfalso
      have a1 : (robIds k.sp s.sp)[mu]? = some u.id := by unfold robIds; rw [List.getElem?_map]; exact hmu
      have a2 : (robIds k.sp s.sp)[mv]? = some v.id := by unfold robIds; rw [List.getElem?_map]; exact hmv
      obtain ⟨b1, c1⟩ := List.getElem?_eq_some_iff.1 a1
      obtain ⟨b2, c2⟩ := List.getElem?_eq_some_iff.1 a2
      have := List.pairwise_iff_getElem.1 ho mu mv b1 b2 e
      rw [c1, c2] at this
      omega

end

/-! ### A concrete run

The program of `CoreRefRun` (`addi x1,x0,5`, `lui x2`, `sw x1,0(x2)`, `amoadd.w`, `lb`, `bne`, `addi`, `jal`), two instructions
per cycle, queues of four slots. -/

namespace SchedRun

def port (i : Nat) : IssueQueue.Port := ⟨i, fun _ => true⟩

def kq : Sched.Cfg :=
  ⟨SpineRun.kx, fun _ => 4, fun q => match q with
    | .int => [port 0, port 1]
    | .ld => [port 2]
    | .sta => [port 3]
    | .std => [port 4]
    | .br => [port 5],
   fun _ => true, fun _ => 0⟩

abbrev S := Sched.State 4

def qs : List Iq := [.int, .ld, .sta, .std, .br]

def ok (s : S) (c : Sched.Cyc 4) : Bool :=
  WholeRun.spineOk s.sp (hw kq s c) &&
  (c.hw.wbs ++ c.hw.res.map brWb).all (fun w => (insts 4 s.sp.rob).all fun v => !decide (v.robIdx = w.robIdx) ||
    qs.all fun q => (queued (s.iq q)).all fun x => !decide (x.id = v.id) || decide (w.bit &&& partBit (s.inst v.id).dec q = 0#3)) &&
  c.hw.wakes.all (fun p => (DispatchGroup.waiting s.sp.dis).all fun u => !u.dec.destEn || !decide (u.destPreg = p))

theorem ok_sound {s : S} {c : Sched.Cyc 4} (h : ok s c = true) : Sched.Valid kq s c := by
  simp only [ok, Bool.and_eq_true, Bool.or_eq_true, List.all_eq_true, decide_eq_true_eq, Bool.not_eq_true',
    decide_eq_false_iff_not] at h
  obtain ⟨⟨h1, h2⟩, h3⟩ := h
  refine ⟨WholeRun.spineOk_sound h1, fun w hw v hv e q x hx hi => ?_, fun p hp u hu hd e => ?_⟩
  · have hq : q ∈ qs := by cases q <;> simp [qs]
    exact (((h2 w hw v hv).resolve_left (fun h => h e)) q hq x hx).resolve_left (fun h => h hi)
  · rcases h3 p hp u hu with h | h
    · rw [hd] at h; cases h
    · exact h e

def drive (s : S) : List (Sched.Cyc 4) → Option S
  | [] => some s
  | c :: l => if ok s c then (Sched.step kq s c).bind fun t => drive t l else none

theorem drive_reach : ∀ (l : List (Sched.Cyc 4)) {s t : S}, Sched.Reach kq s → drive s l = some t → Sched.Reach kq t
  | [], _, _, h, e => by cases e; exact h
  | c :: l, s, t, h, e => by
    rw [drive] at e
    split at e
    · rename_i hk
      obtain ⟨r, h1, h2⟩ := Option.bind_eq_some_iff.1 e
      exact drive_reach l (.step c h (ok_sound hk) h1) h2
    · cases e

/-- Fetch instructions `i` and `j`. -/
def fetch (i j : Nat) (wakes : List Nat) : Sched.Cyc 4 :=
  ⟨{ SpineRun.quiet with ib := [some (CoreRefRun.txt (CoreRefRun.instr i), false), some (CoreRefRun.txt (CoreRefRun.instr j), false)], wakes := wakes },
    fun _ _ => true⟩
def quiet (wbs : List Rob.Wb) (wakes : List Nat) : Sched.Cyc 4 := ⟨{ SpineRun.quiet with wbs := wbs, wakes := wakes }, fun _ _ => true⟩
/-- A cycle in which the integer ports are not free. -/
def busy (wakes : List Nat) (res : List (Exu.Op 4)) : Sched.Cyc 4 :=
  ⟨{ SpineRun.quiet with wakes := wakes, res := res }, fun i _ => decide (1 < i)⟩

/-- The reorder buffer; what each queue holds; what it has issued; the instructions broadcast. -/
def look (s : S) : List Nat × List (List Nat) × List (List Nat) × List Nat :=
  (robIds kq.sp s.sp, qs.map (fun q => (queued (s.iq q)).map (·.id)), qs.map s.out, (robIds kq.sp s.sp).filter s.ann)

/-- `addi` and `lui` are issued; the store `2` waits with both parts. -/
def p0 : List (Sched.Cyc 4) := [fetch 0 1 [], fetch 2 3 [], fetch 4 5 [], quiet [] []]

/-- They are broadcast and finish, the store finishes, the atomic `3` is dispatched, its load and address part are issued. -/
def p1 : List (Sched.Cyc 4) :=
  p0 ++ [quiet [] [33], quiet [WholeRun.wb 0 1, WholeRun.wb 1 1] [34], quiet [] [], quiet [WholeRun.wb 2 6] [],
    quiet [] [], quiet [] [], fetch 6 7 [], quiet [] []]

/-- The atomic's load and the load `4` are broadcast; `7`'s branch part is issued before the older branch `5`. -/
def p2 : List (Sched.Cyc 4) := p1 ++ [busy [35] [], busy [36] []]

/-- The branch is issued and found mispredicted. -/
def p3 : List (Sched.Cyc 4) := p2 ++ [busy [] [], busy [] [WholeRun.bne]]

theorem run0 : (drive (Sched.init 4 kq) p0).map look =
    some ([0, 1, 2], [[], [], [2], [2], []], [[0, 1], [], [], [], []], []) := by decide +kernel

theorem run1 : (drive (Sched.init 4 kq) p1).map look =
    some ([3, 4, 5], [[], [4], [], [3], [5]], [[0, 1], [3], [2, 3], [2], []], []) := by decide +kernel

theorem run2 : (drive (Sched.init 4 kq) p2).map look =
    some ([3, 4, 5, 6, 7], [[6, 7], [], [], [], [5]], [[0, 1], [3, 4], [2, 3], [2, 3], [7]], [3, 4]) := by decide +kernel

theorem run3 : (drive (Sched.init 4 kq) p3).map look =
    some ([3, 4, 5, 6, 7], [[6, 7], [], [], [], []], [[0, 1], [3, 4], [2, 3], [2, 3], [7, 5]], [3, 4]) := by decide +kernel

/-- The squash takes `6` and `7` out of the integer queue (C121_live). -/
theorem run4 : (drive (Sched.init 4 kq) (p3 ++ [quiet [] []])).map look =
    some ([3, 4, 5], [[], [], [], [], []], [[0, 1], [3, 4], [2, 3], [2, 3], [7, 5]], [3, 4]) := by decide +kernel

/-- With only `addi` broadcast the data part of the store goes, the address part does not. -/
example : (drive (Sched.init 4 kq) (p0 ++ [quiet [] [33], quiet [] []])).map look =
    some ([0, 1, 2], [[], [], [2], [], []], [[0, 1], [], [], [2], []], [0]) := by decide +kernel

instance (s : S) (j u : Nat) (m : Decode.MicroOp) (b : Bool) : Decidable (feeds s j u m b) := by unfold feeds; exact inferInstance

/-- C121_operands is not vacuous: the data part of the atomic reads what its own load returns; the branch `5` reads the result
of the load `4`. -/
example : (drive (Sched.init 4 kq) p1).map (fun s =>
    ((part s 3 .std).map (fun m => decide (feeds s 3 3 m false)),
      (part s 5 .br).map (fun m => [decide (feeds s 4 5 m false), decide (feeds s 4 5 m true)]))) =
    some (some true, some [true, false]) := by decide +kernel

/-- The states of the run are reachable; in the last cycle before `5` is issued the machine issues it (C121_operands, C121_first). -/
example : ∃ s x, drive (Sched.init 4 kq) p2 = some s ∧ Sched.Reach kq s ∧ x ∈ issued kq s (busy [] []) .br ∧ x.id = 5 := by
  have h : (drive (Sched.init 4 kq) p2).map (fun s => (issued kq s (busy [] []) .br).map (·.id)) = some [5] := by decide +kernel
  obtain ⟨s, hs, hl⟩ := Option.map_eq_some_iff.1 h
  obtain ⟨x, hx, e⟩ := List.mem_map.1 (show 5 ∈ (issued kq s (busy [] []) .br).map (·.id) by rw [hl]; simp)
  exact ⟨s, x, hs, drive_reach p2 .init hs, hx, e⟩

/-- C121_oldest: `0` and `1` wait together, both ready; `1` gets the second port, the older `0` the first. -/
example : (drive (Sched.init 4 kq) (p0.take 3)).map (fun s =>
    ((IssueQueue.granted true (kq.ports .int) (s.iq .int) (fun _ _ => true) false).map (fun g => (g.1, g.2.idx)),
      (queued (s.iq .int)).map (fun x => (x.id, IssueQueue.isReady x)))) =
    some ([(0, 0), (1, 1)], [(0, true), (1, true)]) := by decide +kernel

end SchedRun
end Verif.Props

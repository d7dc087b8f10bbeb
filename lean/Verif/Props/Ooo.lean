import Verif.Proofs.Ooo
import Verif.Props.Sched
/-
C122: the machine with its issue queues, in which an instruction executes when its operations have left the queues, runs the
program: its operands are there, and what retires is what the sequential machine, and the reference model, execute.
-/
namespace Verif.Props
open Verif.Spine Verif.Ooo Verif.SpineProofs Verif.OooProofs
open Verif.Core (W Sem Isa Item WfProg)
open Verif.CoreRef (Runnable refRun)
open Verif.Spec.ByteMem (Mem)
open Verif.IssueWindow (queued)
open Verif.Decode (Iq)

section
variable {n : Nat} {M : Type} {prog : W → Sem M} {k : Sched.Cfg} {prf : Nat → W} {pc : W} {m : M} {s : Ooo.State n M}

/-- C122: no queue ever fails its assertion that there is room. -/
theorem C122_no_assert (hk : Good k.sp) (h : Ooo.Reach prog k (Ooo.init n k prf pc m) s) (c : Ooo.Input n M) :
    ∃ s', Ooo.cycle prog k s c = some s' := by
  obtain ⟨t, ht⟩ := C121_no_assert hk (reach hk h).2.1 (cyc c)
  exact ⟨_, by rw [Ooo.cycle, ht, Option.map_some]⟩

/-- C122: an instruction whose operations have been issued reads the values a sequential machine has after the instructions
older than it in flight. -/
theorem C122_operands (hk : Good k.sp) (wf : WfProg prog k.sp.A) (h : Ooo.Reach prog k (Ooo.init n k prf pc m) s) {u : Nat}
    (hu : MayRun k s u) :
    Whole.arg1 prog s.w u = (prog (s.w.pay u).1).arg1 (Whole.isaAfter prog s.w (Whole.older k.sp s.w u)).regs ∧
    Whole.arg2 prog s.w u = (prog (s.w.pay u).1).arg2 (Whole.isaAfter prog s.w (Whole.older k.sp s.w u)).regs := by
  obtain ⟨h1, h2, J⟩ := reach hk h
  obtain ⟨hi, _⟩ := WholeProofs.simulate hk h1
  exact C110_operands hk wf h1 (canRun hk hi.reach J hu)

/-- C122: the value written for an instruction whose result-producing operation has been issued is the sequential machine's. -/
theorem C122_write (hk : Good k.sp) (wf : WfProg prog k.sp.A) (h : Ooo.Reach prog k (Ooo.init n k prf pc m) s) {u : Nat}
    (hu : MayWrite k s u) :
    (Ooo.write prog k s u).w.prf (s.w.sp.info u).preg =
      (Whole.isaAfter prog s.w (Whole.older k.sp s.w u ++ [u])).regs (s.w.sp.info u).areg := by
  have hr := Ooo.Reach.write h hu
  obtain ⟨_, _, J⟩ := reach hk h
  obtain ⟨hd, hf, _⟩ := J.rob u hu.mem
  exact C110_written hk wf (reach hk hr).1 (List.mem_append_left _ hu.mem) (if_pos rfl) (by
    show (s.w.sp.info u).destEn = true
    rw [← hf, hd.destEn]; exact hu.dest)

/-- C122: an atomic read-modify-write instruction in the reorder buffer is the oldest instruction in flight. -/
theorem C122_atomic_oldest (hk : Good k.sp) (h : Ooo.Reach prog k (Ooo.init n k prf pc m) s) {u : Nat}
    (hu : u ∈ robIds k.sp s.w.sp) (ha : (s.inst u).dec.type = .amo) : ∀ v ∈ inflight k.sp s.w.sp, u ≤ v := by
  obtain ⟨h1, h2, J⟩ := reach hk h
  obtain ⟨hi, _⟩ := WholeProofs.simulate hk h1
  have ho := (C106_ordered hk hi.reach).1
  intro v hv
  unfold inflight at hv ho
  rw [List.append_assoc] at hv ho
  rw [List.pairwise_append] at ho
  rcases List.mem_append.1 hv with hv | hv
  · exact J.alone u hu ha v hv
  · exact Nat.le_of_lt (ho.2.2 u hu v hv)

/-- C122: what the machine has retired, with the transfers of control between, is an execution of the program from the reset
state; the committed register map of rename gives that execution's registers. -/
theorem C122_refines (hk : Good k.sp) (wf : WfProg prog k.sp.A) (h : Ooo.Reach prog k (Ooo.init n k prf pc m) s) :
    Core.Runs prog ⟨pc, prf, m⟩ s.w.past s.w.isa ∧ ∀ a, a < k.sp.A → s.w.prf (s.w.sp.regs.arch a) = s.w.isa.regs a :=
  C110_refines hk wf (reach hk h).1

/-- C122: an instruction in flight that has run has found the sequential machine's successor and left its result. -/
theorem C122_results (hk : Good k.sp) (wf : WfProg prog k.sp.A) (h : Ooo.Reach prog k (Ooo.init n k prf pc m) s) {u : Nat}
    (hu : u ∈ Whole.ids k.sp s.w) (hd : s.w.done u = true) :
    s.w.act u = (Whole.isaAfter prog s.w (Whole.older k.sp s.w u ++ [u])).pc ∧
    ((s.w.sp.info u).destEn = true →
      s.w.prf (s.w.sp.info u).preg = (Whole.isaAfter prog s.w (Whole.older k.sp s.w u ++ [u])).regs (s.w.sp.info u).areg) :=
  C110_results hk wf (reach hk h).1 hu hd

end

section
variable {n : Nat} {text : W → W} {k : Sched.Cfg} {prf : Nat → W} {pc : W} {m : Mem} {s : Ooo.State n Mem}

/-- C122 on machine words: the reference model started in the same state and called once for every instruction the machine has
retired does not stop, and it has the 32 committed registers, next address and memory. -/
theorem C122_reference (hk : Good k.sp) (h : Ooo.Reach (Whole.machine text) k (Ooo.init n k prf pc m) s)
    (hi : ∀ i ∈ s.w.past, ∃ p, i = .inst p) (hg : Runnable text s.w.past.length ⟨pc, prf, m⟩)
    {r : RefCpu.State} (hr : CoreRef.Agrees ⟨pc, prf, m⟩ r) (F : Fp.SoftFloat) (e : Nat → RefCpu.Env) :
    ∃ r', refRun F e s.w.past.length r = some r' ∧ (∀ a, a < 32 → r'.gpr a = s.w.prf (s.w.sp.regs.arch a)) ∧
      r'.pc = s.w.isa.pc ∧ RefMem.view r'.mem = s.w.isa.ext :=
  C110_reference hk (reach hk h).1 hi hg hr F e

/-- The link value of a jump depends on no register. -/
theorem C122_link (w pc : W) (h : (Decode.decode w).type = .jal ∨ (Decode.decode w).type = .jalr) (m : Mem) (a a' b b' : W) :
    (CoreRef.coreSem w pc).value m a b = (CoreRef.coreSem w pc).value m a' b' := by
  have hd : (Decode.decode w).src1IsPc = true ∧ (Decode.decode w).src2IsImm = true := by
    have hf : ∀ u : Decode.DecInst, (Decode.decodeFinish u).type = u.type ∧ (Decode.decodeFinish u).src1IsPc = u.src1IsPc ∧
        (Decode.decodeFinish u).src2IsImm = u.src2IsImm := by
      intro u
      unfold Decode.decodeFinish
      simp only
      split <;> split <;> exact ⟨rfl, rfl, rfl⟩
    unfold Decode.decode at h ⊢
    obtain ⟨h1, h2, h3⟩ := hf (Decode.decodeOpcode w (Decode.decodeFields w))
    rw [h1] at h
    rw [h2, h3]
    revert h
    unfold Decode.decodeOpcode
    split
    all_goals first
      | exact fun _ => ⟨rfl, rfl⟩
      | (intro h; rcases h with h | h <;> cases h)
      | (intro h; exfalso; unfold Decode.decodeSystem at h; simp only at h; revert h; repeat' split
         all_goals (intro h; rcases h with h | h <;> cases h))
      | (intro h; simp only at h; revert h; repeat' split
         all_goals (intro h; rcases h with h | h <;> cases h))
  unfold CoreRef.coreSem
  simp only
  rcases h with h | h <;>
    simp [h, CoreRef.valueOf, Decode.decompose, Decode.intResult, Decode.MicroOp.toInst, Fu.alu, hd.1, hd.2, Fu.operand1, Fu.operand2]

/-- The meaning of a machine word reads what its decoded form says. -/
theorem C122_uses (pc : W) : Uses (Decode.decodeEntry (text pc) false) (Whole.machine text pc) :=
  ⟨id, id, fun h => C122_link (text pc) pc h⟩

end

/-! ### A concrete run

The program of `CoreRefRun` with the queues of `SchedRun`; instructions run when their operations have left the queues. -/

namespace OooRun
open WholeRun (prg at_ wb bne jal)
open SchedRun (kq qs)

abbrev St := Ooo.State 4 Mem

inductive Act where
  | cyc (hw : Spine.Cyc 4) (slots : List (W × W)) (fu : Nat → Nat → Bool)
  | run (u : Nat)
  | write (u : Nat)

def inp (hw : Spine.Cyc 4) (slots : List (W × W)) (fu : Nat → Nat → Bool) : Ooo.Input 4 Mem := ⟨⟨hw, slots, 0#32, id⟩, fu⟩

def ok (s : St) (c : Ooo.Input 4 Mem) : Bool :=
  WholeRun.ok s.w (Ooo.input kq s c) && SchedRun.ok (sched s) (cyc c) && WholeRun.codeOk c.inp.hw.ib c.inp.slots &&
  (robIds kq.sp s.w.sp).all fun j => !s.ann j || s.w.done j || s.w.wrote j

theorem ok_sound {s : St} {c : Ooo.Input 4 Mem} (h : ok s c = true) : Ooo.Valid prg kq s c := by
  simp only [ok, Bool.and_eq_true] at h
  refine ⟨WholeRun.ok_sound h.1.1.1, SchedRun.ok_sound h.1.1.2, ?_, fun j hj ha => ?_⟩
  · intro i w pf a hi ha
    have hm : (some (w, pf), a) ∈ c.inp.hw.ib.zip c.inp.slots := by
      refine List.mem_of_getElem? (i := i) ?_
      rw [List.getElem?_zip_eq_some]
      exact ⟨hi, ha⟩
    have := List.all_eq_true.1 h.1.2 _ hm
    simp only [Bool.and_eq_true, Bool.not_eq_true', decide_eq_true_eq] at this
    rw [this.1, this.2]
    exact C122_uses a.1
  · have := List.all_eq_true.1 h.2 j hj
    rw [ha] at this
    simpa using this

def runOk (s : St) (u : Nat) : Bool :=
  decide (u ∈ robIds kq.sp s.w.sp) && !s.w.done u &&
  qs.all fun q => match Sched.part (sched s) u q with | none => true | some m => m.src1FromDest || decide (u ∈ s.out q)

theorem runOk_sound {s : St} {u : Nat} (h : runOk s u = true) : MayRun kq s u := by
  simp only [runOk, Bool.and_eq_true, decide_eq_true_eq, Bool.not_eq_true'] at h
  refine ⟨h.1.1, h.1.2, fun q m hm hs => ?_⟩
  have hq : q ∈ qs := by cases q <;> simp [qs]
  have := List.all_eq_true.1 h.2 q hq
  rw [hm] at this
  simp only [hs, Bool.false_or, decide_eq_true_eq] at this
  exact this

def writeOk (s : St) (u : Nat) : Bool :=
  decide (u ∈ robIds kq.sp s.w.sp) && !s.w.done u && (s.inst u).dec.destEn &&
  qs.all fun q => match Sched.part (sched s) u q with | none => true | some m => !m.inst.destEn || decide (u ∈ s.out q)

theorem writeOk_sound {s : St} {u : Nat} (h : writeOk s u = true) : MayWrite kq s u := by
  simp only [writeOk, Bool.and_eq_true, decide_eq_true_eq, Bool.not_eq_true'] at h
  refine ⟨h.1.1.1, h.1.1.2, h.1.2, fun q m hm hs => ?_⟩
  have hq : q ∈ qs := by cases q <;> simp [qs]
  have := List.all_eq_true.1 h.2 q hq
  rw [hm] at this
  simp only [hs, Bool.not_true, Bool.false_or, decide_eq_true_eq] at this
  exact this

def drive1 (s : St) : Act → Option St
  | .cyc hw sl fu => if ok s (inp hw sl fu) then Ooo.cycle prg kq s (inp hw sl fu) else none
  | .run u => if runOk s u then some (Ooo.run prg kq s u) else none
  | .write u => if writeOk s u then some (Ooo.write prg kq s u) else none

def drive (s : St) : List Act → Option St
  | [] => some s
  | a :: l => (drive1 s a).bind fun t => drive t l

theorem drive_reach {s0 : St} : ∀ (l : List Act) {s t : St}, Ooo.Reach prg kq s0 s → drive s l = some t → Ooo.Reach prg kq s0 t
  | [], _, _, h, e => by cases e; exact h
  | a :: l, s, t, h, e => by
    obtain ⟨r, h1, h2⟩ := Option.bind_eq_some_iff.1 e
    refine drive_reach l ?_ h2
    cases a with
    | cyc hw sl fu =>
      rw [drive1] at h1
      split at h1
      · rename_i hk; exact .cycle _ h (ok_sound hk) h1
      · cases h1
    | run u =>
      rw [drive1] at h1
      split at h1
      · rename_i hk; cases h1; exact .run h (runOk_sound hk)
      · cases h1
    | write u =>
      rw [drive1] at h1
      split at h1
      · rename_i hk; cases h1; exact .write h (writeOk_sound hk)
      · cases h1

def sys0 : St := Ooo.init 4 kq (fun _ => 0#32) CoreRefRun.start CoreRefRun.m0

def quiet (wakes : List Nat) (l : List Rob.Wb) (r : List (Exu.Op 4)) : Act :=
  .cyc { SpineRun.quiet with wbs := l, res := r, wakes := wakes } [(0#32, 0#32), (0#32, 0#32)] fun _ _ => true
/-- A cycle in which the integer ports are not free. -/
def busy (wakes : List Nat) (r : List (Exu.Op 4)) : Act :=
  .cyc { SpineRun.quiet with res := r, wakes := wakes } [(0#32, 0#32), (0#32, 0#32)] fun i _ => decide (1 < i)
/-- Fetch instructions `i` and `j`, predicting `i'` and `j'` after them. -/
def fetch (i i' j j' : Nat) : Act :=
  .cyc { SpineRun.quiet with ib := [some (CoreRefRun.txt (at_ i), false), some (CoreRefRun.txt (at_ j), false)] }
    [(at_ i, at_ i'), (at_ j, at_ j')] fun _ _ => true

def part1 : List Act :=
  [fetch 0 1 1 2, fetch 2 3 3 4, fetch 4 5 5 6, quiet [] [] [], .run 1, .run 0, quiet [33] [] [],
   quiet [34] [wb 0 1, wb 1 1] [], quiet [] [] [], .run 2, quiet [] [wb 2 6] [], quiet [] [] [], quiet [] [] [], fetch 6 7 7 0,
   quiet [] [] [], .run 3, busy [35] [], .run 4, busy [36] [], busy [] [], .run 5, busy [] [bne]]

def part2 : List Act :=
  [quiet [] [wb 5 7, wb 6 1] [], fetch 7 0 0 1, quiet [] [] [], quiet [] [] [], quiet [] [] [], .run 9, .run 8,
   quiet [37] [wb 0 1, wb 1 1] [jal], quiet [] [] []]

/-- Before the squash: the branch has run, the wrong path waits in the queues. -/
theorem run1 : (drive sys0 part1).map (fun s => SchedRun.look (sched s)) =
      some ([3, 4, 5, 6, 7], [[6, 7], [], [], [], []], [[0, 1], [3, 4], [2, 3], [2, 3], [7, 5]], [3, 4]) ∧
    (drive sys0 part1).map (fun s => WholeRun.look s.w) =
      some ([3, 4, 5, 6, 7], [0#32, 5#32, 0x80001000#32, 0#32, 0#32, 0#32], [at_ 0, at_ 1, at_ 2], at_ 3, 5#32) := by
  decide +kernel

theorem run2 : (drive sys0 (part1 ++ part2)).map (fun s => SchedRun.look (sched s)) =
      some ([], [[], [], [], [], []], [[0, 1, 8, 9], [3, 4], [2, 3], [2, 3], [7, 5, 8]], []) ∧
    (drive sys0 (part1 ++ part2)).map (fun s => WholeRun.look s.w) =
      some ([], [0#32, 5#32, 0x80001000#32, 5#32, 10#32, 0x80000020#32],
        [at_ 0, at_ 1, at_ 2, at_ 3, at_ 4, at_ 5, at_ 7, at_ 0], at_ 1, 10#32) := by decide +kernel

/-- The store `2` may not run when its producers have, but when both its parts have left the queues; the atomic `3` when its load
and address have, before its data part (C122_operands); it is then the oldest (C122_atomic_oldest). -/
example : (drive sys0 (part1.take 7)).map (fun s => (runOk s 2, WholeRun.runOk s.w 2)) = some (false, true) ∧
    (drive sys0 (part1.take 9)).map (fun s => (runOk s 2, s.out .sta, s.out .std)) = some (true, [2], [2]) ∧
    (drive sys0 (part1.take 15)).map (fun s => (runOk s 3, s.out .ld, s.out .sta, s.out .std)) = some (true, [3], [2, 3], [2]) ∧
    (drive sys0 (part1.take 15)).map (fun s => (decide ((s.inst 3).dec.type = .amo), inflight kq.sp s.w.sp)) =
      some (true, [3, 4, 5, 6, 7]) := by decide +kernel

/-- A cycle in which the branch port is not free. -/
def nobr (wakes : List Nat) : Act :=
  .cyc { SpineRun.quiet with wakes := wakes } [(0#32, 0#32), (0#32, 0#32)] fun i _ => decide (i ≠ 5)

/-- The link register of the jump `8` is written and announced while its branch operation waits (C122_write); announced without
being written would not be honest. -/
def part3 : List Act := part2.take 4 ++ [nobr [], .write 8, nobr [37]]

example : (drive sys0 (part1 ++ part3.take 5)).map (fun s => (writeOk s 8, runOk s 8)) = some (true, false) ∧
    (drive sys0 (part1 ++ part3)).map (fun s => (s.w.done 8, s.w.wrote 8, s.ann 8, s.w.prf (s.w.sp.info 8).preg,
      (queued (s.iq .br)).map (·.id))) = some (false, true, true, 0x80000020#32, [8]) ∧
    (drive sys0 (part1 ++ part3.take 5 ++ [nobr [37], nobr []])).isSome = false := by decide +kernel

/-- The hypotheses of C122 hold of this run: the reference, called eight times, agrees. -/
example (F : Fp.SoftFloat) (e : Nat → RefCpu.Env) : ∃ s r', drive sys0 (part1 ++ part2) = some s ∧
    Ooo.Reach prg kq sys0 s ∧ refRun F e 8 CoreRefRun.ref0 = some r' ∧
    (∀ a, a < 32 → r'.gpr a = s.w.prf (s.w.sp.regs.arch a)) ∧ r'.pc = s.w.isa.pc ∧ r'.gpr 4 = 10#32 := by
  have h : ((drive sys0 (part1 ++ part2)).map fun s => (s.w.past.length,
      s.w.past.all (fun i => match i with | .inst _ => true | .jump _ _ => false), s.w.prf (s.w.sp.regs.arch 4))) =
      some (8, true, 10#32) := by decide +kernel
  obtain ⟨s, hs, hl⟩ := Option.map_eq_some_iff.1 h
  rw [Prod.mk.injEq, Prod.mk.injEq] at hl
  have hi : ∀ i ∈ s.w.past, ∃ p, i = .inst p := by
    intro i hi
    have := List.all_eq_true.1 hl.2.1 i hi
    cases i with
    | inst p => exact ⟨p, rfl⟩
    | jump p g => simp at this
  have hr := drive_reach (part1 ++ part2) (s0 := sys0) .init hs
  obtain ⟨r', h1, h2, h3, -⟩ := C122_reference (k := kq) SpineRun.kx_good hr hi (by rw [hl.1]; exact WholeRun.runnable8)
    CoreRefRun.agrees0 F e
  rw [hl.1] at h1
  exact ⟨s, r', hs, hr, h1, h2, h3, (h2 4 (by decide)).trans hl.2.2⟩

end OooRun
end Verif.Props

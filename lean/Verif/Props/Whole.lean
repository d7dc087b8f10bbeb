import Verif.Proofs.WholeRun
import Verif.Props.CoreRef
import Verif.Spec.WholeRef
/-
C110: decode, rename, dispatch, the reorder buffer and branch recovery, put together and running a program, retire an execution
of that program, and on programs of machine words the one of the reference model.
-/
namespace Verif.Props
open Verif.Spine Verif.Whole Verif.SpineProofs Verif.WholeProofs
open Verif.Core (W Sem Isa Item WfProg)
open Verif.CoreRef (Runnable refRun)
open Verif.Spec.ByteMem (Mem)

section
variable {n : Nat} {M : Type} {prog : W → Sem M} {k : Cfg} {prf : Nat → W} {pc : W} {m : M} {s : Whole.State n M}

/-- C110: what the stages have retired, with the transfers of control between, is an execution of the program from the reset
state; the committed register map of rename gives that execution's registers. -/
theorem C110_refines (hk : Good k) (wf : WfProg prog k.A) (h : Whole.Reach prog k (Whole.init n k prf pc m) s) :
    Core.Runs prog ⟨pc, prf, m⟩ s.past s.isa ∧ ∀ a, a < k.A → s.prf (s.sp.regs.arch a) = s.isa.regs a := by
  obtain ⟨_, bw, rw, Z, g, hl, hr⟩ := simulate hk h
  obtain ⟨h1, h2⟩ := C91_refines (by have := hk.regs; omega) hk.pregs wf hr
  refine ⟨h1, fun a ha => ?_⟩
  have := h2 a ha
  rw [← hl.regs]; exact this

/-- An instruction in the reorder buffer whose older producers have run reads the values a sequential machine has after the
older instructions in flight. -/
theorem C110_operands (hk : Good k) (wf : WfProg prog k.A) (h : Whole.Reach prog k (Whole.init n k prf pc m) s) {u : Nat}
    (hc : Whole.CanRun prog k s u) :
    Whole.arg1 prog s u = (prog (s.pay u).1).arg1 (isaAfter prog s (older k s u)).regs ∧
    Whole.arg2 prog s u = (prog (s.pay u).1).arg2 (isaAfter prog s (older k s u)).regs := by
  obtain ⟨hi, bw, rw, Z, g, hl, hr⟩ := simulate hk h
  obtain ⟨A, f, B, hAB, rfl, hold, _, _, ht⟩ := stand hk hi.reach hl (List.mem_append_left _ hc.mem)
  have hcr : Core.CanRun prog (A.map (task s)) (task s f) :=
    ⟨hc.fresh, fun h => settled_flights (by rw [← hold]; exact hc.one h), fun h => settled_flights (by rw [← hold]; exact hc.two h)⟩
  have h := C90_operands (by have := hk.regs; omega) hk.pregs wf hr ht hcr
  rw [show (coreOf s rw (ids k s)).isa = s.isa from rfl, after_flights, ← hold] at h
  exact h

/-- An instruction in flight that has run has found its successor, and left its result in its destination register. -/
theorem C110_results (hk : Good k) (wf : WfProg prog k.A) (h : Whole.Reach prog k (Whole.init n k prf pc m) s) {u : Nat}
    (hu : u ∈ ids k s) (hd : s.done u = true) :
    s.act u = (isaAfter prog s (older k s u ++ [u])).pc ∧
    ((s.sp.info u).destEn = true → s.prf (s.sp.info u).preg = (isaAfter prog s (older k s u ++ [u])).regs (s.sp.info u).areg) := by
  obtain ⟨hi, bw, rw, Z, g, hl, hr⟩ := simulate hk h
  obtain ⟨A, f, B, hAB, rfl, hold, _, _, ht⟩ := stand hk hi.reach hl hu
  have h := C90_results (by have := hk.regs; omega) hk.pregs wf hr ht hd
  have e : Core.after prog (coreOf s rw (ids k s)).isa (A.map (task s) ++ [task s f]) =
      isaAfter prog s (older k s f.seq ++ [f.seq]) := by
    have := after_flights (prog := prog) s (A ++ [f])
    rw [List.map_append, List.map_append, ← hold] at this
    exact this
  rw [e] at h
  exact h

/-- One that has only written its result has left the right one in its destination register. -/
theorem C110_written (hk : Good k) (wf : WfProg prog k.A) (h : Whole.Reach prog k (Whole.init n k prf pc m) s) {u : Nat}
    (hu : u ∈ ids k s) (hd : s.wrote u = true) (he : (s.sp.info u).destEn = true) :
    s.prf (s.sp.info u).preg = (isaAfter prog s (older k s u ++ [u])).regs (s.sp.info u).areg := by
  obtain ⟨hi, bw, rw, Z, g, hl, hr⟩ := simulate hk h
  obtain ⟨A, f, B, hAB, rfl, hold, _, _, ht⟩ := stand hk hi.reach hl hu
  have h := C90_written (by have := hk.regs; omega) hk.pregs wf hr ht hd he
  have e : Core.after prog (coreOf s rw (ids k s)).isa (A.map (task s) ++ [task s f]) =
      isaAfter prog s (older k s f.seq ++ [f.seq]) := by
    have := after_flights (prog := prog) s (A ++ [f])
    rw [List.map_append, List.map_append, ← hold] at this
    exact this
  rw [e] at h
  exact h

/-- Two machines of different sizes, widths and branch capacities, with different timing and predictions, that retired the same
number of instructions between the same transfers of control, retired the same instructions and have the same registers. -/
theorem C110_schedule_free {n' : Nat} {k' : Cfg} {s' : Whole.State n' M} (hk : Good k) (hk' : Good k') (hA : k.A = k'.A)
    (wf : WfProg prog k.A) (h : Whole.Reach prog k (Whole.init n k prf pc m) s)
    (h' : Whole.Reach prog k' (Whole.init n' k' prf pc m) s')
    (hp : s.past.map (fun i => match i with | .inst _ => none | .jump p g => some (p, g)) =
      s'.past.map (fun i => match i with | .inst _ => none | .jump p g => some (p, g))) :
    s.past = s'.past ∧ ∀ a, a < k.A → s.prf (s.sp.regs.arch a) = s'.prf (s'.sp.regs.arch a) := by
  obtain ⟨_, _, rw1, _, _, hl1, hr1⟩ := simulate hk h
  obtain ⟨_, _, rw2, _, _, hl2, hr2⟩ := simulate hk' h'
  rw [← hA] at hr2
  have := C91_schedule_free (by have := hk.regs; omega) hk.pregs (by have := hk'.pregs; omega) wf hr1 hr2 rfl hp
  rw [← hl1.regs, ← hl2.regs]
  exact this

end

section
variable {n : Nat} {text : W → W} {k : Cfg} {prf : Nat → W} {pc : W} {m : Mem} {s : Whole.State n Mem}

/-- C110 on machine words: the reference model started in the same state and called once for every instruction the stages have
retired does not stop, and it has the 32 committed registers, next address and memory. -/
theorem C110_reference (hk : Good k) (h : Whole.Reach (machine text) k (Whole.init n k prf pc m) s)
    (hi : ∀ i ∈ s.past, ∃ p, i = .inst p) (hg : Runnable text s.past.length ⟨pc, prf, m⟩)
    {r : RefCpu.State} (hr : CoreRef.Agrees ⟨pc, prf, m⟩ r) (F : Fp.SoftFloat) (e : Nat → RefCpu.Env) :
    ∃ r', refRun F e s.past.length r = some r' ∧ (∀ a, a < 32 → r'.gpr a = s.prf (s.sp.regs.arch a)) ∧
      r'.pc = s.isa.pc ∧ RefMem.view r'.mem = s.isa.ext := by
  obtain ⟨h1, h2⟩ := C110_refines hk (machine_wf (Nat.le_of_lt hk.regs)) h
  obtain ⟨r', hr', ha⟩ := CoreRef.run_agrees (F := F) e rfl hi (machine_runs h1) hg hr
  exact ⟨r', hr', fun a ha32 => (ha.regs a ha32).trans (h2 a (by have := hk.regs; omega)).symm, ha.pc, ha.mem⟩

end

/-! ### A concrete run

The program of `CoreRefRun` (`addi`, `lui`, `sw`, `amoadd.w`, `lb`, `bne`, `addi`, `jal`), two instructions per cycle, eight
reorder-buffer entries, the branch predicted not taken. -/

namespace WholeRun
open Verif.Core (Fetched Path)

abbrev prg : W → Sem Mem := machine CoreRefRun.txt
abbrev kx : Cfg := SpineRun.kx
abbrev St := Whole.State 4 Mem

inductive Act where
  | cyc (hw : Spine.Cyc 4) (slots : List (W × W))
  | run (u : Nat)

def input (hw : Spine.Cyc 4) (slots : List (W × W)) : Whole.Input 4 Mem := ⟨hw, slots, 0#32, id⟩

def spineOk (s : Spine.St 4) (c : Spine.Cyc 4) : Bool :=
  c.ib.length == 2 &&
  c.res.all (fun o =>
    (live kx s).any (fun u => decide (u.robIdx = o.robIdx) && decide ((s.info u.id).tag = some o.brId) && !u.cplt.getLsbD 1) ||
    (decide (o.brId = 0) && !o.mispred &&
      (RobQueue.insts kx.L s.rob).all (fun u => !decide (u.robIdx = o.robIdx) || decide ((s.info u.id).tag = none)))) &&
  c.wbs.all (fun w => !w.bit.getLsbD 1 ||
    (RobQueue.insts kx.L s.rob).all (fun u => !decide (u.robIdx = w.robIdx) || decide ((s.info u.id).tag = none)))

theorem spineOk_sound {s : Spine.St 4} {c : Spine.Cyc 4} (h : spineOk s c = true) : Spine.Valid kx s c := by
  simp only [spineOk, Bool.and_eq_true, Bool.or_eq_true, beq_iff_eq, List.all_eq_true, List.any_eq_true, decide_eq_true_eq,
    Bool.not_eq_true', decide_eq_false_iff_not] at h
  refine ⟨h.1.1, fun o ho => ?_, fun w hw hb u hu e => ?_⟩
  · rcases h.1.2 o ho with ⟨u, hu, ⟨h1, h2⟩, h3⟩ | ⟨⟨h1, h2⟩, h3⟩
    · exact .inl ⟨u, hu, h1, h2, h3⟩
    · exact .inr ⟨h1, h2, fun u hu e => (h3 u hu).resolve_left (fun h => h e)⟩
  · rcases h.2 w hw with h | h
    · rw [h] at hb; cases hb
    · exact (h u hu).resolve_left (fun h => h e)

/-- The successor of a word that is no branch: the next word, or the target of `JAL`. -/
def follows (w pc : W) : W := if (Decode.decode w).type = .jal then pc + (Decode.decode w).imm else pc + 4#32

def codeOk (ib : List (Option (W × Bool))) (slots : List (W × W)) : Bool :=
  (ib.zip slots).all fun x => match x.1 with | none => true | some (w, pf) => !pf && decide (w = CoreRefRun.txt x.2.1)

def ok (s : St) (c : Whole.Input 4 Mem) : Bool :=
  spineOk s.sp c.hw &&
  c.hw.res.all (fun o => (live kx s.sp).all fun u => !decide (u.robIdx = o.robIdx) || (decide (o.robFlag = u.robFlag) &&
    (!(s.sp.info u.id).tag.isSome || (s.done u.id && decide (o.mispred = decide (s.act u.id ≠ (s.pay u.id).2)))))) &&
  decide (c.slots.length = c.hw.ib.length) && codeOk c.hw.ib c.slots &&
  (RobQueue.insts kx.L s.sp.rob).all (fun u => !Rob.complete u || s.done u.id) &&
  @decide (Path s.expect (fetched kx s c)) (CoreRun.decPath _ _) &&
  (fetched kx s c).all (fun o => match o with
    | none => true
    | some f => (prg f.pc).isBr || (decide (f.pn = follows (CoreRefRun.txt f.pc) f.pc) &&
        (decide ((Decode.decode (CoreRefRun.txt f.pc)).type ≠ .jal) || !(Decode.decode (CoreRefRun.txt f.pc)).src1En)))

theorem follows_next {w pc : W} (hb : isBranch (Decode.decode w) = false)
    (hj : (Decode.decode w).type ≠ .jal ∨ (Decode.decode w).src1En = false) (a b : W) : CoreRef.nextOf w pc a b = follows w pc := by
  unfold isBranch at hb
  simp only [Bool.or_eq_false_iff, beq_eq_false_iff_ne] at hb
  unfold follows
  by_cases ht : (Decode.decode w).type = .jal
  · rw [if_pos ht]
    have hj := hj.resolve_left (fun h => h ht)
    unfold CoreRef.nextOf Decode.decompose
    rw [ht]
    simp [Fu.bru, Fu.bruTaken, Fu.bruTarget, Decode.MicroOp.toInst, hj]
  · rw [if_neg ht]
    exact CoreRef.next_other ⟨hb.1, ht, hb.2⟩ a b

theorem ok_sound {s : St} {c : Whole.Input 4 Mem} (h : ok s c = true) : Whole.Valid prg kx s c := by
  simp only [ok, Bool.and_eq_true, Bool.or_eq_true, List.all_eq_true, decide_eq_true_eq, Bool.not_eq_true',
    decide_eq_false_iff_not] at h
  obtain ⟨⟨⟨⟨⟨⟨h1, h2⟩, h3⟩, h4⟩, h5⟩, h6⟩, h7⟩ := h
  refine ⟨spineOk_sound h1, ?_, h3, ?_, ?_, ?_, fun _ => h6, ?_⟩
  · intro o ho u hu e
    exact ((h2 o ho u hu).resolve_left (fun h => h e)).1
  · intro i w pf a hi ha
    have hm : (some (w, pf), a) ∈ c.hw.ib.zip c.slots := by
      refine List.mem_of_getElem? (i := i) ?_
      rw [List.getElem?_zip_eq_some]
      exact ⟨hi, ha⟩
    have := List.all_eq_true.1 h4 _ hm
    simp only [Bool.and_eq_true, Bool.not_eq_true', decide_eq_true_eq] at this
    rw [this.1, this.2]
    exact machine_agrees
  · intro u hu hc _ _
    rcases h5 u hu with h | h
    · rw [hc] at h; cases h
    · exact h
  · intro o ho u hu e ht
    rcases ((h2 o ho u hu).resolve_left (fun h => h e)).2 with h | h
    · rw [ht] at h; cases h
    · exact h
  · intro _ f hf hb _ m a b
    have := h7 _ hf
    simp only [Bool.or_eq_true, Bool.and_eq_true, decide_eq_true_eq, Bool.not_eq_true'] at this
    rcases this with h | ⟨h, hj⟩
    · rw [hb] at h; cases h
    · rw [h]; exact follows_next hb hj a b

instance (s : St) (l : List Nat) (p : Nat) : Decidable (Whole.Settled s l p) := by unfold Whole.Settled; exact inferInstance

def runOk (s : St) (u : Nat) : Bool :=
  decide (u ∈ robIds kx s.sp) && decide (s.done u = false) &&
  decide ((prg (s.pay u).1).use1 = true → Whole.Settled s (older kx s u) (s.src u).1) &&
  decide ((prg (s.pay u).1).use2 = true → Whole.Settled s (older kx s u) (s.src u).2)

theorem runOk_sound {s : St} {u : Nat} (h : runOk s u = true) : Whole.CanRun prg kx s u := by
  simp only [runOk, Bool.and_eq_true, decide_eq_true_eq] at h
  exact ⟨h.1.1.1, h.1.1.2, h.1.2, h.2⟩

def drive1 (s : St) : Act → Option St
  | .cyc hw sl => if ok s (input hw sl) then some (Whole.cycle prg kx s (input hw sl)) else none
  | .run u => if runOk s u then some (Whole.finish prg kx s u) else none

def drive (s : St) : List Act → Option St
  | [] => some s
  | a :: l => (drive1 s a).bind fun t => drive t l

theorem drive_reach {s0 : St} : ∀ (l : List Act) {s t : St}, Whole.Reach prg kx s0 s → drive s l = some t → Whole.Reach prg kx s0 t
  | [], _, _, h, e => by cases e; exact h
  | a :: l, s, t, h, e => by
    obtain ⟨r, h1, h2⟩ := Option.bind_eq_some_iff.1 e
    refine drive_reach l ?_ h2
    cases a with
    | cyc hw sl =>
      rw [drive1] at h1
      split at h1
      · rename_i hk; cases h1; exact .cycle _ h (ok_sound hk)
      · cases h1
    | run u =>
      rw [drive1] at h1
      split at h1
      · rename_i hk; cases h1; exact .run h (runOk_sound hk)
      · cases h1

def sys0 : St := Whole.init 4 kx (fun _ => 0#32) CoreRefRun.start CoreRefRun.m0

def at_ (i : Nat) : W := CoreRefRun.instr i
def quiet (l : List Rob.Wb) (r : List (Exu.Op 4)) : Act := .cyc { SpineRun.quiet with wbs := l, res := r } [(0#32, 0#32), (0#32, 0#32)]
/-- Fetch instructions `i` and `j`, predicting `i'` and `j'` after them. -/
def fetch (i i' j j' : Nat) : Act :=
  .cyc { SpineRun.quiet with ib := [some (CoreRefRun.txt (at_ i), false), some (CoreRefRun.txt (at_ j), false)] }
    [(at_ i, at_ i'), (at_ j, at_ j')]
def wb (i : Nat) (b : BitVec 3) : Rob.Wb := ⟨i, .other, b, 0, 0, false, false, false, false⟩
def bne : Exu.Op 4 := ⟨5, 0, 0, 0#4, 7, false, 1, true, at_ 7, false, 0, 0⟩
def jal : Exu.Op 4 := ⟨8, 0, 0, 0#4, 0, true, 0, false, at_ 0, false, 0, 0⟩

/-- The `lui` runs before the `addi` and the wrong-path instruction `6` before the branch; the read-modify-write instruction
waits until it is alone. -/
def part1 : List Act :=
  [fetch 0 1 1 2, fetch 2 3 3 4, fetch 4 5 5 6, quiet [] [], .run 1, .run 0, .run 2, quiet [wb 0 1, wb 1 1, wb 2 6] [],
   quiet [] [], quiet [] [], quiet [] [], fetch 6 7 7 0, quiet [] [], quiet [] [], .run 6, .run 3, .run 4, .run 5,
   quiet [wb 5 7] [bne]]

/-- The broadcast, the right path, and the end. -/
def part2 : List Act :=
  [quiet [wb 6 1] [], fetch 7 0 0 1, quiet [] [], quiet [] [], .run 9, .run 8, quiet [wb 0 1, wb 1 1] [jal], quiet [] []]

def look (s : St) : List Nat × List W × List W × W × W :=
  (inflight kx s.sp, (List.range 6).map (fun a => s.prf (s.sp.regs.arch a)),
    s.past.map (fun i => match i with | .inst p => p | .jump _ _ => 0#32), s.isa.pc,
    Spec.ByteMem.load s.isa.ext .word false 0x80001000#32)

/-- Before the broadcast the wrong path has already written `x4 = 99` in its physical register; the committed one is as at reset. -/
theorem run1 : ((drive sys0 part1).map look) =
    some ([3, 4, 5, 6, 7], [0#32, 5#32, 0x80001000#32, 0#32, 0#32, 0#32], [at_ 0, at_ 1, at_ 2], at_ 3, 5#32) := by
  decide +kernel

example : ((drive sys0 part1).map fun s => (s.sp.idu.latch.mispred, s.prf (s.sp.info 6).preg, s.prf (s.sp.info 4).preg)) =
    some (true, 99#32, 10#32) := by
  decide +kernel

theorem run2 : ((drive sys0 (part1 ++ part2)).map look) =
    some ([], [0#32, 5#32, 0x80001000#32, 5#32, 10#32, 0x80000020#32],
      [at_ 0, at_ 1, at_ 2, at_ 3, at_ 4, at_ 5, at_ 7, at_ 0], at_ 1, 10#32) := by
  decide +kernel

theorem runnable8 : Runnable CoreRefRun.txt 8 ⟨CoreRefRun.start, fun _ => 0#32, CoreRefRun.m0⟩ := by
  obtain ⟨a0, b0, c0, a1, b1, c1, a2, b2, c2, a3, b3, c3, a4, b4, c4, a5, b5, c5, a6, b6, c6, -⟩ := CoreRefRun.runnable0
  exact ⟨a0, b0, c0, a1, b1, c1, a2, b2, c2, a3, b3, c3, a4, b4, c4, a5, b5, c5, a6, b6, c6, by decide +kernel, by decide +kernel,
    .int (.i .addi 1 0 5) (by decide +kernel) id, trivial⟩

/-- The hypotheses of C110 hold of this run: the reference, called eight times, agrees. -/
example (F : Fp.SoftFloat) (e : Nat → RefCpu.Env) : ∃ s r', drive sys0 (part1 ++ part2) = some s ∧
    Whole.Reach prg kx sys0 s ∧ refRun F e 8 CoreRefRun.ref0 = some r' ∧
    (∀ a, a < 32 → r'.gpr a = s.prf (s.sp.regs.arch a)) ∧ r'.pc = s.isa.pc ∧ r'.gpr 4 = 10#32 := by
  have h : ((drive sys0 (part1 ++ part2)).map fun s => (s.past.length, s.past.all (fun i => match i with | .inst _ => true | .jump _ _ => false),
      s.prf (s.sp.regs.arch 4))) = some (8, true, 10#32) := by decide +kernel
  obtain ⟨s, hs, hl⟩ := Option.map_eq_some_iff.1 h
  rw [Prod.mk.injEq, Prod.mk.injEq] at hl
  have hi : ∀ i ∈ s.past, ∃ p, i = .inst p := by
    intro i hi
    have := List.all_eq_true.1 hl.2.1 i hi
    cases i with
    | inst p => exact ⟨p, rfl⟩
    | jump p g => simp at this
  have hr := drive_reach (part1 ++ part2) (s0 := sys0) .init hs
  obtain ⟨r', h1, h2, h3, -⟩ := C110_reference SpineRun.kx_good hr hi (by rw [hl.1]; exact runnable8) CoreRefRun.agrees0 F e
  rw [hl.1] at h1
  exact ⟨s, r', hs, hr, h1, h2, h3, (h2 4 (by decide)).trans hl.2.2⟩

/-- The branch is in flight and has run before the broadcast (C110_results), `4` may run before it has (C110_operands). -/
example : ((drive sys0 part1).map fun s => (decide (5 ∈ ids kx s), s.done 5, s.act 5, older kx s 5)) = some (true, true, at_ 7, [3, 4]) ∧
    ((drive sys0 (part1.take 16)).map fun s => runOk s 4) = some true := by decide +kernel

end WholeRun
end Verif.Props

import Verif.Proofs.FullCpuStep
import Verif.Props.Whole
import Verif.Props.Jal
/-
C120.  The front end with its instruction cache, the hand-over, the queues in front of decode, and the stages from decode to
retirement, as one machine: what the two halves assume of each other holds, so started at the reset address it executes the
program in memory.
-/
namespace Verif.Props
open Verif.FullCpu Verif.FullCpuProofs
open Verif.Spine (Good inflight)
open Verif.Core (W Sem WfProg)
open Verif.HandOff (Insn)
open Verif.FetchStream (Ev IsJal jalTarget)
open Verif.ICache (World)
open Verif.Spec.ByteMem (Mem)
open Verif.Decode

section
variable {F n : Nat} [NeZero F] {M : Type} {k : FullCpu.Cfg} {prog : W → Sem M} {prf : Nat → W} {m : M}
variable {tr : List (Ev F Nat)} {w : World} {s : FullCpu.State F n M}

/-- C120: both halves are in a state that they reach alone, with surroundings that keep what they assume: C111 holds of the
front half, C106 and C110 of the back half. -/
theorem C120_components (hk : GoodCfg F k) (h : FullCpu.Reach k prog (FullCpu.init n k prf m) tr w s) :
    HandOff.Reach k.front k.buf k.ftq tr w s.fe ∧
    Whole.Reach prog k.back (Whole.init n k.back prf k.front.resetPc m) s.be :=
  have h := FullCpuProofs.reach_all hk h
  ⟨h.1, h.2.1⟩

/-- C120: the addresses of the instructions whose fetch blocks are held for the back end are those of the instructions in flight
there, in the same order: neither side loses one, at a redirect both forget the same ones. -/
theorem C120_window (hk : GoodCfg F k) (h : FullCpu.Reach k prog (FullCpu.init n k prf m) tr w s) :
    pcsQueue s = pcsStages k s :=
  (FullCpuProofs.reach_all hk h).2.2.flights

/-- C120: the instructions retired are, in order, those a machine executes that starts at the reset address and takes one
instruction of the program after the other; the committed registers are its registers. -/
theorem C120_refines (hk : GoodCfg F k) (wf : WfProg prog k.back.A)
    (h : FullCpu.Reach k prog (FullCpu.init n k prf m) tr w s) :
    Core.Runs prog ⟨k.front.resetPc, prf, m⟩ s.be.past s.be.isa ∧
    ∀ a, a < k.back.A → s.be.prf (s.be.sp.regs.arch a) = s.be.isa.regs a :=
  C110_refines hk.back wf (C120_components hk h).2

/-- C120: no cycle aborts. -/
theorem C120_no_abort (hk : GoodCfg F k) (h : FullCpu.Reach k prog (FullCpu.init n k prf m) tr w s) (c : FullCpu.Cyc F n M)
    (ok : FullCpu.Ok k prog w s c) : (FullCpu.cycle k prog s c).isSome = true := by
  obtain ⟨h1, h2, hI⟩ := FullCpuProofs.reach_all hk h
  have hq := (HandOff.reach_all hk.cap h1).2.1
  have hr := (WholeProofs.simulate hk.back h2).1.reach
  have hv := spine_valid hk hq ok
  unfold FullCpu.cycle
  rw [Option.isSome_map]
  exact C111_no_abort hk.cap hk.buf hk.ftq h1 c.inp (FullCpu.back k s c) ⟨ok.mmu, ok.resp, ok.probe, ok.acc, hI.fence⟩
    fun b => window_valid hk hr hq hI hv b

/-- C120: two machines - different groups, queues, widths, capacities, predictions, caches, timing - that hold the same program
and retired the same number of instructions between the same transfers of control retired the same instructions and have the
same registers. -/
theorem C120_schedule_free {F' n' : Nat} [NeZero F'] {k' : FullCpu.Cfg} {tr' : List (Ev F' Nat)} {w' : World}
    {s' : FullCpu.State F' n' M} (hk : GoodCfg F k) (hk' : GoodCfg F' k') (hA : k.back.A = k'.back.A)
    (hp : k.front.resetPc = k'.front.resetPc) (wf : WfProg prog k.back.A)
    (h : FullCpu.Reach k prog (FullCpu.init n k prf m) tr w s) (h' : FullCpu.Reach k' prog (FullCpu.init n' k' prf m) tr' w' s')
    (he : s.be.past.map (fun i => match i with | .inst _ => none | .jump p g => some (p, g)) =
      s'.be.past.map (fun i => match i with | .inst _ => none | .jump p g => some (p, g))) :
    s.be.past = s'.be.past ∧ ∀ a, a < k.back.A → s.be.prf (s.be.sp.regs.arch a) = s'.be.prf (s'.be.sp.regs.arch a) := by
  have h2 := (C120_components hk' h').2
  rw [← hp] at h2
  exact C110_schedule_free hk.back hk'.back hA wf (C120_components hk h).2 h2 he

end

/-! ### Machine words -/

/-- The surroundings hold the words `text`: no page faults, and a line reported for the page of an address has its word. -/
structure Image (text : W → W) (w : World) : Prop where
  mapped : ∀ v, ¬ w.xlat v .fault
  words : ∀ (pc : W) p l, pc.toNat % 4 = 0 → w.xlat (pc.extractLsb' 12 20) (.page p) →
    ICache.Fill w (ICache.lineOf (ICache.phys p pc)) l → ∀ j : Fin 16, j.val = pc.toNat % 64 / 4 → l j = text pc

theorem not_jal_type {w : W} (h : ¬ IsJal w) : (decode w).type ≠ .jal := by
  have h : ¬ w.extractLsb' 0 7 = 0b1101111#7 := h
  have h1 : (decodeOpcode w (decodeFields w)).type ≠ .jal := by
    unfold decodeOpcode
    split
    all_goals first
      | (intro h'; cases h'; done)
      | contradiction
      | skip
    · split <;> (try split) <;> intro h' <;> cases h'
    · split <;> intro h' <;> cases h'
    · unfold decodeSystem
      simp only
      repeat' split
      all_goals (intro h'; cases h')
  intro h2
  apply h1
  rw [← h2]
  unfold decode decodeFinish
  simp only
  split <;> split <;> rfl

theorem holds_machine {text : W → W} {w : World} (h : Image text w) : FullCpu.Holds (Whole.machine text) w := by
  intro i h4 hr _
  obtain ⟨hf, _⟩ | ⟨p, l, h1, h2, h3, h5⟩ := hr
  · exact absurd hf (h.mapped _)
  have hw : i.word = text i.pc := by
    have hlt : i.pc.toNat % 64 / 4 < 16 := by omega
    have := h.words i.pc p l h4 h1 h2 ⟨_, hlt⟩ rfl
    rw [← this]
    exact h5 ⟨_, hlt⟩ rfl
  rw [h3, hw]
  refine ⟨Whole.machine_agrees, fun hb _ _ a b => ?_⟩
  have hb : Spine.isBranch (decode (text i.pc)) = false := hb
  show CoreRef.nextOf (text i.pc) i.pc a b = _
  by_cases hj : IsJal (text i.pc)
  · obtain ⟨j1, j2, j3⟩ := jal_fields _ hj
    rw [if_pos hj, WholeRun.follows_next hb (.inr j2)]
    unfold WholeRun.follows
    rw [if_pos j1, j3]; rfl
  · rw [if_neg hj, WholeRun.follows_next hb (.inl (not_jal_type hj))]
    unfold WholeRun.follows
    rw [if_neg (not_jal_type hj)]

section
variable {F n : Nat} [NeZero F] {text : W → W} {k : FullCpu.Cfg} {prf : Nat → W} {m : Mem}
variable {tr : List (Ev F Nat)} {w : World} {s : FullCpu.State F n Mem}

/-- C120 on machine words: the reference model started in the same state and called once for every instruction the machine has
retired is in the machine's state - from the words in memory, through the instruction cache, the front end and the stages. -/
theorem C120_reference (hk : GoodCfg F k) (h : FullCpu.Reach k (Whole.machine text) (FullCpu.init n k prf m) tr w s)
    (hi : ∀ i ∈ s.be.past, ∃ p, i = .inst p) (hg : CoreRef.Runnable text s.be.past.length ⟨k.front.resetPc, prf, m⟩)
    {r : RefCpu.State} (hr : CoreRef.Agrees ⟨k.front.resetPc, prf, m⟩ r) (F' : Fp.SoftFloat) (e : Nat → RefCpu.Env) :
    ∃ r', CoreRef.refRun F' e s.be.past.length r = some r' ∧
      (∀ a, a < 32 → r'.gpr a = s.be.prf (s.be.sp.regs.arch a)) ∧
      r'.pc = s.be.isa.pc ∧ RefMem.view r'.mem = s.be.isa.ext :=
  C110_reference hk.back (C120_components hk h).2 hi hg hr F' e

end

/-! ### A run

The program of `CoreRefRun`, from reset: two words per fetch group, an instruction cache that has to fetch its line, buffers of
four instructions and five fetch blocks, the stages of `WholeRun`. -/

namespace FullCpuRun
open Verif.Spine
open WholeRun (wb bne jal at_)

def k : FullCpu.Cfg := ⟨⟨4, 4, 4, 4, true, true, 64#32, CoreRefRun.start⟩, 4, 5, SpineRun.kx⟩

theorem good : GoodCfg 2 k := ⟨SpineRun.kx_good, by decide, rfl, by decide, by decide, by decide⟩

abbrev St := FullCpu.State 2 4 Mem
abbrev prg : W → Sem Mem := Whole.machine CoreRefRun.txt

def line (a : W) : ICache.Line := fun j => CoreRefRun.txt (ICache.wordAt a j)

/-- No translation; the data cache has nothing. -/
def world : World where
  xlat v x := x = .page v
  hit _ _ := False
  miss _ := True
  mem a l := l = line a

theorem image : Image CoreRefRun.txt world := by
  refine ⟨fun v h => (by cases h), fun pc p l h4 hx hl j hj => ?_⟩
  cases hx
  have he : ICache.wordAt (ICache.lineOf (ICache.phys (pc.extractLsb' 12 20) pc)) j = pc := by
    have h1 : ICache.phys (pc.extractLsb' 12 20) pc = pc := by
      unfold ICache.phys
      apply BitVec.eq_of_getLsbD_eq
      intro i hi
      rw [BitVec.getLsbD_append]
      by_cases hlt : i < 12
      · simp [hlt]
      · simp only [hlt, if_false, BitVec.getLsbD_extractLsb']
        have : i - 12 < 20 := by omega
        simp [this, show 12 + (i - 12) = i by omega]
    rw [h1]
    unfold ICache.wordAt ICache.lineOf
    have h2 : pc &&& ~~~63#32 = pc - (pc &&& 63#32) := by
      have : pc = (pc &&& ~~~63#32) + (pc &&& 63#32) := by
        rw [BitVec.add_eq_or_of_and_eq_zero]
        · apply BitVec.eq_of_getLsbD_eq
          intro i hi
          simp only [BitVec.getLsbD_or, BitVec.getLsbD_and, BitVec.getLsbD_not]
          cases pc.getLsbD i <;> cases (63#32).getLsbD i <;> simp [hi]
        · apply BitVec.eq_of_getLsbD_eq
          intro i hi
          simp only [BitVec.getLsbD_and, BitVec.getLsbD_not]
          cases pc.getLsbD i <;> cases (63#32).getLsbD i <;> simp
      exact (BitVec.eq_sub_iff_add_eq).2 this.symm
    rw [h2]
    have h3 : BitVec.ofNat 32 (j.val * 4) = pc &&& 63#32 := by
      apply BitVec.eq_of_toNat_eq
      rw [BitVec.toNat_and, BitVec.toNat_ofNat, show (63#32).toNat = 2 ^ 6 - 1 from rfl, Nat.and_two_pow_sub_one_eq_mod, hj]
      have := pc.isLt
      omega
    rw [h3, BitVec.sub_add_cancel]
  rcases hl with hl | ⟨hl, _⟩
  · exact absurd (hl 0) id
  · have hl : l = line _ := hl
    rw [hl]
    show CoreRefRun.txt _ = _
    rw [he]

/-- The predictor always goes on behind the group; the surroundings answer at once. -/
def inp (s : HandOff.State 2) : Fetch.In 2 Nat :=
  { refetch := false, refetchAddr := 0#32, fenceI := false, hold := false, readEn := false
    bpNext := s.fr.f.pc + 8#32, bpDir := fun _ => false, bpInfo := 0
    mmu := fun v => some (.page v)
    mReady := true
    acc := s.fr.ic.e.offer.isSome
    mResp := (List.finRange 16).findSome? fun t => (s.fr.ic.e.owed t).map fun x => (t, line x.1)
    probe := none }

/-- A cycle, with what the units report; or the execution of an instruction. -/
inductive Act where
  | cyc (wbs : List Rob.Wb) (res : List (Exu.Op 4))
  | run (u : Nat)

def cy (s : St) (wbs : List Rob.Wb) (res : List (Exu.Op 4)) : FullCpu.Cyc 2 4 Mem :=
  ⟨inp s.fe, { SpineRun.quiet with wbs := wbs, res := res }, 0#32, id, false⟩

def units (s : St) (c : FullCpu.Cyc 2 4 Mem) : Bool :=
  WholeRun.spineOk s.be.sp { c.hw with ib := [none, none] } &&
  c.hw.res.all (fun o => (live SpineRun.kx s.be.sp).all fun u => !decide (u.robIdx = o.robIdx) || (decide (o.robFlag = u.robFlag) &&
    (!(s.be.sp.info u.id).tag.isSome || (s.be.done u.id && decide (o.mispred = decide (s.be.act u.id ≠ (s.be.pay u.id).2)))))) &&
  (RobQueue.insts SpineRun.kx.L s.be.sp.rob).all (fun u => !Rob.complete u || s.be.done u.id)

theorem units_sound {s : St} {a : List Rob.Wb} {b : List (Exu.Op 4)} (h : units s (cy s a b) = true) :
    FullCpu.Ok k prg world s (cy s a b) := by
  simp only [units, Bool.and_eq_true, Bool.or_eq_true, List.all_eq_true, decide_eq_true_eq, Bool.not_eq_true',
    decide_eq_false_iff_not] at h
  obtain ⟨⟨h1, h2⟩, h5⟩ := h
  have hv := WholeRun.spineOk_sound h1
  refine ⟨holds_machine image, fun v x h => ?_, fun t d h => ?_, fun _ _ => trivial, fun h => h, hv.res, hv.wbs, ?_, ?_, ?_⟩
  · simp only [cy, inp, Option.some.injEq] at h
    exact h.symm
  · left
    simp only [cy, inp] at h
    obtain ⟨t', _, h⟩ := List.exists_of_findSome?_eq_some h
    rw [Option.map_eq_some_iff] at h
    obtain ⟨⟨a, f⟩, h1, h2⟩ := h
    cases h2
    exact ⟨a, f, h1, fun _ => rfl⟩
  · intro o ho u hu e
    exact ((h2 o ho u hu).resolve_left (fun h => h e)).1
  · intro u hu hc _ _
    rcases h5 u hu with h | h
    · rw [hc] at h; cases h
    · exact h
  · intro o ho u hu e ht
    rcases ((h2 o ho u hu).resolve_left (fun h => h e)).2 with h | h
    · rw [ht] at h; cases h
    · exact h

def fourOk (e : Ev 2 Nat) : Bool :=
  match e.out with
  | none => true
  | some o => (List.finRange 2).all fun j => !o.valid j || decide ((o.pc j).toNat % 4 = 0)

theorem fourOk_sound {e : Ev 2 Nat} (h : fourOk e = true) : FullCpu.Four e := by
  intro o ho j hj
  unfold fourOk at h
  rw [ho] at h
  have := List.all_eq_true.1 h j (List.mem_finRange j)
  simpa [hj] using this

def step (x : List (Ev 2 Nat) × St) : Act → Option (List (Ev 2 Nat) × St)
  | .cyc a b => if units x.2 (cy x.2 a b) then
      (FullCpu.cycle k prg x.2 (cy x.2 a b)).bind fun y => if fourOk y.2 then some (y.2 :: x.1, y.1) else none
    else none
  | .run u => if WholeRun.runOk x.2.be u then some (x.1, { x.2 with be := Whole.finish prg SpineRun.kx x.2.be u }) else none

def go : List Act → List (Ev 2 Nat) × St → Option (List (Ev 2 Nat) × St)
  | [], x => some x
  | a :: l, x => (step x a).bind (go l)

def sys0 : St := FullCpu.init 4 k (fun _ => 0#32) CoreRefRun.m0

theorem go_reach : ∀ (l : List Act) {x y : List (Ev 2 Nat) × St}, FullCpu.Reach k prg sys0 x.1 world x.2 → go l x = some y →
    FullCpu.Reach k prg sys0 y.1 world y.2
  | [], _, _, h, e => by cases e; exact h
  | a :: l, x, y, h, e => by
    obtain ⟨r, h1, h2⟩ := Option.bind_eq_some_iff.1 e
    refine go_reach l ?_ h2
    cases a with
    | cyc a b =>
      rw [step] at h1
      split at h1
      · rename_i hk
        obtain ⟨z, h3, h4⟩ := Option.bind_eq_some_iff.1 h1
        split at h4
        · rename_i hf
          cases h4
          exact .cycle _ h (units_sound hk) ⟨fun _ => rfl, fun _ => ⟨rfl, rfl, rfl⟩⟩ h3 (fourOk_sound hf)
        · cases h4
      · cases h1
    | run u =>
      rw [step] at h1
      split at h1
      · rename_i hk; cases h1; exact .run h (WholeRun.runOk_sound hk)
      · cases h1

def q : Act := .cyc [] []

/-- Up to the report of the mispredicted branch. -/
def part1 : List Act :=
  List.replicate 10 q ++ [.run 1, .run 0, .run 2, .cyc [wb 0 1, wb 1 1, wb 2 6] []] ++ List.replicate 6 q ++
    [.run 6, .run 3, .run 4, .run 5, .cyc [wb 5 7] [bne]]

/-- The redirect, the right path, and the end. -/
def part2 : List Act :=
  [.cyc [wb 6 1] []] ++ List.replicate 9 q ++ [.run 13, .run 12, .cyc [wb 0 1, wb 2 1] [jal], q, q]

def look (x : List (Ev 2 Nat) × St) : List W × List W × List W × W :=
  (pcsQueue x.2, (List.range 6).map (fun a => x.2.be.prf (x.2.be.sp.regs.arch a)),
    x.2.be.past.map (fun i => match i with | .inst p => p | .jump _ _ => 0#32), x.2.be.isa.pc)

set_option maxRecDepth 100000 in
/-- Before the redirect: three instructions have retired, nine are in flight, the last six on the wrong path - twice round the
loop through the `jal`. -/
theorem run1 : (go part1 ([], sys0)).map look =
    some ([at_ 3, at_ 4, at_ 5, at_ 6, at_ 7, at_ 0, at_ 1, at_ 2, at_ 3],
      [0#32, 5#32, 0x80001000#32, 0#32, 0#32, 0#32], [at_ 0, at_ 1, at_ 2], at_ 3) := by
  decide +kernel

set_option maxRecDepth 100000 in
/-- At the end: eight instructions have retired, the first one twice; the wrong path has left nothing. -/
theorem run2 : (go (part1 ++ part2) ([], sys0)).map look =
    some ([at_ 1, at_ 2, at_ 3, at_ 4, at_ 5], [0#32, 5#32, 0x80001000#32, 5#32, 10#32, 0x80000020#32],
      [at_ 0, at_ 1, at_ 2, at_ 3, at_ 4, at_ 5, at_ 7, at_ 0], at_ 1) := by
  decide +kernel

set_option maxRecDepth 100000 in
/-- The hypotheses of C120 hold of this run: the reference, called eight times, agrees. -/
example (F : Fp.SoftFloat) (e : Nat → RefCpu.Env) : ∃ x r', go (part1 ++ part2) ([], sys0) = some x ∧
    FullCpu.Reach k prg sys0 x.1 world x.2 ∧ WfProg prg k.back.A ∧ CoreRef.refRun F e 8 CoreRefRun.ref0 = some r' ∧
    (∀ a, a < 32 → r'.gpr a = x.2.be.prf (x.2.be.sp.regs.arch a)) ∧ r'.pc = x.2.be.isa.pc ∧ r'.gpr 4 = 10#32 := by
  have h : ((go (part1 ++ part2) ([], sys0)).map fun x => (x.2.be.past.length,
      x.2.be.past.all (fun i => match i with | .inst _ => true | .jump _ _ => false),
      x.2.be.prf (x.2.be.sp.regs.arch 4))) = some (8, true, 10#32) := by decide +kernel
  obtain ⟨x, hs, hl⟩ := Option.map_eq_some_iff.1 h
  rw [Prod.mk.injEq, Prod.mk.injEq] at hl
  have hi : ∀ i ∈ x.2.be.past, ∃ p, i = .inst p := by
    intro i hi
    have := List.all_eq_true.1 hl.2.1 i hi
    cases i with
    | inst p => exact ⟨p, rfl⟩
    | jump p g => simp at this
  have hr := go_reach (part1 ++ part2) (.init world) hs
  obtain ⟨r', h1, h2, h3, -⟩ := C120_reference good hr hi (by rw [hl.1]; exact WholeRun.runnable8) CoreRefRun.agrees0 F e
  rw [hl.1] at h1
  exact ⟨x, r', hs, hr, Whole.machine_wf (Nat.le_of_lt SpineRun.kx_good.regs), h1, h2, h3, (h2 4 (by decide)).trans hl.2.2⟩

set_option maxRecDepth 100000 in
/-- In the middle of it the surroundings are as C120_no_abort asks. -/
example : ∃ x : List (Ev 2 Nat) × St, FullCpu.Reach k prg sys0 x.1 world x.2 ∧ FullCpu.Ok k prg world x.2 (cy x.2 [wb 6 1] []) ∧
    x.2.be.sp.idu.latch.mispred = true := by
  have h : ((go part1 ([], sys0)).map fun x => (units x.2 (cy x.2 [wb 6 1] []), x.2.be.sp.idu.latch.mispred)) = some (true, true) := by
    decide +kernel
  obtain ⟨x, hs, hl⟩ := Option.map_eq_some_iff.1 h
  rw [Prod.mk.injEq] at hl
  exact ⟨x, go_reach part1 (.init world) hs, units_sound hl.1, hl.2⟩

end FullCpuRun
end Verif.Props

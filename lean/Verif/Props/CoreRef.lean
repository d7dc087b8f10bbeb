import Verif.Proofs.CoreRef
import Verif.Props.CoreFlow
/-
C92: on programs of integer, multiplication, division, bit-manipulation, jump, branch, load, store and read-modify-write
instructions, the out-of-order core and the reference model agree after every cycle.
-/
namespace Verif.Props
open Verif.Core Verif.CoreRef Verif.Spec.ByteMem

variable {text : W → W} {P A N w : Nat} {prf : Nat → W} {pc : W} {m : Mem} {s : Core.State Mem}

/-- The decoder's source registers are registers (C08). -/
theorem program_wf (h32 : 32 ≤ A) : WfProg (program text) A := by
  intro p
  obtain ⟨-, -, h1, h2⟩ := C08_src (text p)
  exact ⟨fun _ => Nat.lt_of_lt_of_le h1 h32, fun _ => Nat.lt_of_lt_of_le h2 h32⟩

/-- C92: in every state the core reaches, whatever it fetched, predicted, squashed and reordered on the way, the reference model
started in the same state and called once for every instruction the core has retired does not stop, and it has the core's 32
committed registers, next address and memory. -/
theorem C92_reference (h32 : 32 ≤ A) (hAP : A ≤ P) (h : Core.Reach (program text) P A N (State.init P A w prf pc m) s)
    (hi : ∀ i ∈ s.past, ∃ p, i = .inst p) (hg : Runnable text s.past.length ⟨pc, prf, m⟩)
    {r : RefCpu.State} (hr : Agrees ⟨pc, prf, m⟩ r) (F : Fp.SoftFloat) (e : Nat → RefCpu.Env) :
    ∃ r', refRun F e s.past.length r = some r' ∧ (∀ a, a < 32 → r'.gpr a = s.prf (s.ren.regs.arch a)) ∧
      r'.pc = s.isa.pc ∧ RefMem.view r'.mem = s.isa.ext := by
  obtain ⟨h1, h2⟩ := C91_refines (by omega) hAP (program_wf h32) h
  obtain ⟨r', hr', ha⟩ := run_agrees (F := F) e rfl hi h1 hg hr
  exact ⟨r', hr', fun a ha32 => (ha.regs a ha32).trans (h2 a (by omega)).symm, ha.pc, ha.mem⟩

/-- One instruction, without the core around it: the decoder, the micro-operations, the functional units and the byte lanes
together do what `RefCpu::exec` does. -/
theorem C92_step {σ : Core.Isa Mem} {r : RefCpu.State} (h : Agrees σ r) (hpc : σ.pc.toNat % 4 = 0)
    (hs : Step σ.regs (load σ.ext .word false σ.pc)) (F : Fp.SoftFloat) (e : RefCpu.Env) :
    ∃ r', RefCpu.exec F e r = some r' ∧ Agrees (Core.exec (coreSem (load σ.ext .word false σ.pc) σ.pc) σ) r' :=
  step_agrees h hpc rfl hs

/-! ### A concrete run

```
80000000  addi x1, x0, 5
80000004  lui  x2, 0x80001
80000008  sw   x1, 0(x2)
8000000c  amoadd.w x3, x1, (x2)
80000010  lb   x4, 0(x2)
80000014  bne  x4, x3, 8000001c      predicted not taken
80000018  addi x4, x0, 99            runs before the branch
8000001c  jal  x5, 80000000
```
-/
namespace CoreRefRun

def mem0 : RefMem.State :=
  { ram := fun i =>
      if i = 0#32 then (Isa.Instr.i .addi 1 0 5).encode
      else if i = 1#32 then (Isa.Instr.lui 2 0x80001).encode
      else if i = 2#32 then Isa.encS 0 1 2 Size.word.code 0b0100011#7
      else if i = 3#32 then encAmo Isa.AmoOp.add.funct5 0 1 2 3
      else if i = 4#32 then Isa.encI 0 2 0 4 0b0000011#7
      else if i = 5#32 then Isa.encB 4 3 4 Isa.BrOp.bne.funct3 0b1100011#7
      else if i = 6#32 then (Isa.Instr.i .addi 4 0 99).encode
      else if i = 7#32 then (Isa.Instr.jal 5 (-14)).encode
      else 0#32
    io := fun _ => none
    timerOff := 0#64, timerCmp := 0#64, mip := 0#32, sip := 0#32, out := []
    store := false, storeAddr := 0#32, storeData := 0#32, storeStrb := 0#32, resValid := false, resAddr := 0#32 }

def m0 : Mem := RefMem.view mem0
def txt (p : W) : W := RefMem.loadWord mem0 p
def start : W := 0x80000000#32

abbrev prg : W → Sem Mem := program txt
abbrev sys0 : Core.State Mem := State.init 40 33 2 (fun _ => 0#32) start m0

def instr (i : Nat) : W := start + 4#32 * BitVec.ofNat 32 i

inductive Act where
  | cyc (retire : Nat) (mispred : Option Nat) (dec : List (Option Fetched))
  | run (i : Nat)

def cyc (retire : Nat) (mispred : Option Nat) (dec : List (Option Fetched)) : Cyc Mem :=
  ⟨true, false, false, false, retire, mispred, fun t => mispred == some t, dec, 0#32, id⟩

instance (i : Ren.Inst) : Decidable (RenWindow.WfInst 33 4 i) := by unfold RenWindow.WfInst; exact inferInstance

abbrev chk (s : Core.State Mem) (c : Cyc Mem) : Prop :=
  (∀ t ∈ c.mispred, c.retire = 0 ∧ c.flush = false ∧ ∃ e ∈ s.ren.win, e.tag = some t) ∧
  c.exc = false ∧ c.interrupt = false ∧
  (∀ o ∈ c.dec, ∀ f ∈ o, RenWindow.WfInst 33 4 (toInst prg f)) ∧
  (RenWindow.slotTags (toInput prg c).dec).Nodup ∧
  (∀ t ∈ RenWindow.slotTags (toInput prg c).dec, ∀ e ∈ (RenWindow.stepSys 40 33 4 s.ren (toInput prg c)).win, e.tag ≠ some t) ∧
  (∀ k ∈ retired s c, k.done = true ∧ ((prg k.pc).isBr = true → k.act = k.pn)) ∧
  (∀ t ∈ c.mispred, ∀ k ∈ s.tasks, k.e.tag = some t → k.done = true) ∧
  Path s.expect c.dec ∧
  (∀ o ∈ c.dec, ∀ f ∈ o, (prg f.pc).isBr = false → f.pn = f.pc + 4#32)

theorem plain_next (p : W) (h : (prg p).isBr = false) : ∀ m a b, (prg p).next m a b = p + 4#32 := by
  intro m a b
  show nextOf (txt p) p a b = _
  have h' : ((Decode.decompose (Decode.decode (txt p))).any fun m => m.iq == .br) = false := h
  have hf : (Decode.decompose (Decode.decode (txt p))).find? (fun m => m.iq == .br) = none := by
    rw [List.find?_eq_none]
    intro x hx hb
    rw [List.any_eq_false] at h'
    exact h' x hx hb
  unfold nextOf
  rw [hf]

theorem chk_sound (s : Core.State Mem) (c : Cyc Mem) (h : chk s c) : Core.Valid prg 40 33 4 s c := by
  obtain ⟨h1, h2, h3, h4, h5, h6, g1, g3, g4, g5⟩ := h
  refine ⟨⟨?_, ?_, ?_, h5, h6⟩, g1, fun _ k _ _ hk => absurd (show false = true from hk) Bool.false_ne_true,
    fun t ht => g3 t ht, fun _ => g4, ?_⟩
  · exact fun t ht => h1 t ht
  · rintro (h | h)
    · exact absurd (show c.exc = true from h) (by rw [h2]; exact Bool.false_ne_true)
    · exact absurd (show c.interrupt = true from h) (by rw [h3]; exact Bool.false_ne_true)
  · intro d hd
    obtain ⟨o, ho, he⟩ := List.mem_map.1 (show some d ∈ c.dec.map (Option.map (toInst prg)) from hd)
    cases o with
    | none => simp at he
    | some f =>
      rw [Option.map_some, Option.some.injEq] at he
      rw [← he]; exact h4 _ ho f rfl
  · intro f hf hb _ m a b
    rw [plain_next _ hb]; exact (g5 _ hf f rfl hb).symm

abbrev canRun (pre : List Task) (k : Task) : Prop :=
  k.done = false ∧ ((prg k.pc).use1 = true → Settled pre k.p1) ∧ ((prg k.pc).use2 = true → Settled pre k.p2)

instance (l : List Task) (p : Nat) : Decidable (Settled l p) := by unfold Settled; exact inferInstance
instance decPath (a : W) : (l : List (Option Fetched)) → Decidable (Path a l)
  | [] => .isTrue trivial
  | none :: r => decPath a r
  | some f :: r => by
    unfold Path
    exact @instDecidableAnd _ _ _ (decPath f.pn r)

def drive1 (s : Core.State Mem) : Act → Option (Core.State Mem)
  | .cyc a b c => if chk s (cyc a b c) then some (cycle prg 40 33 4 s (cyc a b c)) else none
  | .run i => match s.tasks.drop i with
    | [] => none
    | k :: post => if canRun (s.tasks.take i) k then some (finish prg s (s.tasks.take i) k post) else none

def drive (s : Core.State Mem) : List Act → Option (Core.State Mem)
  | [] => some s
  | x :: r => (drive1 s x).bind (drive · r)

theorem drive1_reach {s0 s t : Core.State Mem} (h : Core.Reach prg 40 33 4 s0 s) (x : Act) (e : drive1 s x = some t) :
    Core.Reach prg 40 33 4 s0 t := by
  cases x with
  | cyc a b c =>
    unfold drive1 at e
    dsimp only at e
    split at e
    · rename_i hc
      rw [← Option.some.inj e]; exact .cycle _ h (chk_sound _ _ hc)
    · simp at e
  | run i =>
    unfold drive1 at e
    dsimp only at e
    split at e
    · simp at e
    · rename_i k post hk
      split at e
      · rename_i hc
        rw [← Option.some.inj e]
        exact .run h (by rw [← hk, List.take_append_drop]) ⟨hc.1, hc.2.1, hc.2.2⟩
      · simp at e

theorem drive_reach {s0 : Core.State Mem} : ∀ (l : List Act) {s t : Core.State Mem}, Core.Reach prg 40 33 4 s0 s →
    drive s l = some t → Core.Reach prg 40 33 4 s0 t
  | [], _, _, h, e => by rw [← Option.some.inj e]; exact h
  | x :: r, s, t, h, e => by
    rw [drive, Option.bind_eq_some_iff] at e
    obtain ⟨u, e1, e2⟩ := e
    exact drive_reach r (drive1_reach h x e1) e2

def f (i j tag : Nat) : Option Fetched := some ⟨instr i, instr j, tag⟩

def acts : List Act :=
  [.cyc 0 none [f 0 1 0, f 1 2 0], .cyc 0 none [f 2 3 0, f 3 4 0], .cyc 0 none [f 4 5 0, f 5 6 1], .cyc 0 none [f 6 7 0],
   .cyc 0 none [],
   .run 6, .run 1, .run 0, .run 2, .run 3, .run 4, .run 5,
   .cyc 0 (some 1) [], .cyc 2 none [f 7 0 2], .cyc 2 none [f 0 1 0], .cyc 0 none [], .run 2, .cyc 2 none [], .cyc 1 none []]

def look (s : Core.State Mem) : List W × List W × W × W :=
  ((List.range 6).map (fun a => s.prf (s.ren.regs.arch a)), s.past.map (fun i => match i with | .inst p => p | .jump p _ => 0#32),
    s.isa.pc, load s.isa.ext .word false 0x80001000#32)

theorem run_core : ((drive sys0 acts).map look) =
    some ([0#32, 5#32, 0x80001000#32, 5#32, 10#32, 0x80000020#32],
      [instr 0, instr 1, instr 2, instr 3, instr 4, instr 5, instr 7], start, 10#32) := by
  decide +kernel

/-- The reference at reset: machine mode, no interrupt enabled. -/
def ref0 : RefCpu.State :=
  { mem := mem0, gpr := fun _ => 0#32, pc := start, file := fun _ => 0#32, priv := 3, inst := 0#32
    irq := ⟨false, false, false, false, false, false⟩
    pfInst := false, pfLoad := false, pfStore := false, illegal := false, simEnd := false }

theorem agrees0 : Agrees ⟨start, fun _ => 0#32, m0⟩ ref0 := by
  refine ⟨fun _ _ => rfl, rfl, rfl, rfl, ⟨by decide, by decide, fun mip => ?_⟩⟩
  have h : ∀ q d : W, Csr.evalInterrupts 0#32 0#32 q 0#32 3 = Csr.evalInterrupts 0#32 0#32 d 0#32 3 := by
    intro q d
    simp [Csr.evalInterrupts, Csr.on]
  exact (h mip 0#32).trans (by decide)

theorem runnable0 : Runnable txt 7 ⟨start, fun _ => 0#32, m0⟩ := by
  refine ⟨by decide +kernel, by decide +kernel, .int (.i .addi 1 0 5) (by decide +kernel) id, by decide +kernel, by decide +kernel, .int (.lui 2 0x80001) (by decide +kernel) id,
    by decide +kernel, by decide +kernel, .store .word 0 1 2 (by decide +kernel) (by decide +kernel) (by decide +kernel),
    by decide +kernel, by decide +kernel, .amo .add 0 1 2 3 (by decide +kernel) (by decide +kernel) (by decide +kernel),
    by decide +kernel, by decide +kernel, .load .byte true 0 0 2 4 rfl (by decide +kernel) (by decide +kernel) (by decide +kernel),
    by decide +kernel, by decide +kernel, .branch .bne 4 3 4 ?_, by decide +kernel, by decide +kernel, .int (.jal 5 (-14)) ?_ id, trivial⟩
  · decide +kernel
  · decide +kernel

/-- The hypotheses of C92 hold of this run. -/
example (F : Fp.SoftFloat) (e : Nat → RefCpu.Env) : ∃ s r', drive sys0 acts = some s ∧ s.past.length = 7 ∧
    refRun F e 7 ref0 = some r' ∧ (∀ a, a < 32 → r'.gpr a = s.prf (s.ren.regs.arch a)) ∧ r'.pc = s.isa.pc := by
  have h : ((drive sys0 acts).map fun s => (s.past.length, s.past.all fun i => match i with | .inst _ => true | .jump _ _ => false)) =
      some (7, true) := by decide +kernel
  obtain ⟨s, hs, hl⟩ := Option.map_eq_some_iff.1 h
  rw [Prod.mk.injEq] at hl
  have hi : ∀ i ∈ s.past, ∃ p, i = .inst p := by
    intro i hi
    have := List.all_eq_true.1 hl.2 i hi
    cases i with
    | inst p => exact ⟨p, rfl⟩
    | jump p g => simp at this
  obtain ⟨r', h1, h2, h3, -⟩ := C92_reference (by decide) (by decide) (drive_reach acts .init hs) hi (by rw [hl.1]; exact runnable0)
    agrees0 F e
  rw [hl.1] at h1
  exact ⟨s, r', hs, hl.1, h1, h2, h3⟩

/-- The premise that the program does not overwrite itself is needed: the core executes the word it fetched, the reference the
one that is in memory when the instruction's turn comes.  (`FENCE.I` is what a program has to use.) -/
def selfMod : RefMem.State :=
  { mem0 with ram := fun i =>
      if i = 0#32 then Isa.encS 4 1 2 Size.word.code 0b0100011#7
      else if i = 1#32 then (Isa.Instr.i .addi 4 0 99).encode else 0#32 }
def regs1 : Nat → W := fun a => if a = 1 then (Isa.Instr.i .addi 4 0 7).encode else if a = 2 then start else 0#32

theorem C92_needs_intact (F : Fp.SoftFloat) :
    ∃ (σ : Core.Isa Mem) (r : RefCpu.State) (text : W → W), Agrees σ r ∧
      (∀ p, text p = RefMem.loadWord r.mem p) ∧ Runnable text 1 σ ∧
      ∃ r', refRun F (fun _ => ⟨0#64, false, false, false, false, false⟩) 2 r = some r' ∧
        (Core.exec (program text (start + 4#32)) (Core.exec (program text start) σ)).regs 4 = 99#32 ∧ r'.gpr 4 = 7#32 := by
  refine ⟨⟨start, regs1, RefMem.view selfMod⟩, { ref0 with mem := selfMod, gpr := regs1 }, RefMem.loadWord selfMod,
    ⟨fun _ _ => rfl, rfl, rfl, rfl, ⟨agrees0.calm.fetch, agrees0.calm.data, agrees0.calm.irq⟩⟩, fun _ => rfl, ?_, ?_⟩
  · exact ⟨by decide, by decide +kernel, .store .word 4 1 2 rfl (by decide +kernel) (by decide +kernel), trivial⟩
  · have h : ((refRun F (fun _ => ⟨0#64, false, false, false, false, false⟩) 2
        { ref0 with mem := selfMod, gpr := regs1 }).map fun r => r.gpr 4) = some 7#32 := rfl
    obtain ⟨r', h1, h2⟩ := Option.map_eq_some_iff.1 h
    exact ⟨r', h1, by decide +kernel, h2⟩

end CoreRefRun
end Verif.Props

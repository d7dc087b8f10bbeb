import Verif.Proofs.SysRun
import Verif.Proofs.SysTrap
/-
C105: on privileged programs — CSR instructions, returns, fences, atomics, virtual memory, exceptions and timer interrupts — the
out-of-order core does what the architecture prescribes, and the reference model agrees with it after every instruction,
exception and interrupt.
-/
namespace Verif.Props
open Verif.Core Verif.SysRef Verif.Spec.ByteMem Verif.Csr Verif.Csr.Spec Verif.CoreRef
open Verif.RefCpu.Spec (Quiet Same)

variable {tl : Nat → Bool} {text : W → W} {P A N w : Nat} {prf : Nat → W} {pc : W} {x : Ext} {s : Core.State Ext} {l : List Event}

/-- C105: whatever the core fetched, predicted, reordered and squashed, its committed registers, next address, memory and CSRs are
those of a machine that executes one instruction after the other, and every event was the prescribed one: an interrupt exactly
if one was pending and enabled, else the exception of the instruction if it has one, else the instruction. -/
theorem C105_events (h32 : 32 ≤ A) (hAP : A ≤ P) (h : SysReach tl text P A N (State.init P A w prf pc x) s l) :
    s.isa = sysRun tl text ⟨pc, prf, x⟩ l ∧ AllRight tl text ⟨pc, prf, x⟩ l :=
  sysReach_run h32 hAP h

/-- C105: the reference model, called once for every instruction, exception and interrupt of the core, does not stop, and it has
the core's registers, next address, memory, CSRs and privilege level.  Partial: `Covered` excludes the events on which the
reference differs (C31, C81, C82, `C105_fetch_fault_first`), SC (C33), floating-point and unknown instructions (C84, C81). -/
theorem C105_reference_partial (h32 : 32 ≤ A) (hAP : A ≤ P) (h : SysReach tl text P A N (State.init P A w prf pc x) s l)
    (hk : x.k = 0) (hcsr : Csr.Spec.Reach x.csr) (hwe : x.csr.we = false) (hcov : Covered tl text none ⟨pc, prf, x⟩ l)
    {e : Nat → RefCpu.Env} {r : RefCpu.State} (hr : SysRef.Agrees (e 0) ⟨pc, prf, x⟩ r) (hq : Quiet r)
    (htl : ∀ k, tl k = decide (r.mem.timerCmp.toNat ≤ ((e k).now + r.mem.timerOff).toNat))
    (hto : ∀ j i, l[j]? = some i → Told (e j) i) (F : Fp.SoftFloat) :
    ∃ r', SysRef.refRun F e 0 l.length r = some r' ∧ SysRef.Agrees (e l.length) s.isa r' := by
  obtain ⟨h1, h2⟩ := sysReach_run h32 hAP h
  obtain ⟨r', hr', ho⟩ := sys_run (F := F) htl l 0 ⟨pc, prf, x⟩ r none
    ⟨hr.regs, hr.zero, hr.pc, hr.mem, hr.csr, sync_sync, hr.last, hcsr, hwe⟩ (fun _ _ => hq) hk rfl rfl hcov h2
    (fun j i hj => by rw [Nat.zero_add]; exact hto j i hj)
  rw [Nat.zero_add] at ho
  rw [← h1] at ho
  exact ⟨r', hr', ho.regs, ho.zero, ho.pc, ho.mem, ho.csr, ho.last⟩

/-! ### A concrete run

```
80000000  csrrw x0, mtvec, x1      x1 = 80000020
80000004  csrrw x0, mie, x2        x2 = 80
80000008  ecall                    to 80000020
80000010  csrrsi x0, mstatus, 8    interrupts on
80000014  addi x4, x4, 1           the timer expires
80000018  addi x4, x4, 2           runs first, then is squashed by the interrupt
80000020  csrrw x0, mepc, x3       x3 = 80000010
80000024  mret
```
-/
namespace SysRefRun

def mem0 : RefMem.State :=
  { ram := fun i =>
      if i = 0#32 then 0x30509073#32
      else if i = 1#32 then 0x30411073#32
      else if i = 2#32 then 0x00000073#32
      else if i = 4#32 then 0x30046073#32
      else if i = 5#32 then (Isa.Instr.i .addi 4 4 1).encode
      else if i = 6#32 then (Isa.Instr.i .addi 4 4 2).encode
      else if i = 8#32 then 0x34119073#32
      else if i = 9#32 then 0x30200073#32
      else 0#32
    io := fun _ => none
    timerOff := 0#64, timerCmp := 7#64, mip := 0#32, sip := 0#32, out := []
    store := false, storeAddr := 0#32, storeData := 0#32, storeStrb := 0#32, resValid := false, resAddr := 0#32 }

def txt (p : W) : W := RefMem.loadWord mem0 p
def start : W := 0x80000000#32
def regs0 : Nat → W := fun a => if a = 1 then 0x80000020#32 else if a = 2 then 0x80#32 else if a = 3 then 0x80000010#32 else 0#32
def ext0 : Ext := ⟨RefMem.view mem0, Csr.State.init, 0⟩
def line (k : Nat) : Bool := decide (7 ≤ (BitVec.ofNat 64 k).toNat)

abbrev prg : W → Sem Ext := SysRef.program line txt
abbrev sys0 : Core.State Ext := State.init 40 33 2 regs0 start ext0

def instr (i : Nat) : W := start + 4#32 * BitVec.ofNat 32 i
def f (i : Nat) : Option Fetched := some ⟨instr i, instr (i + 1), 0⟩

inductive Act where
  | cyc (retire : Nat) (dec : List (Option Fetched))
  | run (i : Nat)
  | resume
  | trap (x : Exc) (v : W)
  | irq

def cyc (retire : Nat) (dec : List (Option Fetched)) : Cyc Ext :=
  ⟨true, false, false, false, retire, none, fun _ => false, dec, 0#32, id⟩
def flushing (exc irq : Bool) (n : Nat) (p : W) (g : Ext → Ext) : Cyc Ext :=
  ⟨true, true, irq, exc, n, none, fun _ => false, [], p, g⟩

instance (i : Ren.Inst) : Decidable (RenWindow.WfInst 33 4 i) := by unfold RenWindow.WfInst; exact inferInstance
instance (l : List Task) (p : Nat) : Decidable (Settled l p) := by unfold Settled; exact inferInstance
instance decPath (a : W) : (l : List (Option Fetched)) → Decidable (Path a l)
  | [] => .isTrue trivial
  | none :: r => decPath a r
  | some f :: r => by
    unfold Path
    exact @instDecidableAnd _ _ _ (decPath f.pn r)

abbrev chk (s : Core.State Ext) (c : Cyc Ext) : Prop :=
  c.mispred = none ∧ ((c.exc = true ∨ c.interrupt = true) → c.flush = true) ∧
  (∀ o ∈ c.dec, ∀ f ∈ o, RenWindow.WfInst 33 4 (toInst prg f)) ∧
  (RenWindow.slotTags (toInput prg c).dec).Nodup ∧
  (∀ t ∈ RenWindow.slotTags (toInput prg c).dec, ∀ e ∈ (RenWindow.stepSys 40 33 4 s.ren (toInput prg c)).win, e.tag ≠ some t) ∧
  (∀ k ∈ retired s c, k.done = true ∧ ((prg k.pc).isBr = true → k.act = k.pn)) ∧
  ((retired s c).length ≤ 1) ∧ (∀ k ∈ retired s c, (prg k.pc).serial = true → c.flush = true) ∧
  (∀ k ∈ retired s c, taskFault line txt s [] k = none ∧ s.isa.ext.csr.interruptReq = false) ∧
  Path s.expect c.dec ∧
  (∀ o ∈ c.dec, ∀ f ∈ o, (prg f.pc).isBr = false → f.pn = f.pc + 4#32)

theorem plain_next (p : W) (h : (prg p).isBr = false) (hs : (prg p).serial = false) : ∀ m a b, (prg p).next m a b = p + 4#32 := by
  intro m a b
  have h' : ((Decode.decompose (Decode.decode (txt p))).any fun m => m.iq == .br) = false := h
  have hs' : decide ((Decode.decode (txt p)).type ∈ [Decode.InstType.csr, .ecall, .mret, .sret, .sfenceVma, .fenceI, .ebreak]) = false := hs
  show (if ((Decode.decompose (Decode.decode (txt p))).any fun m => m.iq == .br) = true then _ else resumePc _ _ _) = _
  rw [h']
  show resumePc _ _ _ = _
  unfold resumePc
  split
  · next hh => rw [hh] at hs'; exact absurd hs' (by decide)
  · next hh => rw [hh] at hs'; exact absurd hs' (by decide)
  · rfl

/-- With at most one instruction retiring. -/
theorem one {α : Type} {l pre post : List α} {k : α} (h : l.length ≤ 1) (e : l = pre ++ k :: post) : pre = [] ∧ post = [] ∧ k ∈ l := by
  subst e
  simp only [List.length_append, List.length_cons] at h
  refine ⟨List.eq_nil_of_length_eq_zero (by omega), List.eq_nil_of_length_eq_zero (by omega), by simp⟩

theorem chk_sound (s : Core.State Ext) (c : Cyc Ext) (h : chk s c) : Core.Valid prg 40 33 4 s c ∧ Clean line txt s c := by
  obtain ⟨h1, h2, h3, h4, h5, h6, h7, h8, h9, h10, h11⟩ := h
  refine ⟨⟨⟨?_, h2, ?_, h4, h5⟩, h6, ?_, ?_, fun _ => h10, ?_⟩, ?_⟩
  · intro t ht
    exact absurd (show c.mispred = some t from ht) (by rw [h1]; simp)
  · intro d hd
    obtain ⟨o, ho, he⟩ := List.mem_map.1 (show some d ∈ c.dec.map (Option.map (toInst prg)) from hd)
    cases o with
    | none => simp at he
    | some f =>
      rw [Option.map_some, Option.some.injEq] at he
      rw [← he]; exact h3 _ ho f rfl
  · intro pre k post e hk
    obtain ⟨-, e2, e3⟩ := one h7 e
    exact ⟨e2, h8 k e3 hk⟩
  · intro t ht
    exact absurd ht (by rw [h1]; simp)
  · intro f hf hb hs m a b
    rw [plain_next _ hb hs]; exact (h11 _ hf f rfl hb).symm
  · intro pre k post e
    obtain ⟨e1, -, e3⟩ := one h7 e
    rw [e1]
    exact h9 k e3

abbrev canRun (pre : List Task) (k : Task) : Prop :=
  k.done = false ∧ ((prg k.pc).use1 = true → Settled pre k.p1) ∧ ((prg k.pc).use2 = true → Settled pre k.p2)

abbrev out := Core.State Ext × List Event

/-- The core driven by hand. -/
def drive1 (q : out) : Act → Option out
  | .cyc a b => if chk q.1 (cyc a b) then some (cycle prg 40 33 4 q.1 (cyc a b), q.2 ++ (retired q.1 (cyc a b)).map fun _ => .inst) else none
  | .run i => match q.1.tasks.drop i with
    | [] => none
    | k :: post => if canRun (q.1.tasks.take i) k then some (finish prg q.1 (q.1.tasks.take i) k post, q.2) else none
  | .resume => match q.1.tasks with
    | [] => none
    | k :: _ =>
      let c := flushing false false 1 (resumePc (txt k.pc) k.pc q.1.isa.ext) id
      if chk q.1 c ∧ (prg k.pc).isBr = false then some (cycle prg 40 33 4 q.1 c, q.2 ++ [.inst]) else none
  | .trap x v => match q.1.tasks with
    | [] => none
    | k :: _ =>
      let c := flushing true false 0 (trapPc (x.report k.pc v) q.1.isa.ext) (trapExt line (x.report k.pc v))
      if chk q.1 c ∧ taskFault line txt q.1 [] k = some (x, v) ∧ q.1.isa.ext.csr.interruptReq = false then
        some (cycle prg 40 33 4 q.1 c, q.2 ++ [.trap x v]) else none
  | .irq => match q.1.tasks with
    | [] => none
    | k :: _ =>
      let c := flushing false true 0 (trapPc (interruptAt k.pc 0#32) q.1.isa.ext) (trapExt line (interruptAt k.pc 0#32))
      if chk q.1 c ∧ q.1.isa.ext.csr.interruptReq = true then some (cycle prg 40 33 4 q.1 c, q.2 ++ [.irq]) else none

def drive (q : out) : List Act → Option out
  | [] => some q
  | a :: r => (drive1 q a).bind (drive · r)

theorem drive1_reach {s0 : Core.State Ext} {q t : out} (h : SysReach line txt 40 33 4 s0 q.1 q.2) (a : Act)
    (e : drive1 q a = some t) : SysReach line txt 40 33 4 s0 t.1 t.2 := by
  cases a with
  | cyc a b =>
    unfold drive1 at e
    dsimp only at e
    split at e
    · next hc =>
      rw [← Option.some.inj e]
      exact .quiet _ h (chk_sound _ _ hc).1 rfl (chk_sound _ _ hc).2
    · cases e
  | run i =>
    unfold drive1 at e
    dsimp only at e
    split at e
    · cases e
    · next k post hk =>
      split at e
      · next hc =>
        rw [← Option.some.inj e]
        exact .run h (by rw [← hk, List.take_append_drop]) ⟨hc.1, hc.2.1, hc.2.2⟩
      · cases e
  | resume =>
    unfold drive1 at e
    dsimp only at e
    split at e
    · cases e
    · next k post hk =>
      split at e
      · next hc =>
        rw [← Option.some.inj e]
        have hr : retired q.1 (flushing false false 1 (resumePc (txt k.pc) k.pc q.1.isa.ext) id) = [k] := by
          show q.1.tasks.take 1 = [k]
          rw [hk]
          rfl
        have := SysReach.resume _ [] k h (chk_sound _ _ hc.1).1 rfl rfl rfl hr hc.2 (chk_sound _ _ hc.1).2 rfl rfl
        rw [hr] at this
        exact this
      · cases e
  | trap x v =>
    unfold drive1 at e
    dsimp only at e
    split at e
    · cases e
    · next k post hk =>
      split at e
      · next hc =>
        rw [← Option.some.inj e]
        exact .trap _ k post x v h (chk_sound _ _ hc.1).1 rfl rfl rfl hk hc.2.1 hc.2.2 rfl rfl
      · cases e
  | irq =>
    unfold drive1 at e
    dsimp only at e
    split at e
    · cases e
    · next k post hk =>
      split at e
      · next hc =>
        rw [← Option.some.inj e]
        exact .irq _ k post h (chk_sound _ _ hc.1).1 rfl rfl hk hc.2 rfl rfl
      · cases e

theorem drive_reach {s0 : Core.State Ext} : ∀ (l : List Act) {q t : out}, SysReach line txt 40 33 4 s0 q.1 q.2 →
    drive q l = some t → SysReach line txt 40 33 4 s0 t.1 t.2
  | [], _, _, h, e => by rw [← Option.some.inj e]; exact h
  | a :: r, q, t, h, e => by
    rw [drive, Option.bind_eq_some_iff] at e
    obtain ⟨u, e1, e2⟩ := e
    exact drive_reach r (drive1_reach h a e1) e2

/-- One instruction that flushes the pipeline behind it. -/
def alone (i : Nat) : List Act := [.cyc 0 [f i], .cyc 0 [], .run 0, .resume]

def acts : List Act :=
  alone 0 ++ alone 1 ++ [.cyc 0 [f 2], .cyc 0 [], .trap .ecall 0#32] ++ alone 8 ++ alone 9 ++ alone 4 ++
  [.cyc 0 [f 5, f 6], .cyc 0 [], .run 0, .run 1, .cyc 1 [], .irq]

def evs : List Event := [.inst, .inst, .trap .ecall 0#32, .inst, .inst, .inst, .inst, .irq]

def look (q : out) : List Event × W × W × W × W × Nat :=
  (q.2, q.1.isa.pc, q.1.prf (q.1.ren.regs.arch 4), q.1.isa.ext.csr.file .mepc, q.1.isa.ext.csr.file .mcause, q.1.isa.ext.k)

theorem run_core : (drive (sys0, []) acts).map look = some (evs, 0x80000020#32, 1#32, 0x80000018#32, 0x80000007#32, 8) := by
  decide +kernel

/-- The reference at reset. -/
def ref0 : RefCpu.State :=
  { mem := mem0, gpr := regs0, pc := start, file := Csr.State.init.file, priv := 3, inst := 0#32
    irq := ⟨false, false, false, false, false, false⟩
    pfInst := false, pfLoad := false, pfStore := false, illegal := false, simEnd := false }

/-- The clock of the reference; it does not look at the core's faults. -/
def clock (k : Nat) : RefCpu.Env := ⟨BitVec.ofNat 64 k, false, false, false, false, false⟩

theorem agrees0 : SysRef.Agrees (clock 0) ⟨start, regs0, ext0⟩ ref0 := by
  refine ⟨fun _ _ => rfl, rfl, rfl, rfl, ⟨?_, rfl⟩, by decide⟩
  funext r
  cases r <;> decide +kernel

def at_ (n : Nat) : Core.Isa Ext := sysRun line txt ⟨start, regs0, ext0⟩ (evs.take n)

theorem here (n : Nat) (p : W) (h1 : (at_ n).pc = p) (h2 : tr (at_ n).ext .fetch p = some p)
    (h3 : word (at_ n).ext.mem p = txt p) : Present txt (at_ n) := ⟨p, by rw [h1]; exact h2, by rw [h1]; exact h3⟩

theorem csrKind (n : Nat) (p : W) (g : Reg) (h1 : (at_ n).pc = p)
    (h : BitVec.extractLsb' 0 7 (txt p) = 0x73#7 ∧ BitVec.extractLsb' 12 2 (txt p) ≠ 0#2 ∧
      BitVec.extractLsb' 20 12 (txt p) = BitVec.ofNat 12 (number g) ∧
      (BitVec.extractLsb' 12 3 (txt p) = 5#3 → BitVec.extractLsb' 15 5 (txt p) ≠ 0#5) ∧ g ≠ .mip ∧ g ≠ .sip) :
    Kind (at_ n).ext (at_ n).regs (txt (at_ n).pc) := by
  obtain ⟨a, b, c, d, e1, e2⟩ := h
  rw [h1]
  exact .csr g a b c d (by rintro (rfl | rfl) <;> contradiction)

instance (c : Csr.State) : Decidable (Level c) := by unfold Level; exact inferInstance
instance (f : Csr.File) : Decidable (RefCpu.Spec.Direct f) := by unfold RefCpu.Spec.Direct; exact inferInstance

theorem covered0 : Covered line txt none ⟨start, regs0, ext0⟩ evs := by
  refine ⟨⟨by decide, here 0 start rfl (by decide +kernel) (by decide +kernel), csrKind 0 start .mtvec rfl (by decide +kernel)⟩,
    ⟨by decide +kernel, here 1 (instr 1) (by decide +kernel) (by decide +kernel) (by decide +kernel),
      csrKind 1 (instr 1) .mie (by decide +kernel) (by decide +kernel)⟩,
    ⟨by decide +kernel, here 2 (instr 2) (by decide +kernel) (by decide +kernel) (by decide +kernel), .ecall (by decide +kernel),
      by decide +kernel, nofun⟩,
    ⟨by decide +kernel, here 3 (instr 8) (by decide +kernel) (by decide +kernel) (by decide +kernel),
      csrKind 3 (instr 8) .mepc (by decide +kernel) (by decide +kernel)⟩,
    ⟨by decide +kernel, here 4 (instr 9) (by decide +kernel) (by decide +kernel) (by decide +kernel), .mret (by decide +kernel)⟩,
    ⟨by decide +kernel, here 5 (instr 4) (by decide +kernel) (by decide +kernel) (by decide +kernel),
      csrKind 5 (instr 4) .mstatus (by decide +kernel) (by decide +kernel)⟩,
    ⟨by decide +kernel, here 6 (instr 5) (by decide +kernel) (by decide +kernel) (by decide +kernel),
      .int (.i .addi 4 4 1) (by decide +kernel) id⟩,
    ⟨by decide +kernel, here 7 (instr 6) (by decide +kernel) (by decide +kernel) (by decide +kernel), by decide +kernel, by decide +kernel,
      by decide +kernel, by decide +kernel⟩, trivial⟩

/-- The hypotheses of C105 hold of this run. -/
example (F : Fp.SoftFloat) : ∃ q r', drive (sys0, []) acts = some q ∧ SysRef.refRun F clock 0 8 ref0 = some r' ∧
    r'.pc = 0x80000020#32 ∧ r'.gpr 4 = 1#32 ∧ r'.file .mcause = 0x80000007#32 ∧ r'.priv = 3 := by
  obtain ⟨q, hq, hl⟩ := Option.map_eq_some_iff.1 run_core
  simp only [look, Prod.mk.injEq] at hl
  obtain ⟨l1, l2, l3, l4, l5, -⟩ := hl
  have hreach := drive_reach acts .init hq
  obtain ⟨r', h1, h2⟩ := C105_reference_partial (by decide) (by decide) hreach rfl .init rfl (by rw [l1]; exact covered0) (e := clock)
    agrees0 ⟨by decide, rfl⟩ (fun k => by unfold line clock; simp [ref0, mem0]) (fun j i _ hk => absurd hk Bool.false_ne_true) F
  rw [l1] at h1
  refine ⟨q, r', hq, h1, h2.pc.trans l2, ?_, ?_, ?_⟩
  · rw [h2.regs 4 (by decide), (C105_events (by decide) (by decide) hreach).1, l1]
    decide +kernel
  · have h := congrFun h2.csr.file .mcause
    rw [l5] at h
    simpa [RefCpu.syncTimer, Csr.set] using h
  · have h := h2.csr.priv
    rw [(C105_events (by decide) (by decide) hreach).1, l1] at h
    exact h.trans (by decide +kernel)

/-! ### Where they differ -/

/-- C105 fails when an interrupt is pending and the fetch of the next instruction faults: the core takes the interrupt (it looks
for interrupts before it looks at the oldest instruction), the reference takes the page fault (`exec` looks for interrupts after
the fetch). -/
theorem C105_fetch_fault_first (tl : Nat → Bool) (text : W → W) : ∃ (σ : Core.Isa Ext) (r r' : RefCpu.State),
    Csr.Spec.Reach σ.ext.csr ∧ SysRef.Agrees RefRun.env σ r ∧ Quiet r ∧ Level σ.ext.csr ∧ RefCpu.Spec.Direct σ.ext.csr.file ∧
      tr σ.ext .fetch σ.pc = none ∧ Right tl text σ .irq ∧ (sysStep tl text σ .irq).ext.csr.file .mcause = 0x80000007#32 ∧
      RefCpu.exec RefRun.noFloat RefRun.env r = some r' ∧ r'.file .scause = 12#32 ∧
      r'.pc ≠ (sysStep tl text σ .irq).pc := by
  let r : RefCpu.State := { RefRun.at_ RefRun.ticked 5#64 0x13#32 with pc := 0x40000100#32 }
  let σ : Core.Isa Ext := ⟨0x40000100#32, r.gpr, ⟨RefMem.view r.mem, RefRun.ticked, 0⟩⟩
  have hx : (RefCpu.exec RefRun.noFloat RefRun.env r).map (fun t => (t.file .scause, t.pc)) = some (12#32, 0x2000#32) := by
    decide +kernel
  obtain ⟨r', h1, h2⟩ := Option.map_eq_some_iff.1 hx
  rw [Prod.mk.injEq] at h2
  refine ⟨σ, r, r', RefRun.reach_ticked, ⟨fun _ _ => rfl, rfl, rfl, rfl, ⟨?_, rfl⟩, by decide⟩, ⟨by decide, rfl⟩, by decide +kernel,
    by decide +kernel, by decide +kernel, ?_, ?_, h1, h2.1, ?_⟩
  · funext g
    cases g <;> decide +kernel
  · show RefRun.ticked.interruptReq = true
    decide +kernel
  · show ((Csr.step idle nothing ⟨none, some (tl 1)⟩ (reported σ.ext (interruptAt 0x40000100#32 0#32)).csr).getD
      (reported σ.ext (interruptAt 0x40000100#32 0#32)).csr).file .mcause = _
    cases tl 1 <;> decide +kernel
  · rw [h2.2]
    show _ ≠ trapPc (interruptAt 0x40000100#32 0#32) ⟨RefMem.view r.mem, RefRun.ticked, 0⟩
    decide +kernel

end SysRefRun
end Verif.Props

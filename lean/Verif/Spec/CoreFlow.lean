import Verif.Spec.RenWindow
/-
The out-of-order core around the rename stage, and the instruction-set machine it has to implement.

The rename stage is the model of Ren.cpp, unchanged (`RenWindow.stepSys`).  Around it are, in program order, the renamed
instructions that have not retired (`tasks`, the window of the reorder buffer), the physical register file, and what the
front end, the functional units and the reorder buffer do, as inputs restricted by `Valid`/`CanRun` to what is proved of them
elsewhere: instructions arrive along the predicted path (C72, C80), an operation runs once its sources' producers have run
(C22, C43, C46, C48) and reads the newest value (C26), instructions retire in program order and only when done (C16, C17), a
mispredicted branch removes the younger instructions (C11, C18) before anything else retires, a serialising instruction
retires last and flushes (C17).

An instruction is what it does: a function of its (up to two) source values and of an external state (`M`: memory, CSRs).
It runs at one instant, except that its register result may be written earlier (`write`): the code splits an instruction into
operations, and the link register of a `JALR` is written by another one than its target is found by.
What the memory system and the CSR unit answer is taken to be the answer of the sequential external state (C53, C54, C30).
-/
namespace Verif.Core
open Verif.Ren Verif.RenWindow Verif.Ring

abbrev W := BitVec 32

/-- An instruction: its registers and its meaning. -/
structure Sem (M : Type) where
  destEn : Bool
  areg : Nat
  use1 : Bool
  src1 : Nat
  use2 : Bool
  src2 : Nat
  isBr : Bool
  /-- the pipeline is flushed when it retires (CSR accesses, fences, returns, …) -/
  serial : Bool
  value : M → W → W → W
  next : M → W → W → W
  effect : M → W → W → M

/-! ### The instruction-set machine -/

structure Isa (M : Type) where
  pc : W
  regs : Nat → W
  ext : M

def Sem.arg1 {M : Type} (i : Sem M) (r : Nat → W) : W := if i.use1 then r i.src1 else 0#32
def Sem.arg2 {M : Type} (i : Sem M) (r : Nat → W) : W := if i.use2 then r i.src2 else 0#32

/-- Execute one instruction. -/
def exec {M : Type} (i : Sem M) (σ : Isa M) : Isa M where
  pc := i.next σ.ext (i.arg1 σ.regs) (i.arg2 σ.regs)
  regs := if i.destEn then upd σ.regs i.areg (i.value σ.ext (i.arg1 σ.regs) (i.arg2 σ.regs)) else σ.regs
  ext := i.effect σ.ext (i.arg1 σ.regs) (i.arg2 σ.regs)

/-- What happens at the architectural level: the instruction at an address is executed, or control is transferred with an
effect on the external state (traps, interrupts, returns from them). -/
inductive Item (M : Type) where
  | inst (pc : W)
  | jump (pc : W) (g : M → M)

/-- `l` is an execution of the program from `σ` to `τ`: every instruction executed is the one the pc points to. -/
inductive Runs {M : Type} (prog : W → Sem M) : Isa M → List (Item M) → Isa M → Prop
  | nil (σ) : Runs prog σ [] σ
  | inst {σ τ l} : Runs prog (exec (prog σ.pc) σ) l τ → Runs prog σ (.inst σ.pc :: l) τ
  | jump {σ τ l} (p g) : Runs prog ⟨p, σ.regs, g σ.ext⟩ l τ → Runs prog σ (.jump p g :: l) τ

/-! ### The core -/

/-- An instruction between rename and retirement: its rename record, address, predicted successor, source registers,
whether it has run, and the successor it found; whether its result has been written before that (`write`). -/
structure Task where
  e : Entry
  pc : W
  pn : W
  p1 : Nat
  p2 : Nat
  done : Bool
  act : W
  wrote : Bool

/-- An instruction from decode, with the predicted successor and the branch tag. -/
structure Fetched where
  pc : W
  pn : W
  brId : Nat

structure State (M : Type) where
  ren : RenWindow.Sys
  /-- the slots of the rename stage -/
  lat : List (Option Fetched)
  tasks : List Task
  prf : Nat → W
  /-- the address the front end goes on with -/
  expect : W
  /-- ghost: what has happened at the architectural level, and the state of the instruction-set machine after that -/
  past : List (Item M)
  isa : Isa M

structure Cyc (M : Type) where
  ready : Bool
  flush : Bool
  interrupt : Bool
  exc : Bool
  retire : Nat
  mispred : Option Nat
  clear : Nat → Bool
  dec : List (Option Fetched)
  /-- where a flush continues and its effect on the external state -/
  target : W
  g : M → M

variable {M : Type} (prog : W → Sem M)

def toInst (f : Fetched) : Inst :=
  ⟨(prog f.pc).destEn, (prog f.pc).areg, (prog f.pc).src1, (prog f.pc).src2, (prog f.pc).isBr, f.brId⟩

def toInput (c : Cyc M) : Input :=
  ⟨c.ready, c.flush, c.interrupt, c.exc, c.retire, c.mispred, c.clear, c.dec.map (Option.map (toInst prog))⟩

/-- The instructions a cycle hands to dispatch. -/
def newTasks : List Slot → List (Option Fetched) → List Task
  | sl :: r, x :: xs =>
    (match toEntry sl, x with
     | some e, some f => [⟨e, f.pc, f.pn, sl.p1, sl.p2, false, 0#32, false⟩]
     | _, _ => []) ++ newTasks r xs
  | _, _ => []

/-- The slots that keep their instruction. -/
def keptSlots (ready : Bool) : List Slot → List (Option Fetched) → List (Option Fetched)
  | sl :: r, x :: xs => (if fires ready sl then none else x) :: keptSlots ready r xs
  | _, _ => []

/-- A misprediction removes everything after the branch that owns tag `t`, whose successor is then the one it found. -/
def cut (t : Nat) : List Task → List Task
  | [] => []
  | k :: r => if k.e.tag = some t then [{ k with pn := k.act }] else k :: cut t r

/-- Where the front end goes on after it. -/
def redirect (t : Nat) (d : W) : List Task → W
  | [] => d
  | k :: r => if k.e.tag = some t then k.act else redirect t d r

def keepTag (c : Nat → Bool) (k : Task) : Task := { k with e := survive c k.e }

/-- `l` is a piece of the predicted path from `a`; the address it goes on with. -/
def Path (a : W) : List (Option Fetched) → Prop
  | [] => True
  | none :: r => Path a r
  | some f :: r => f.pc = a ∧ Path f.pn r

def pathEnd (a : W) : List (Option Fetched) → W
  | [] => a
  | none :: r => pathEnd a r
  | some f :: r => pathEnd f.pn r

def retired (s : State M) (c : Cyc M) : List Task := if c.exc || c.interrupt then [] else s.tasks.take c.retire

/-- The instruction-set machine after the instructions `l`. -/
def after (σ : Isa M) (l : List Task) : Isa M := l.foldl (fun σ k => exec (prog k.pc) σ) σ

def cycle (P A N : Nat) (s : State M) (c : Cyc M) : State M :=
  let slots := renameGroup P s.ren.regs s.ren.insts
  let take := readyOut slots c.ready c.flush c.mispred
  let ret := retired s c
  let σ := after prog s.isa ret
  { ren := stepSys P A N s.ren (toInput prog c)
    lat := if c.flush || c.mispred.isSome then slots.map (fun _ => none) else if take then c.dec else keptSlots c.ready slots s.lat
    tasks := if c.flush then [] else match c.mispred with
      | some t => (cut t s.tasks).map (keepTag c.clear)
      | none => (s.tasks.drop c.retire ++ if c.ready then newTasks slots s.lat else []).map (keepTag c.clear)
    prf := s.prf
    expect := if c.flush then c.target else match c.mispred with
      | some t => redirect t s.expect s.tasks
      | none => if take then pathEnd s.expect c.dec else s.expect
    past := s.past ++ ret.map (fun k => .inst k.pc) ++ if c.flush then [.jump c.target c.g] else []
    isa := if c.flush then ⟨c.target, σ.regs, c.g σ.ext⟩ else σ }

/-- What the rest of the machine guarantees of a cycle. -/
structure Valid (P A N : Nat) (s : State M) (c : Cyc M) : Prop where
  /-- to the rename stage -/
  ren : RenWindow.Valid P A N s.ren (toInput prog c)
  /-- only instructions that have run retire, branches with the right successor after them -/
  done : ∀ k ∈ retired s c, k.done = true ∧ ((prog k.pc).isBr = true → k.act = k.pn)
  /-- a serialising instruction is the last to retire and flushes -/
  serial : ∀ pre k post, retired s c = pre ++ k :: post → (prog k.pc).serial = true → post = [] ∧ c.flush = true
  /-- a misprediction is reported for a branch that has run -/
  mispred : ∀ t, c.mispred = some t → ∀ k ∈ s.tasks, k.e.tag = some t → k.done = true
  /-- the front end follows the predicted path; the successor of an instruction that is no branch is known -/
  path : readyOut (renameGroup P s.ren.regs s.ren.insts) c.ready c.flush c.mispred = true → Path s.expect c.dec
  plain : ∀ f, some f ∈ c.dec → (prog f.pc).isBr = false → (prog f.pc).serial = false → ∀ m a b, (prog f.pc).next m a b = f.pn

/-- Task `k`, after the tasks `pre`, runs with these argument values. -/
def Task.arg1 (k : Task) (prf : Nat → W) : W := if (prog k.pc).use1 then prf k.p1 else 0#32
def Task.arg2 (k : Task) (prf : Nat → W) : W := if (prog k.pc).use2 then prf k.p2 else 0#32

def finish (s : State M) (pre : List Task) (k : Task) (post : List Task) : State M :=
  let m := (after prog s.isa pre).ext
  let a := k.arg1 prog s.prf
  let b := k.arg2 prog s.prf
  { s with
    tasks := pre ++ { k with done := true, act := (prog k.pc).next m a b } :: post
    prf := if k.e.destEn then upd s.prf k.e.preg ((prog k.pc).value m a b) else s.prf }

/-- The register result of `k` is written before it has run altogether: the operations an instruction is split into execute at
different times (Dispatch.cpp:815-1008). -/
def write (s : State M) (pre : List Task) (k : Task) (post : List Task) : State M :=
  { s with
    tasks := pre ++ { k with wrote := true } :: post
    prf := if k.e.destEn then
      upd s.prf k.e.preg ((prog k.pc).value (after prog s.isa pre).ext (k.arg1 prog s.prf) (k.arg2 prog s.prf)) else s.prf }

/-- Nobody still has to produce physical register `p`. -/
def Settled (l : List Task) (p : Nat) : Prop :=
  ∀ j ∈ l, j.e.destEn = true → j.done = false → j.wrote = false → j.e.preg ≠ p

/-- It may run: it has not, and the producers of its sources have. -/
structure CanRun (pre : List Task) (k : Task) : Prop where
  fresh : k.done = false
  one : (prog k.pc).use1 = true → Settled pre k.p1
  two : (prog k.pc).use2 = true → Settled pre k.p2

/-- Its result may be written: the producers of the sources the result depends on have run or written. -/
structure CanWrite (pre : List Task) (k : Task) : Prop where
  fresh : k.done = false
  one : (prog k.pc).use1 = true → Settled pre k.p1 ∨ ∀ m a a' b, (prog k.pc).value m a b = (prog k.pc).value m a' b
  two : (prog k.pc).use2 = true → Settled pre k.p2 ∨ ∀ m a b b', (prog k.pc).value m a b = (prog k.pc).value m a b'

/-- What the decoder guarantees (C08). -/
def WfProg (A : Nat) : Prop :=
  ∀ p, ((prog p).use1 = true → (prog p).src1 < A) ∧ ((prog p).use2 = true → (prog p).src2 < A)

/-- The reset state. -/
def State.init (P A w : Nat) (prf : Nat → W) (pc : W) (m : M) : State M :=
  ⟨⟨Ren.init P A, List.replicate w none, [], []⟩, List.replicate w none, [], prf, pc, [], ⟨pc, prf, m⟩⟩

inductive Reach (P A N : Nat) (s0 : State M) : State M → Prop
  | init : Reach P A N s0 s0
  | cycle {s} (c : Cyc M) : Reach P A N s0 s → Valid prog P A N s c → Reach P A N s0 (cycle prog P A N s c)
  | run {s} {pre post : List Task} {k : Task} : Reach P A N s0 s → s.tasks = pre ++ k :: post → CanRun prog pre k →
      Reach P A N s0 (finish prog s pre k post)
  | write {s} {pre post : List Task} {k : Task} : Reach P A N s0 s → s.tasks = pre ++ k :: post → CanWrite prog pre k →
      Reach P A N s0 (write prog s pre k post)

end Verif.Core

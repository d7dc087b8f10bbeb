import Verif.Model.HandOff
import Verif.Spec.FetchWindow
import Verif.Spec.FetchRun
/-
Front end, instruction cache, hand-over and the queues in front of decode as one system, and what its user wants to know: the
instructions offered to decode are those the front end has fetched since the last redirect, each once and in order; they
follow the predicted path from the redirect address; and their words are what the surroundings hold.
-/
namespace Verif.HandOff
open Verif.Front Verif.Fetch
open Verif.FetchStream (Ev)
open Verif.ICache (World)

variable {W : Nat}

/-- An instruction on its way to decode. -/
structure Insn where
  pc : W32
  word : W32
  pf : Bool
  taken : Bool
  next : W32
deriving DecidableEq

/-- The predicted successor, as the back end sees it. -/
def Insn.pn (i : Insn) : W32 := if i.taken then i.next else i.pc + 4#32

/-! ### What the front end has delivered -/

/-- The instructions of a group: its valid lanes, up to the first one predicted taken. -/
def upTo (o : Out W Nat) : List (Fin W) → List Insn
  | [] => []
  | j :: r =>
    if o.valid j then
      ⟨o.pc j, o.insts j, o.pf j, o.dir j, o.next⟩ :: if o.dir j then [] else upTo o r
    else upTo o r

def insnsOf (o : Out W Nat) : List Insn := upTo o (List.finRange W)

/-- All instructions delivered since the last redirect, oldest first. -/
def delivered : List (Ev W Nat) → List Insn
  | [] => []
  | e :: tr => if e.redirect.isSome then [] else delivered tr ++ (e.out.map insnsOf).getD []

/-- Where fetching was last sent. -/
def start (resetPc : W32) : List (Ev W Nat) → W32
  | [] => resetPc
  | e :: tr => e.redirect.getD (start resetPc tr)

/-- A path from `a`; behind an address that is no multiple of four nothing is said. -/
def Path : Option W32 → List Insn → Prop
  | _, [] => True
  | a, i :: r => (∀ x, a = some x → i.pc = x) ∧ Path (if i.pc.toNat % 4 = 0 then some i.pn else none) r

/-- The word the surroundings hold for an instruction: a page fault if the MMU says so for its page, otherwise the word of the
line at the translated address. -/
def Right (w : World) (i : Insn) : Prop :=
  (w.xlat (i.pc.extractLsb' 12 20) .fault ∧ i.pf = true) ∨
  ∃ p l, w.xlat (i.pc.extractLsb' 12 20) (.page p) ∧ ICache.Fill w (ICache.lineOf (ICache.phys p i.pc)) l ∧ i.pf = false ∧
    ∀ k : Fin 16, k.val = i.pc.toNat % 64 / 4 → i.word = l k

/-! ### The system -/

structure State (W : Nat) where
  fr : Both W Nat
  bin : Slots W Nat := none
  bo : BackOut := {}
  q : FetchWindow.Sys
  /-- ghost: decoded since the last redirect, oldest first -/
  got : List FetchWindow.Flight := []

/-- What a waiting instruction is: as the buffer and its fetch block have it. -/
def Insn.of (f : FetchWindow.Flight) : Insn :=
  ⟨f.entry.pc, f.entry.inst, f.entry.pageFault, f.blk.taken f.entry.offset, f.blk.nextPc⟩

/-- The rest of a cycle: what the back end does. -/
structure Back where
  sawFlush : Bool
  flush : Bool
  mispred : Option Nat
  fire : Nat
  retire : Nat
  pc : W32
  fenceI : Bool

/-- The inputs of the front end that `front_cycle` sets, rv_simu_mmu_v2.cpp:1127-1137, 1177-1181. -/
def drive (b : BackOut) (i : In W Nat) : In W Nat :=
  { i with refetch := b.redirect, refetchAddr := b.pc, fenceI := b.fenceI, readEn := readEn b }

def window (s : Slots W Nat) (c : Back) : FetchWindow.Input :=
  ⟨group s, block s, c.sawFlush, c.flush, c.mispred, c.fire, c.retire⟩

/-- One cycle of `SimCpu::cycle`: `front_cycle`, then the back end, then its end. -/
def cycle (k : Cfg) (MI N : Nat) (s : State W) (i : In W Nat) (c : Back) : Option (State W × Ev W Nat) := do
  let (fr, resp, o) ← s.fr.cycle k (drive s.bo i)
  let bin := take s.bo s.bin o.out
  let q ← FetchWindow.step MI N s.q (window bin c)
  let rdy := PreIdu.ready MI N s.q.pre (c.mispred.isSome || c.sawFlush) (group bin)
  let bo := backOut s.bo c.flush c.mispred.isSome rdy c.pc c.fenceI
  let bin := clear bo rdy bin
  return (⟨fr, bin, bo, q, if bo.redirect then [] else s.got ++ s.q.wait.take c.fire⟩,
    ⟨false, if s.bo.redirect then some s.bo.pc else none, resp, o.out⟩)

/-- What is left to the surroundings: the front end's ports (C80), decode and the reorder buffer (C20, C21). -/
structure Ok (w w' : World) (s : State W) (i : In W Nat) (bin : Slots W Nat) (c : Back) : Prop where
  ports : OkIn w s.fr (drive s.bo i)
  world : NextW w w' (drive s.bo i)
  back : FetchWindow.Valid s.q (window bin c)

/-- The executions: what has been seen of the front end (latest first), what the surroundings hold, the state. -/
inductive Reach (k : Cfg) (MI N : Nat) : List (Ev W Nat) → World → State W → Prop
  | init (w : World) : Reach k MI N [] w { fr := ⟨St.init k, {}⟩, q := ⟨PreIdu.init, [], []⟩ }
  | step {tr w w' s s' e} (i : In W Nat) (c : Back) : Reach k MI N tr w s →
      cycle k MI N s i c = some (s', e) → Ok w w' s i (take s.bo s.bin e.out) c → Reach k MI N (e :: tr) w' s'

/-- The instructions handed over that the back end has not taken yet. -/
def held (s : State W) : List Insn := if s.bo.stall then (s.bin.map insnsOf).getD [] else []

/-! ### With the oracle in the place of the front end

`step_oracle` (diff/br_oracle.cpp) runs the reference model ahead; here it hands over any group, or none.  `back.in` is made anew
from the pending group every cycle, so the end of `cycle` has no effect. -/

structure OState (W : Nat) where
  p : Oracle W Nat := {}
  bo : BackOut := {}
  q : FetchWindow.Sys
  got : List FetchWindow.Flight := []

def ocycle (MI N : Nat) (s : OState W) (out : Option (Out W Nat)) (c : Back) : Option (OState W) := do
  let (p, bin) := takeOracle s.bo s.p out
  let q ← FetchWindow.step MI N s.q (window bin c)
  let rdy := PreIdu.ready MI N s.q.pre (c.mispred.isSome || c.sawFlush) (group bin)
  let bo := backOut s.bo c.flush c.mispred.isSome rdy c.pc c.fenceI
  return ⟨p, bo, q, if bo.redirect then [] else s.got ++ s.q.wait.take c.fire⟩

/-- What the oracle has been made to hand over since the last redirect, after this cycle. -/
def odeliver (s : OState W) (out : Option (Out W Nat)) (del : List Insn) : List Insn :=
  (if s.bo.redirect then [] else del) ++ if asks s.bo s.p then (out.map insnsOf).getD [] else []

inductive OReach (MI N : Nat) : List Insn → OState W → Prop
  | init : OReach MI N [] { q := ⟨PreIdu.init, [], []⟩ }
  | step {del s s'} (out : Option (Out W Nat)) (c : Back) : OReach MI N del s →
      ocycle MI N s out c = some s' → FetchWindow.Valid s.q (window (takeOracle s.bo s.p out).2 c) →
      OReach MI N (odeliver s out del) s'

def OState.held (s : OState W) : List Insn := if s.bo.stall then (s.p.out.map insnsOf).getD [] else []

end Verif.HandOff

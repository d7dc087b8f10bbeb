import Verif.Model.Bpu
import Verif.Model.Rob
/-
What the registers of the branch predictor stand for: outcomes of conditional branches as a list without bound, open calls as a
list without bound, instructions waiting to train a bank as a list.  Nothing here mentions the registers' layout except
`Reps` and `Ras.contents`, which read them.
-/
namespace Verif.Bpu

/-- A conditional branch and its outcome. -/
abbrev Br := W32 × Bool

/-- Outcome number `i`, the newest is number 0; before the first branch: not taken. -/
def outcome (l : List Br) (i : Nat) : Bool := ((l[i]?).map Prod.snd).getD false

/-- Folding the newest `n` outcomes to `len` bits: bit `j` is the parity of the outcomes whose number is `j` modulo `len`. -/
def folded (l : List Br) (n len j : Nat) : Bool :=
  ((List.range n).filter (fun i => i % len == j && outcome l i)).length % 2 == 1

/-- The path history of a list of branches (newest first). -/
def pathOf (c : Cfg) : List Br → W32
  | [] => 0#32
  | (pc, d) :: r => pathUpd c (pathOf c r) pc d

/-- The three registers hold the history of `l`. -/
structure Reps (c : Cfg) (l : List Br) (h : GHist) : Prop where
  ghr : ∀ i, i < c.ghrLen → h.ghr i = outcome l i
  fh : ∀ k, k < 3 → ∀ i, i < 4 → ∀ j, j < 32 →
    (h.fh k i).getLsbD j = (decide (j < c.fhLen k i) && folded l (c.tnLen i) (c.fhLen k i) j)
  path : h.path = pathOf c l

/-- Cache lines are powers of two, at least a word and a fetch group long: static assertions of include/config.h:548-554. -/
structure Cfg.Lines (c : Cfg) (m : Nat) : Prop where
  size : c.lineSize = 2 ^ m
  range : 2 ≤ m ∧ m < 31
  group : 4 * c.fetchWidth ≤ c.lineSize

/-- The conditional branches among retired instructions. -/
def condBranches (us : List Upd) : List Br := (us.filter (fun u => u.ty == .direct)).map (fun u => (u.pc, u.dir))

/-- The slots of a group that are on the predicted path: up to and including the first one predicted taken. -/
def onPath (ss : List Slot) : List Slot :=
  let on := ss.filter Slot.on
  on.takeWhile (fun s => !s.taken) ++ (on.dropWhile (fun s => !s.taken)).take 1

/-- The conditional branches on the predicted path of a group, in program order. -/
def groupBranches (ss : List Slot) : List Br :=
  ((onPath ss).filter (fun s => s.ty == .direct)).map (fun s => (s.pc, s.taken))

/-- Retiring `us` after the branches `a`: if a direction was mispredicted, the speculative history restarts from the last such
branch. -/
def repair : List Upd → List Br → List Br → List Br
  | [], _, s => s
  | u :: r, a, s =>
    if u.ty = .direct then repair r ((u.pc, u.dir) :: a) (if u.predDir ≠ u.dir then (u.pc, u.dir) :: a else s)
    else repair r a s

/-! ### Calls -/

inductive RasOp
  | call (ra : W32)
  | ret
  deriving DecidableEq

/-- The open calls of a program, innermost first. -/
def openCalls : List RasOp → List W32
  | ops => ops.foldl (fun l o => match o with | .call v => v :: l | .ret => l.tail) []

/-- The same, remembering only the `d` innermost after each call. -/
def recentCalls (d : Nat) (l : List W32) : RasOp → List W32
  | .call v => (v :: l).take d
  | .ret => l.tail

/-- The addresses a return stack holds, innermost first. -/
def Ras.contents (r : Ras) : List W32 := (List.range r.cnt).map (fun k => r.stk (r.cnt - 1 - k))

/-- The call or return a retired instruction is reported as. -/
def opOf (u : Upd) : Option RasOp :=
  if u.ty = .call then some (.call (u.pc + 4#32)) else if u.ty = .ret then some .ret else none

/-- The call or return at the end of a predicted group: the first slot predicted taken decides. -/
def groupOp (ss : List Slot) : Option RasOp :=
  match ss.find? (fun s => s.on && s.taken) with
  | none => none
  | some s => if s.ty = .call then some (.call (s.pc + 4#32)) else if s.ty = .ret then some .ret else none

/-- Kind of an instruction word as the predictor is to see it: conditional branch, `jal` to `x1`, other `jal`,
`jalr x0, 0(x1)`, other `jalr`, anything else. -/
def kindOf (w : W32) : BrType :=
  let opc := w.extractLsb' 0 7
  let rd := w.extractLsb' 7 5
  let rs1 := w.extractLsb' 15 5
  if opc = 0b1100011#7 then .direct
  else if opc = 0b1101111#7 then (if rd = 1#5 then .call else .jal)
  else if opc = 0b1100111#7 then (if rd = 0#5 ∧ rs1 = 1#5 ∧ w.extractLsb' 20 12 = 0#12 then .ret else .idirect)
  else .nonctl

/-- What a return stack should do with a jump: RISC-V unprivileged manual, "Return-address stack prediction hints". -/
inductive Hint
  | nothing | push | pop | popPush
  deriving DecidableEq

/-- The table of the manual; `x1` and `x5` are the link registers. -/
def hint (w : W32) : Hint :=
  let opc := w.extractLsb' 0 7
  let rd := w.extractLsb' 7 5
  let rs1 := w.extractLsb' 15 5
  let link (r : BitVec 5) : Bool := r == 1#5 || r == 5#5
  if opc = 0b1101111#7 then (if link rd then .push else .nothing)
  else if opc = 0b1100111#7 then
    if !link rd then (if link rs1 then .pop else .nothing)
    else if !link rs1 || rd == rs1 then .push else .popPush
  else .nothing

/-! ### Runs -/

/-- Everything reported retired by the inputs of a run, in order. -/
def reported (is : List In) : List Upd := is.flatMap (fun i => i.upds.filterMap id)

/-- What has happened: every instruction reported retired, in order; the speculative history; the speculative open calls. -/
structure Log where
  retired : List Upd
  spec : List Br
  calls : List W32

/-- The recent calls after a program. -/
def recent (d : Nat) (ops : List RasOp) : List W32 := ops.foldl (recentCalls d) []

/-- The history of a program that retired `us` (newest first). -/
def history (us : List Upd) : List Br := (condBranches us).reverse

/-- One cycle of the log.  A redirect makes the speculative history and calls those of the retired program. -/
def Log.next (c : Cfg) (L : Log) (pc : W32) (i : In) : Log :=
  let us := i.upds.filterMap id
  let retired := L.retired ++ us
  match i.refetch with
  | some _ => ⟨retired, history retired, recent c.rasDepth (retired.filterMap opOf)⟩
  | none =>
    let ss := slots c pc i.ready i
    ⟨retired,
     repair us (history L.retired) (if i.ready then (groupBranches ss).reverse ++ L.spec else L.spec),
     match (if i.ready then groupOp ss else none) with
     | some o => recentCalls c.rasDepth L.calls o
     | none => L.calls⟩

/-- The states reachable from reset, with the log. -/
inductive Reach (c : Cfg) (pc0 : W32) : Log → St → Prop
  | init : Reach c pc0 ⟨[], [], []⟩ (init pc0)
  | step {L s i s' o} : Reach c pc0 L s → cycle c s i = some (s', o) → Reach c pc0 (L.next c s.pc i) s'

/-- A run together with its log, to compute examples. -/
def runLog (c : Cfg) : List In → Log × St → Option (Log × St)
  | [], p => some p
  | i :: r, (L, s) => do
    let (s', _) ← cycle c s i
    runLog c r (L.next c s.pc i, s')

/-- The conditional branches and the calls and returns predicted in a run without redirects, in order. -/
def predicted (c : Cfg) : List In → St → List Br × List RasOp
  | [], _ => ([], [])
  | i :: r, s =>
    match cycle c s i with
    | none => ([], [])
    | some (s', _) =>
      let ss := slots c s.pc i.ready i
      let p := predicted c r s'
      if i.ready then (groupBranches ss ++ p.1, (groupOp ss).toList ++ p.2) else p

/-- Two histories agree in every bit the predictor can read. -/
structure Same (c : Cfg) (h h' : GHist) : Prop where
  ghr : ∀ i, i < c.ghrLen → h.ghr i = h'.ghr i
  fh : ∀ k, k < 3 → ∀ i, i < 4 → h.fh k i = h'.fh k i
  path : h.path = h'.path

/-! ### Training queues -/

/-- The instructions waiting in a bank, oldest first. -/
def QBank.waiting (c : Cfg) (q : QBank) : List Upd := (List.range q.count).map (fun k => q.slot ((q.rd + k) % c.qDepth))

/-- The retired instructions of one bank. -/
def ofBank (c : Cfg) (b : Nat) (us : List Upd) : List Upd := us.filter (fun u => bankSel c u.pc == b)

/-- What the head of the reorder buffer looks like in a cycle (`Rob.arbitrate`); the stall input is not part of it. -/
structure RobIn where
  row : Rob.Row
  empty : Bool
  mispred : Bool
  intReq : Bool
  storePending : Bool

/-- What the reorder buffer retires, given the predictor's stall. -/
def retires (stall : Bool) (r : RobIn) : List Rob.Uop :=
  Rob.commits r.row (Rob.arbitrate r.row r.empty r.mispred stall r.intReq r.storePending)

/-- Predictor and reorder buffer together: the instructions retired under this cycle's stall are reported in the next cycle
(rv_simu_mmu_v2.cpp:1017-1120: front end first, then back end, then `back2front_comb`).  `full`: the stall of the previous cycle,
`last`: the reorder buffer's head in the previous cycle. -/
inductive Paced (c : Cfg) : Bool → St → List (RobIn × In) → Prop
  | nil {full s} : Paced c full s []
  | cons {full s r i rest} :
      r.row.length = c.commitWidth →
      (i.upds.filterMap id).length = (retires full r).length →
      (∀ s' o, cycle c s i = some (s', o) → Paced c o.full s' rest) →
      Paced c full s ((r, i) :: rest)

end Verif.Bpu

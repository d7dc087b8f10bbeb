import Verif.Model.BpuTab
/-
The branch predictor with its type predictor and target predictors: front-end/BPU/BPU.h:943-1068 and 2017-2076.

Simplifications.
* What the direction predictor (TAGE) answers is an input of the cycle, as in `Model/Bpu.lean`.
* The requests to the predictors are made in every cycle; BPU.h:980 makes them when a prediction is made, and only then are the
  answers used (`Bpu.cycle`, `going`).
-/
namespace Verif.BpuSys
open Verif.Bpu Verif.BpuTab

/-- `BPU_TOP` with `type_pred_inst` and `btb_inst`. -/
structure PSt where
  top : St
  types : TTable
  tgt : Nat → BTable

def pInit (pc0 : W32) : PSt := ⟨Bpu.init pc0, tInit, fun _ => bInit⟩

/-- What a cycle is given from outside. -/
structure PIn where
  refetch : Option W32
  ready : Bool
  upds : List (Option Upd)
  tage : Nat → Option Bool

/-- Address of slot `k`, BPU.h:830. -/
def slotPc (base : W32) (k : Nat) : W32 := base + BitVec.ofNat 32 (k * 4)

/-- `do_pred_on_this_pc`, BPU.h:831-839. -/
def slotOn (c : Cfg) (base : W32) (k : Nat) : Bool := decide ((slotPc base k).toNat < (boundary c base).toNat)

/-- `bpu_post_read_req_comb` and `bpu_submodule_bind_comb`, BPU.h:979-1001, 1049-1068: every slot asks the type predictor; each
bank is asked for the target of the first slot it serves, with the type of the last one. -/
def answers (c : Cfg) (tc : TCfg) (b : BCfg) (s : PSt) (i : PIn) : In :=
  let base := i.refetch.getD s.top.pc
  let ty := fun k => typePredict c tc s.types (slotPc base k)
  let serves := fun bk k => slotOn c base k && bankSel c (slotPc base k) == bk
  { refetch := i.refetch
    ready := i.ready
    upds := i.upds
    pType := ty
    tage := i.tage
    btb := fun bk =>
      match (List.range c.fetchWidth).find? (serves bk) with
      | none => none
      | some k =>
        let l := ((List.range c.fetchWidth).reverse.find? (serves bk)).getD k
        some (btbPredict b (s.tgt bk) (bankPc c (slotPc base k)) (ty l)) }

/-- What a bank's target predictor is trained with, BPU.h:1003-1039. -/
def bUpd (c : Cfg) (u : Upd) : BUpd := ⟨bankPc c u.pc, u.ty, u.dir, u.target⟩

/-- One cycle: predictions read the old tables; the type predictor is trained by the instructions retired in this cycle
(BPU.h:1042-1046), each target predictor by the head of its bank's queue. -/
def pCycle (c : Cfg) (tc : TCfg) (b : BCfg) (s : PSt) (i : PIn) : Option (PSt × Out) :=
  match cycle c s.top (answers c tc b s i) with
  | none => none
  | some (t, o) =>
    some (
      { top := t
        types := typeCycle c tc s.types ((i.upds.filterMap id).map (fun u => (u.pc, u.ty)))
        tgt := fun bk => match o.train bk with
          | none => s.tgt bk
          | some u => btbUpdate b (s.tgt bk) (bUpd c u) }, o)

/-- A run; the outputs in order. -/
def pRun (c : Cfg) (tc : TCfg) (b : BCfg) (s : PSt) : List PIn → Option (PSt × List Out)
  | [] => some (s, [])
  | i :: r =>
    match pCycle c tc b s i with
    | none => none
    | some (s', o) =>
      match pRun c tc b s' r with
      | none => none
      | some (s'', os) => some (s'', o :: os)

end Verif.BpuSys

import Verif.Model.BpuSys
import Verif.Model.Tage
/-
The branch predictor with all its parts: `BPU_TOP` with the type predictor, the target predictors (`Model/BpuSys`) and one
direction predictor per bank (`Model/Tage`): front-end/BPU/BPU.h:943-1068, 2017-2076.

Simplifications.
* The record that comes back with a retired instruction (`alt_pred`, `pcpn`, `altpcpn`, `tage_tags`, `tage_idxs`, `sc_*`, `loop_*`)
  is copied through the queue untouched; the queue carries its number (`info`), `recs` says which record that is.
* A direction predictor is asked in every cycle; BPU.h:980 asks when a prediction is made, and only then is the answer used
  (`Bpu.cycle`, `going`).  What it stores does not depend on being asked.
-/
namespace Verif.TageSys
open Verif.Bpu Verif.BpuTab Verif.BpuSys

/-- `BPU_TOP` with `type_pred_inst`, `btb_inst` and `tage_inst`. -/
structure TSt where
  p : PSt
  dir : Nat → Tage.St

def tInit (tg : Tage.Cfg) (pc0 : W32) : TSt := ⟨pInit pc0, fun _ => Tage.init tg⟩

/-- What a cycle is given from outside: `refetch`, `icache_read_ready`, the retired instructions. -/
structure TIn where
  refetch : Option W32
  ready : Bool
  upds : List (Option Upd)

/-- What a direction predictor is asked: the address of the first slot its bank serves, with the speculative histories,
BPU.h:948-957, 990-995, 2044-2050 (`SPECULATIVE_ON`, frontend_feature_config.h:15). -/
def asked (c : Cfg) (s : TSt) (i : TIn) (bk : Nat) : Option Tage.Key :=
  let base := i.refetch.getD s.p.top.pc
  ((List.range c.fetchWidth).find? (fun k => slotOn c base k && bankSel c (slotPc base k) == bk)).map
    (fun k => ⟨bankPc c (slotPc base k), s.p.top.spec.fh, s.p.top.spec.ghr, s.p.top.spec.path⟩)

/-- The directions answered, BPU.h:1107-1109: `pred_out` of the bank. -/
def pIn (c : Cfg) (tg : Tage.Cfg) (s : TSt) (i : TIn) : PIn where
  refetch := i.refetch
  ready := i.ready
  upds := i.upds
  tage := fun bk => (asked c s i bk).map (fun k => (Tage.predict tg (s.dir bk) k).pred)

/-- What a bank's direction predictor is trained with: conditional branches only, BPU.h:1008-1034.  `pred_in` is the direction
that was predicted. -/
def tUpd (c : Cfg) (recs : Nat → Tage.Meta) (u : Upd) : Option Tage.Upd :=
  if u.ty = .direct then some ⟨bankPc c u.pc, u.dir, { recs u.info with pred := u.predDir }⟩ else none

/-- The training of bank `bk` in a cycle. -/
def trainedBy (c : Cfg) (recs : Nat → Tage.Meta) (o : Out) (bk : Nat) : Option Tage.Upd := (o.train bk).bind (tUpd c recs)

/-- One cycle: predictions read the old tables. -/
def tCycle (c : Cfg) (tc : TCfg) (b : BCfg) (tg : Tage.Cfg) (recs : Nat → Tage.Meta) (s : TSt) (i : TIn) : Option (TSt × Out) :=
  match pCycle c tc b s.p (pIn c tg s i) with
  | none => none
  | some (p, o) =>
    some (⟨p, fun bk => match trainedBy c recs o bk with
      | none => s.dir bk
      | some u => Tage.update tg (s.dir bk) u⟩, o)

/-- A run; the outputs in order. -/
def tRun (c : Cfg) (tc : TCfg) (b : BCfg) (tg : Tage.Cfg) (recs : Nat → Tage.Meta) (s : TSt) : List TIn → Option (TSt × List Out)
  | [] => some (s, [])
  | i :: r =>
    match tCycle c tc b tg recs s i with
    | none => none
    | some (s', o) =>
      match tRun c tc b tg recs s' r with
      | none => none
      | some (s'', os) => some (s'', o :: os)

end Verif.TageSys

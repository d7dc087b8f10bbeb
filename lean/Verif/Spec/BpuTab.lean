import Verif.Model.BpuTab
/-
What the tables of the predictors stand for: the updates made to them, newest cycle first.
-/
namespace Verif.BpuTab
open Verif.Bpu (W32 BrType)

/-! ### Type predictor -/

/-- The updates of a run, newest cycle first; each cycle lists its updates in order. -/
abbrev TLog := List (List (W32 × BrType))

/-- The table after a run from reset. -/
def tableOf (c : Bpu.Cfg) (tc : TCfg) : TLog → TTable
  | [] => tInit
  | us :: r => typeCycle c tc (tableOf c tc r) us

/-- The types told about the addresses that share an entry with `pc`, in the newest cycle that told any. -/
def latest (c : Bpu.Cfg) (tc : TCfg) (pc : W32) : TLog → List BrType
  | [] => []
  | us :: r =>
    let ts := (us.filter (fun u => typeKey c tc u.1 == typeKey c tc pc)).map Prod.snd
    if ts.isEmpty then latest c tc pc r else ts

/-- The addresses whose updates a run made to the set of `pc`. -/
def sharers (c : Bpu.Cfg) (tc : TCfg) (pc : W32) (log : TLog) : List W32 :=
  (log.flatten.map Prod.fst).filter (fun q => (typeKey c tc q).1 == (typeKey c tc pc).1)

/-! ### Target predictor -/

/-- The updates of one bank, newest first. -/
abbrev BLog := List BUpd

/-- The tables of one bank after a run from reset. -/
def btbOf (b : BCfg) : BLog → BTable
  | [] => bInit
  | u :: r => btbUpdate b (btbOf b r) u

/-- The updates that teach the main table a target: taken, and a jump or a conditional branch. -/
def teaches (b : BCfg) (u : BUpd) : Bool := u.dir && u.ty != .nonctl && (u.ty != .idirect || b.idirTrain)

/-- The newest target taught at addresses that share an entry of the main table with `pc`. -/
def lastTarget (b : BCfg) (pc : W32) (log : BLog) : Option W32 :=
  (log.find? (fun u => teaches b u && btbIdx b u.pc == btbIdx b pc && btbTag b u.pc == btbTag b pc)).map BUpd.target

/-- The local history register `j`: every control instruction that selects it enters it. -/
def histOf (b : BCfg) (j : Nat) : BLog → W32
  | [] => 0#32
  | u :: r =>
    if u.ty ≠ .nonctl ∧ bhtIdx b u.pc = j then bhtNext b (histOf b j r) u.ty u.dir u.target else histOf b j r

/-- The newest target of an indirect jump with the tag of `pc` that led to a history selecting row `i`. -/
def lastAfter (b : BCfg) (pc : W32) (i : Nat) : BLog → Option W32
  | [] => none
  | u :: r =>
    if u.dir = true ∧ u.ty = .idirect ∧ tcTag b u.pc = tcTag b pc ∧ tcIdx b u.pc (histOf b (bhtIdx b u.pc) (u :: r)) = i then
      some u.target
    else lastAfter b pc i r

/-- The newest target of an indirect jump with the tag of `pc` that came after a history selecting row `i`. -/
def lastBefore (b : BCfg) (pc : W32) (i : Nat) : BLog → Option W32
  | [] => none
  | u :: r =>
    if u.dir = true ∧ u.ty = .idirect ∧ tcTag b u.pc = tcTag b pc ∧ tcIdx b u.pc (histOf b (bhtIdx b u.pc) r) = i then
      some u.target
    else lastBefore b pc i r

/-- The row of the indirect tables that `pc` selects now. -/
def rowNow (b : BCfg) (pc : W32) (log : BLog) : Nat := tcIdx b pc (histOf b (bhtIdx b pc) log)

end Verif.BpuTab

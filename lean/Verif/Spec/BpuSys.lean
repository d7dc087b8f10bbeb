import Verif.Model.BpuSys
import Verif.Spec.Bpu
import Verif.Spec.BpuTab
/-
What the predictor as a whole was told, from the inputs of a run.
-/
namespace Verif.BpuSys
open Verif.Bpu Verif.BpuTab

/-- The instructions reported retired, in order. -/
def retired (is : List PIn) : List Upd := is.flatMap (fun i => i.upds.filterMap id)

/-- The types told, newest cycle first. -/
def typeLog (is : List PIn) : TLog := (is.map (fun i => (i.upds.filterMap id).map (fun u => (u.pc, u.ty)))).reverse

/-- What instructions (oldest first) teach a target predictor, newest first. -/
def taught (c : Cfg) (us : List Upd) : BLog := (us.map (bUpd c)).reverse

/-- The type predictor has room for the instructions that use the set of `pc`, and they retire in different cycles. -/
structure TypeFits (c : Cfg) (tc : TCfg) (is : List PIn) (pc : W32) : Prop where
  room : ∃ A : List W32, A.length ≤ tc.ways ∧
    ∀ u ∈ retired is, (typeKey c tc u.pc).1 = (typeKey c tc pc).1 → ∃ a ∈ A, typeKey c tc u.pc = typeKey c tc a
  apart : ∀ i ∈ is, ((i.upds.filterMap id).filter (fun u => (typeKey c tc u.pc).1 == (typeKey c tc pc).1)).length ≤ 1

/-- The target predictor has room for the taken branches and jumps that use the set of `pc`. -/
def TargetFits (c : Cfg) (b : BCfg) (is : List PIn) (pc : W32) : Prop :=
  ∃ A : List W32, A.length ≤ b.ways ∧
    ∀ u ∈ retired is, bankSel c u.pc = bankSel c pc → teaches b (bUpd c u) = true →
      btbIdx b (bankPc c u.pc) = btbIdx b (bankPc c pc) → ∃ a ∈ A, btbTag b (bankPc c u.pc) = btbTag b (bankPc c a)

/-- The newest type told about `pc`. -/
def lastType (c : Cfg) (tc : TCfg) (is : List PIn) (pc : W32) : BrType := (latest c tc pc (typeLog is)).headD .nonctl

end Verif.BpuSys

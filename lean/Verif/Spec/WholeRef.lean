import Verif.Spec.Whole
import Verif.Props.CoreRef
/-
Machine words as the composed stages see them.
-/
namespace Verif.Whole
open Verif.Core Verif.Decode
open Verif.Spec.ByteMem (Mem)

/-- The program whose word at `pc` is `text pc`: what `CoreRef` makes of a word, with the branches the decoder gives a tag
(`is_branch`, util.h:111).  `JAL` is not among them: the front end has to have its target right (`predecode_checker`). -/
def machine (text : W → W) (pc : W) : Sem Mem :=
  { CoreRef.program text pc with isBr := Spine.isBranch (decode (text pc)) }

/-- A word fetched without a fault is the program's instruction. -/
theorem machine_agrees {text : W → W} {pc : W} : Agrees (decodeEntry (text pc) false) (machine text pc) :=
  ⟨rfl, rfl, rfl, rfl, rfl, fun h => by cases h⟩

theorem machine_wf {text : W → W} {A : Nat} (h : 32 ≤ A) : WfProg (machine text) A := Props.program_wf (text := text) h

/-- The marks for branches do not affect executions. -/
theorem machine_runs {text : W → W} {σ τ : Isa Mem} {l : List (Item Mem)} (h : Runs (machine text) σ l τ) :
    Runs (CoreRef.program text) σ l τ := by
  induction h with
  | nil σ => exact .nil σ
  | inst _ ih => exact .inst ih
  | jump p g _ ih => exact .jump p g ih

end Verif.Whole

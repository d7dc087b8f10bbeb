import Verif.Model.FetchSys
import Verif.Spec.FetchStream
import Verif.Spec.FetchMem
/-
The executions of the front end with its instruction cache.
-/
namespace Verif.Fetch
open Verif.ICache
open Verif.Front (Cfg St)
open Verif.FetchStream (Ev)

/-- The executions: what is seen from outside, cycle by cycle (latest first), what the surroundings hold, the state. -/
inductive FRun {W : Nat} {M : Type} (k : Cfg) : List (Ev W M) → World → Both W M → Prop
  | init (w : World) : FRun k [] w ⟨St.init k, {}⟩
  | step {tr w w' s s' resp o} (i : In W M) : FRun k tr w s → OkIn w s i → NextW w w' i →
      s.cycle k i = some (s', resp, o) →
      FRun k (⟨false, if i.refetch then some i.refetchAddr else none, resp, o.out⟩ :: tr) w' s'

end Verif.Fetch

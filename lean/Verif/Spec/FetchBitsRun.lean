import Verif.Model.FetchBits
import Verif.Spec.FetchRun
/-
The executions of the front end with its instruction cache as it runs.
-/
namespace Verif.ICacheBits
open Verif.ICache
open Verif.Fetch (In OkIn NextW)
open Verif.Front (Cfg St)
open Verif.FetchStream (Ev)

/-- The executions: as `FRun`, with anything on the wires whose flag is off. -/
inductive PRun {W : Nat} {M : Type} (k : Cfg) : List (Ev W M) → World → PBoth W M → Prop
  | init (w : World) : PRun k [] w ⟨St.init k, {}⟩
  | step {tr w w' s s' resp o} (i : In W M) (x y : Junk) : PRun k tr w s → OkIn w s.env i → NextW w w' i →
      s.cycle k i x y = some (s', resp, o) →
      PRun k (⟨false, if i.refetch then some i.refetchAddr else none, resp, o.out⟩ :: tr) w' s'

end Verif.ICacheBits

/-
Circular-buffer primitives shared by several units.
-/
namespace Verif.Ring

/-- Array update. -/
def upd {α : Type} (f : Nat → α) (i : Nat) (v : α) : Nat → α := fun j => if j = i then v else f j

/-- `LOOP_INC`, back-end/include/util.h:5. -/
def inc (P x : Nat) : Nat := (x + 1) % P

/-- `n` consecutive slots of a circular array of size `P`, starting at `h`. -/
def ring {α : Type} (P : Nat) (fl : Nat → α) : Nat → Nat → List α
  | _, 0 => []
  | h, n + 1 => fl h :: ring P fl (inc P h) n

/-- Distance from `fr` to `to` going up in a circular array of size `P`
(`ring_distance`, back-end/Ren.cpp:9-18). -/
def ringDist (P : Nat) (fr to : Nat) : Nat := if to < fr then to + P - fr else to - fr

end Verif.Ring

/-
The addresses of the machine's devices, written as half-open ranges of byte addresses (independent of the
masks and comparisons of the code).
-/
namespace Verif.Spec

/-- First address and length of each range: serial port, interrupt controllers, DMA controller, and the first
byte of each timer word. -/
def deviceRanges : List (Nat × Nat) :=
  [(0x10000000, 16), (0x0c000000, 0x4000000), (0x1fb00000, 0x1000), (0x1fd0f000, 0x100),
   (0x1fd0e000, 1), (0x1fd0e004, 1), (0x1fd0e008, 1), (0x1fd0e00c, 1)]

def IsDevice (a : Nat) : Prop := ∃ r ∈ deviceRanges, r.1 ≤ a ∧ a < r.1 + r.2

end Verif.Spec

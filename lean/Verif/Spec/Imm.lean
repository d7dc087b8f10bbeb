import Verif.Spec.Isa
/-
Immediate encodings (RISC-V unprivileged ISA, figure "Types of immediate
produced by RISC-V instructions"): bit `i` of the 32-bit immediate of word `w`.
-/
namespace Verif.Isa

def immIBit (w : Word) (i : Nat) : Bool := if i ≤ 10 then w.getLsbD (20 + i) else w.getLsbD 31

def immSBit (w : Word) (i : Nat) : Bool :=
  if i ≤ 4 then w.getLsbD (7 + i) else if i ≤ 10 then w.getLsbD (25 + (i - 5)) else w.getLsbD 31

def immBBit (w : Word) (i : Nat) : Bool :=
  if i = 0 then false
  else if i ≤ 4 then w.getLsbD (8 + (i - 1))
  else if i ≤ 10 then w.getLsbD (25 + (i - 5))
  else if i = 11 then w.getLsbD 7
  else w.getLsbD 31

def immUBit (w : Word) (i : Nat) : Bool := if i ≤ 11 then false else w.getLsbD i

def immJBit (w : Word) (i : Nat) : Bool :=
  if i = 0 then false
  else if i ≤ 10 then w.getLsbD (21 + (i - 1))
  else if i = 11 then w.getLsbD 20
  else if i ≤ 19 then w.getLsbD i
  else w.getLsbD 31

end Verif.Isa

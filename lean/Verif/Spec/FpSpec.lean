import Verif.Model.Zfinx
/-
Single-precision numbers by their fields, their classes and their order, as in IEEE 754 and the RISC-V F/Zfinx chapter.
-/
namespace Verif.Fp.Spec

def sign (v : BitVec 32) : Bool := v.getLsbD 31
def expo (v : BitVec 32) : BitVec 8 := v.extractLsb' 23 8
def frac (v : BitVec 32) : BitVec 23 := v.extractLsb' 0 23

def NaN (v : BitVec 32) : Prop := expo v = 255#8 ∧ frac v ≠ 0#23
def Inf (v : BitVec 32) : Prop := expo v = 255#8 ∧ frac v = 0#23
def Zero (v : BitVec 32) : Prop := expo v = 0#8 ∧ frac v = 0#23
def Subnormal (v : BitVec 32) : Prop := expo v = 0#8 ∧ frac v ≠ 0#23
def Normal (v : BitVec 32) : Prop := expo v ≠ 0#8 ∧ expo v ≠ 255#8

/-- Bit `i` of the FCLASS result says: (the table of the F chapter). -/
def Class (i : Nat) (v : BitVec 32) : Prop :=
  match i with
  | 0 => sign v = true ∧ Inf v
  | 1 => sign v = true ∧ Normal v
  | 2 => sign v = true ∧ Subnormal v
  | 3 => sign v = true ∧ Zero v
  | 4 => sign v = false ∧ Zero v
  | 5 => sign v = false ∧ Subnormal v
  | 6 => sign v = false ∧ Normal v
  | 7 => sign v = false ∧ Inf v
  | 8 => NaN v ∧ (frac v).getLsbD 22 = false
  | 9 => NaN v ∧ (frac v).getLsbD 22 = true
  | _ => False

/-- The order of the numbers: sign and magnitude (both zeros are 0). -/
def key (v : BitVec 32) : Int := if sign v then -((v.extractLsb' 0 31).toNat : Int) else ((v.extractLsb' 0 31).toNat : Int)

/-- The library compares as IEEE 754 says. -/
structure Compares (F : SoftFloat) : Prop where
  eq : ∀ a b, F.eq a b = true ↔ ¬ NaN a ∧ ¬ NaN b ∧ key a = key b
  lt : ∀ a b, F.lt a b = true ↔ ¬ NaN a ∧ ¬ NaN b ∧ key a < key b
  le : ∀ a b, F.le a b = true ↔ ¬ NaN a ∧ ¬ NaN b ∧ key a ≤ key b

/-- The library subtracts by adding the negated operand. -/
def Subtracts (F : SoftFloat) : Prop := ∀ rm a b, F.sub rm a b = F.add rm a (b ^^^ 0x80000000#32)

/-- The rounding mode of the instruction (static; 7 is "dynamic", and without a control register that is to nearest even). -/
def Rounding (f3 : BitVec 3) (rm : Nat) : Prop := (f3 = 7#3 ∧ rm = 0) ∨ (f3.toNat ≤ 4 ∧ rm = f3.toNat)

/-- The result of FMIN: the smaller number, -0 being smaller than +0; a NaN loses against a number, two NaNs give the
canonical NaN. -/
def Smaller (a b v : BitVec 32) : Prop :=
  (NaN a ∧ NaN b → v = 0x7fc00000#32) ∧ (NaN a ∧ ¬ NaN b → v = b) ∧ (¬ NaN a ∧ NaN b → v = a) ∧
  (¬ NaN a ∧ ¬ NaN b → (v = a ∨ v = b) ∧ key v ≤ key a ∧ key v ≤ key b ∧
    (key a = key b → (sign v = true ↔ sign a = true ∨ sign b = true)))

/-- The result of FMAX. -/
def Larger (a b v : BitVec 32) : Prop :=
  (NaN a ∧ NaN b → v = 0x7fc00000#32) ∧ (NaN a ∧ ¬ NaN b → v = b) ∧ (¬ NaN a ∧ NaN b → v = a) ∧
  (¬ NaN a ∧ ¬ NaN b → (v = a ∨ v = b) ∧ key a ≤ key v ∧ key b ≤ key v ∧
    (key a = key b → (sign v = true ↔ sign a = true ∧ sign b = true)))

/-- The single-precision instructions of Zfinx without the fused ones: function codes, rs2 field and result. -/
inductive Op (F : SoftFloat) (a b : BitVec 32) : BitVec 3 → BitVec 7 → BitVec 5 → BitVec 32 → Prop
  | add (f3 rm) (x : BitVec 5) : Rounding f3 rm → Op F a b f3 0x00#7 x (F.add rm a b)
  | sub (f3 rm) (x : BitVec 5) : Rounding f3 rm → Op F a b f3 0x04#7 x (F.sub rm a b)
  | mul (f3 rm) (x : BitVec 5) : Rounding f3 rm → Op F a b f3 0x08#7 x (F.mul rm a b)
  | div (f3 rm) (x : BitVec 5) : Rounding f3 rm → Op F a b f3 0x0c#7 x (F.div rm a b)
  | sqrt (f3 rm) : Rounding f3 rm → Op F a b f3 0x2c#7 0#5 (F.sqrt rm a)
  | toInt (f3 rm) : Rounding f3 rm → Op F a b f3 0x60#7 0#5 (F.toI32 rm a)
  | toUint (f3 rm) : Rounding f3 rm → Op F a b f3 0x60#7 1#5 (F.toU32 rm a)
  | ofInt (f3 rm) : Rounding f3 rm → Op F a b f3 0x68#7 0#5 (F.ofI32 rm a)
  | ofUint (f3 rm) : Rounding f3 rm → Op F a b f3 0x68#7 1#5 (F.ofU32 rm a)
  /-- magnitude of `a`, sign of `b`; its opposite; the product of the signs -/
  | sgnj (x : BitVec 5) (v) : (∀ i < 31, v.getLsbD i = a.getLsbD i) → sign v = sign b → Op F a b 0#3 0x10#7 x v
  | sgnjn (x : BitVec 5) (v) : (∀ i < 31, v.getLsbD i = a.getLsbD i) → sign v = !sign b → Op F a b 1#3 0x10#7 x v
  | sgnjx (x : BitVec 5) (v) : (∀ i < 31, v.getLsbD i = a.getLsbD i) → sign v = (sign a ^^ sign b) → Op F a b 2#3 0x10#7 x v
  /-- comparisons give 1 or 0 -/
  | eq (x : BitVec 5) (v) : (v = 1#32 ∧ ¬ NaN a ∧ ¬ NaN b ∧ key a = key b) ∨
      (v = 0#32 ∧ ¬ (¬ NaN a ∧ ¬ NaN b ∧ key a = key b)) → Op F a b 2#3 0x50#7 x v
  | lt (x : BitVec 5) (v) : (v = 1#32 ∧ ¬ NaN a ∧ ¬ NaN b ∧ key a < key b) ∨
      (v = 0#32 ∧ ¬ (¬ NaN a ∧ ¬ NaN b ∧ key a < key b)) → Op F a b 1#3 0x50#7 x v
  | le (x : BitVec 5) (v) : (v = 1#32 ∧ ¬ NaN a ∧ ¬ NaN b ∧ key a ≤ key b) ∨
      (v = 0#32 ∧ ¬ (¬ NaN a ∧ ¬ NaN b ∧ key a ≤ key b)) → Op F a b 0#3 0x50#7 x v
  | min (x : BitVec 5) (v) : Smaller a b v → Op F a b 0#3 0x14#7 x v
  | max (x : BitVec 5) (v) : Larger a b v → Op F a b 1#3 0x14#7 x v
  | cls (v) : (∀ i < 32, v.getLsbD i = true ↔ Class i a) → Op F a b 1#3 0x70#7 0#5 v

end Verif.Fp.Spec

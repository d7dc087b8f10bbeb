import Verif.Model.XPrintf
/-
What `xprintf` should print, as the C standard says for `printf` (with `%b` for binary): a format is a list of pieces.  Numbers are written with
`Nat.toDigits` of Lean's library.
-/
namespace Verif.XPrintfSpec
open Verif.XPrintf (Arg)

inductive Flag
  | plain
  | zero
  | left
deriving DecidableEq

/-- The size prefix: none, `l` or `L`. -/
inductive Size
  | int
  | long
  | Long
deriving DecidableEq

inductive Piece
  /-- A character that stands for itself. -/
  | lit (c : Char)
  /-- `%%`. -/
  | percent
  /-- A number with flag, width, size and type. -/
  | num (f : Flag) (w : Nat) (size : Size) (type : Char) (v : BitVec 32)
  /-- `%s`. -/
  | str (f : Flag) (w : Nat) (s : List Char)
  /-- `%c`. -/
  | chr (v : BitVec 32)

def flagText : Flag → List Char
  | .plain => []
  | .zero => ['0']
  | .left => ['-']

def sizeText : Size → List Char
  | .int => []
  | .long => ['l']
  | .Long => ['L']

def widthText (w : Nat) : List Char := if w = 0 then [] else Nat.toDigits 10 w

/-- How a piece is written in a format. -/
def written : Piece → List Char
  | .lit c => [c]
  | .percent => ['%', '%']
  | .num f w l t _ => '%' :: (flagText f ++ widthText w ++ sizeText l ++ [t])
  | .str f w _ => '%' :: (flagText f ++ widthText w ++ ['s'])
  | .chr _ => ['%', 'c']

/-- Its argument. -/
def argOf : Piece → List Arg
  | .num _ _ _ _ v => [.num v]
  | .str _ _ s => [.str s]
  | .chr v => [.num v]
  | _ => []

/-- The digits of a number of a type. -/
def digitsOf (t : Char) (v : BitVec 32) : List Char :=
  if t = 'd' then Nat.toDigits 10 v.toInt.natAbs
  else if t = 'u' then Nat.toDigits 10 v.toNat
  else if t = 'o' then Nat.toDigits 8 v.toNat
  else if t = 'b' then Nat.toDigits 2 v.toNat
  else if t = 'x' then Nat.toDigits 16 v.toNat
  else (Nat.toDigits 16 v.toNat).map Char.toUpper

def signOf (t : Char) (v : BitVec 32) : List Char := if t = 'd' ∧ v.toInt < 0 then ['-'] else []

/-- A field: the sign and the text, filled up to the width - with zeros between the two, or with blanks on one side. -/
def field (f : Flag) (w : Nat) (sign text : List Char) : List Char :=
  match f with
  | .plain => List.replicate (w - (sign ++ text).length) ' ' ++ sign ++ text
  | .left => sign ++ text ++ List.replicate (w - (sign ++ text).length) ' '
  | .zero => sign ++ List.replicate (w - (sign ++ text).length) '0' ++ text

/-- What a piece prints. -/
def printed : Piece → List Char
  | .lit c => [c]
  | .percent => ['%']
  | .num f w _ t v => field f w (signOf t v) (digitsOf t v)
  | .str f w s => field (if f = .zero then .plain else f) w [] s
  | .chr v => [Char.ofNat (v.toNat % 256)]

/-- The pieces a format can be made of: a width is an `int`, and a string with its zero byte fits in memory. -/
def Ok : Piece → Prop
  | .lit c => c ≠ '%' ∧ c ≠ '\x00'
  | .percent => True
  | .num _ w _ t _ => w < 2 ^ 31 ∧ (t = 'd' ∨ t = 'u' ∨ t = 'o' ∨ t = 'b' ∨ t = 'x' ∨ t = 'X')
  | .str _ w s => w < 2 ^ 31 ∧ s.length + 1 < 2 ^ 32
  | .chr _ => True

/-- The pieces that `xprintf` gets right: not a negative number filled up with zeros, and not a binary number of more than sixteen digits. -/
def Supported : Piece → Prop
  | .num f _ _ t v => ¬ (f = .zero ∧ t = 'd' ∧ v.toInt < 0) ∧ ¬ (t = 'b' ∧ 2 ^ 16 ≤ v.toNat)
  | _ => True

/-- What `xprintf` prints for a piece, right or wrong: at most the last sixteen digits of a number, and zeros for filling before the sign. -/
def lastSixteen (l : List Char) : List Char := l.drop (l.length - 16)

def actual : Piece → List Char
  | .num .zero w _ t v =>
    List.replicate (w - (signOf t v ++ lastSixteen (digitsOf t v)).length) '0' ++ signOf t v ++ lastSixteen (digitsOf t v)
  | .num f w _ t v => field f w (signOf t v) (lastSixteen (digitsOf t v))
  | p => printed p

end Verif.XPrintfSpec

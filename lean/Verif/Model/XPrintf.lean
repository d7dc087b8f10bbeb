/-
`xprintf`, the console output of the bare-metal programs (baremetal/lib/xprintf.c, baremetal/include/xprintf.h), on RV32: `int` and `long` have 32 bits.

Simplifications: the output is the list of characters given to `xfunc_out` (`_CR_CRLF` is 0 and `outptr` is never set); a format is a list of characters
without the final zero byte; the padding loops `while (j++ < w)` are given by the number of their rounds.  An argument that is missing or of another type
is undefined and gives `none`.
-/
namespace Verif.XPrintf

inductive Arg
  | num (v : BitVec 32)
  | str (s : List Char)

/-- `*fmt++`, a zero byte at the end. -/
def next : List Char → Char × List Char
  | [] => ('\x00', [])
  | c :: t => (c, t)

def isDigit (c : Char) : Bool := decide (48 ≤ c.toNat ∧ c.toNat ≤ 57)

/-- The loop that reads the width, xprintf.c:95-96; `unsigned int` wraps. -/
def width (w : Nat) (c : Char) : List Char → Nat × Char × List Char
  | [] => if isDigit c then ((w * 10 + (c.toNat - 48)) % 2 ^ 32, '\x00', []) else (w, c, [])
  | d :: t => if isDigit c then width ((w * 10 + (c.toNat - 48)) % 2 ^ 32) d t else (w, c, d :: t)

/-- The character of a digit, xprintf.c:134-136. -/
def digit (c : Char) (d : Nat) : Char := Char.ofNat ((if 9 < d then (if c = 'x' then d + 0x27 else d + 0x07) else d) + 48)

/-- The loop that writes the digits into `s`, lowest first, at most `sizeof(s)` of them, xprintf.c:132-137. -/
def digits (c : Char) (r : Nat) : Nat → Nat → List Char
  | 0, _ => []
  | n + 1, v => digit c (v % r) :: (if v / r ≠ 0 then digits c r n (v / r) else [])

/-- The padding before and after `len` characters, xprintf.c:106-109 and 139-142: `j`, an `unsigned int` that
wraps, ends one past `w` or `len` after the first loop unless it is left justified. -/
def before (left : Bool) (pad : Char) (w len : Nat) : List Char := if left then [] else List.replicate (w - len) pad
def after (left : Bool) (w len : Nat) : List Char := if left then List.replicate (w - len) ' ' else List.replicate (w - (max len w + 1) % 2 ^ 32) ' '

/-- What is stored in `s`: the digits and the sign, xprintf.c:127-138. -/
def buffer (c d : Char) (r : Nat) (v : BitVec 32) : List Char :=
  let neg := decide (d = 'D') && v.msb
  let v := if neg then 0#32 - v else v
  let s := digits c r 16 v.toNat
  if neg then s ++ ['-'] else s

/-- A number: `s` backwards, with the padding, xprintf.c:127-142. -/
def number (zero left : Bool) (w : Nat) (c d : Char) (r : Nat) (v : BitVec 32) : List Char :=
  let s := buffer c d r v
  before left (if zero then '0' else ' ') w s.length ++ s.reverse ++ after left w s.length

/-- `d`: the type in upper case, xprintf.c:101-102. -/
def upper (c : Char) : Char := if 97 ≤ c.toNat then Char.ofNat (c.toNat - 32) else c

/-- The base, xprintf.c:113-121. -/
def base (d : Char) : Option Nat :=
  if d = 'B' then some 2 else if d = 'O' then some 8 else if d = 'D' then some 10 else if d = 'U' then some 10 else if d = 'X' then some 16 else none

/-- One conversion, from its type character on, xprintf.c:101-142: the output and the arguments that are left. -/
def convert (zero left : Bool) (w : Nat) (c : Char) (args : List Arg) : Option (List Char × List Arg) :=
  if upper c = 'S' then
    match args with
    | .str s :: args => some (before left ' ' w s.length ++ s ++ after left w s.length, args)
    | _ => none
  else if upper c = 'C' then
    match args with
    | .num v :: args => some ([Char.ofNat (v.toNat % 256)], args)
    | _ => none
  else match base (upper c) with
    | none => some ([c], args)
    | some r =>
      match args with
      | .num v :: args => some (number zero left w c (upper c) r v, args)
      | _ => none

/-- The flag, xprintf.c:87-94: `zero`, `left`, and the next character. -/
def flag (c : Char) (t : List Char) : Bool × Bool × Char × List Char :=
  if c = '0' then (true, false, next t) else if c = '-' then (false, true, next t) else (false, false, c, t)

/-- The size prefix, xprintf.c:97-99; it makes no difference on RV32. -/
def size (c : Char) (t : List Char) : Char × List Char := if c = 'l' ∨ c = 'L' then next t else (c, t)

/-- `xvprintf`, xprintf.c:80-143; every round takes a character of the format, so its length bounds the rounds. -/
def go : Nat → List Char → List Arg → Option (List Char)
  | 0, _, _ => none
  | _ + 1, [], _ => some []
  | n + 1, c :: t, args =>
    if c ≠ '%' then (go n t args).map (c :: ·)
    else
      let f := flag (next t).1 (next t).2
      let w := width 0 f.2.2.1 f.2.2.2
      let z := size w.2.1 w.2.2
      if z.1 = '\x00' then some []
      else
        match convert f.1 f.2.1 w.1 z.1 args with
        | none => none
        | some (out, args) => (go n z.2 args).map (out ++ ·)

def xprintf (fmt : List Char) (args : List Arg) : Option (List Char) := go (fmt.length + 1) fmt args

end Verif.XPrintf

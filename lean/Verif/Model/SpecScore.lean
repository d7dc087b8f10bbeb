/-
The SPEC estimate of script/cal_spec.py: from the logs of the simpoints of a benchmark and their weights, the weighted CPI, the warning about missing
weight and the SPEC ratio.

Simplifications: floating-point numbers are rationals; a log is given by what the script reads from it (the simpoint number in its file name, whether it
has the success marker, its last instruction and cycle counters); the reading itself, the cache, branch and top-down figures are left out.
-/
namespace Verif.SpecScore

structure Log where
  /-- The number after `ckpt_sp` in the file name, cal_spec.py:53 and 1110. -/
  sp : Option Nat
  /-- `check_log_success`, cal_spec.py:1060-1066. -/
  success : Bool
  /-- Instructions and cycles, if both counters are there, cal_spec.py:980-988. -/
  counters : Option (Nat × Nat)

/-- `load_weights`, cal_spec.py:954-963: weight and number on each line; a later line replaces an earlier one with the same number. -/
def weightOf (lines : List (Rat × Nat)) (i : Nat) : Option Rat := (lines.reverse.find? (fun p => p.2 == i)).map Prod.fst

/-- `parse_log_robust`, cal_spec.py:980-992 and 1036: no result without counters or with zero instructions. -/
def cpiOf (l : Log) : Option Rat :=
  match l.counters with
  | none => none
  | some (inst, cyc) => if inst = 0 then none else some ((cyc : Rat) / (inst : Rat))

/-- What a log adds to the sums, if it passes both phases, cal_spec.py:1108-1128 and 1162-1187: weight and CPI. -/
def sample (lines : List (Rat × Nat)) (l : Log) : Option (Rat × Rat) :=
  match l.sp with
  | none => none
  | some i =>
    match weightOf lines i with
    | none => none
    | some w => if l.success then (cpiOf l).map (fun c => (w, c)) else none

/-- The sums, cal_spec.py:1189-1190. -/
def add (s : Rat × Rat) (x : Rat × Rat) : Rat × Rat := (s.1 + x.2 * x.1, s.2 + x.1)

/-- The loop over the logs, cal_spec.py:1144-1190: `w_cpi_sum` and `w_weight_sum`. -/
def sums (lines : List (Rat × Nat)) (logs : List Log) : Rat × Rat := (logs.filterMap (sample lines)).foldl add (0, 0)

/-- `final_cpi`, cal_spec.py:1226; nothing is reported without a valid log, 1217-1224. -/
def cpi (lines : List (Rat × Nat)) (logs : List Log) : Option Rat :=
  if logs.filterMap (sample lines) = [] then none
  else some (if 0 < (sums lines logs).2 then (sums lines logs).1 / (sums lines logs).2 else 0)

/-- The warning that weight is missing, cal_spec.py:1259-1261. -/
def warns (lines : List (Rat × Nat)) (logs : List Log) : Bool := decide ((sums lines logs).2 < 9999 / 10000)

/-- The SPEC ratio for a number of instructions, a frequency in GHz and a reference time, cal_spec.py:1345-1350. -/
def ratio (insts : Nat) (ghz ref c : Rat) : Rat :=
  let time := (insts : Rat) * c / (ghz * 1000000000)
  if 0 < time ∧ 0 < ref then ref / time else 0

end Verif.SpecScore

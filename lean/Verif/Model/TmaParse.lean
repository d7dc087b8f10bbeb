/-
How script/cal_spec.py reads the top-down analysis that the simulator prints (back-end/include/PerfCount.h:1293-1402).

Simplifications: a log is the list of the lines of the form `label : number`, with the leading ` - ` part of the label and the number as printed; a number
is a rational.  The regular expression `label\s*:\s*number` is not anchored, so it matches a line when the label is the end of the text before the colon.
-/
namespace Verif.TmaParse

/-- The numbers of the first section, in the order printed. -/
structure Main where
  total : Rat
  frontend : Rat
  recovery : Rat
  recMispred : Rat
  recFlush : Rat
  pure : Rat
  latency : Rat
  bandwidth : Rat
  backend : Rat
  memory : Rat
  ldqFull : Rat
  stqFull : Rat
  l1 : Rat
  ext : Rat
  core : Rat
  iq : Rat
  rob : Rat
  bad : Rat
  retiring : Rat

/-- The numbers of the second section. -/
structure Idu where
  total : Rat
  frontend : Rat
  backend : Rat
  bad : Rat
  retiring : Rat

abbrev Line := List Char × Rat

/-- The lines of the first section, PerfCount.h:1317-1356. -/
def mainLines (m : Main) : List Line :=
  [("Total Slots".toList, m.total), ("Frontend Bound".toList, m.frontend), ("  - Recovery Total".toList, m.recovery),
   ("  - Recovery Mispred".toList, m.recMispred), ("  - Recovery Flush".toList, m.recFlush), ("  - Front Pure".toList, m.pure),
   ("  - Fetch Latency".toList, m.latency), ("  - Fetch Bandwidth".toList, m.bandwidth), ("Backend Bound".toList, m.backend),
   ("  - Memory Bound".toList, m.memory), ("    - LDQ Full".toList, m.ldqFull), ("    - STQ Full".toList, m.stqFull),
   ("    - L1 Bound".toList, m.l1), ("    - Ext Memory Bound".toList, m.ext), ("  - Core Bound".toList, m.core), ("    - IQ Bound".toList, m.iq),
   ("    - ROB Bound".toList, m.rob), ("Bad Speculation".toList, m.bad), ("Retiring".toList, m.retiring)]

/-- The lines of the second section, PerfCount.h:1393-1401. -/
def iduLines (d : Idu) : List Line :=
  [("IDU Total Slots".toList, d.total), ("IDU Frontend Bound".toList, d.frontend), ("IDU Backend Bound".toList, d.backend),
   ("IDU Bad Speculation".toList, d.bad), ("IDU Retiring".toList, d.retiring)]

/-- `_extract_last_int` and `_extract_last_pct`, cal_spec.py:192-199: the last match. -/
def extract (label : List Char) (log : List Line) : Option Rat := (log.reverse.find? fun l => label.isSuffixOf l.1).map Prod.snd

/-- What `parse_tma` returns. -/
structure Tma where
  total : Rat
  frontend : Rat
  latency : Rat
  bandwidth : Rat
  backend : Rat
  memory : Rat
  l1 : Rat
  ext : Rat
  core : Rat
  bad : Rat
  squash : Rat
  retiring : Rat

/-- `parse_tma`, cal_spec.py:728-745, with the labels of 60-73: nothing without one of the required figures, 0 for another one that is missing. -/
def parse (log : List Line) : Option Tma :=
  match extract "Total Slots".toList log, extract "Frontend Bound".toList log, extract "Backend Bound".toList log,
    extract "Bad Speculation".toList log, extract "Retiring".toList log with
  | some t, some f, some b, some s, some r =>
    some { total := t, frontend := f, backend := b, bad := s, retiring := r
           latency := (extract "Fetch Latency".toList log).getD 0
           bandwidth := (extract "Fetch Bandwidth".toList log).getD 0
           memory := (extract "Memory Bound".toList log).getD 0
           l1 := (extract "L1 Bound".toList log).getD 0
           ext := (extract "Ext Memory Bound".toList log).getD 0
           core := (extract "Core Bound".toList log).getD 0
           squash := (extract "Squash Waste".toList log).getD 0 }
  | _, _, _, _, _ => none

end Verif.TmaParse

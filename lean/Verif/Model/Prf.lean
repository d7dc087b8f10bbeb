/-
The physical register file: operand read with bypass, write-back stage, load wake-up
(back-end/Prf.cpp:8-42, 110-141, 147-226), and the way results reach it: the write-back
half of the execution unit's collect stage (back-end/Exu/Exu.cpp:412-427, 451-526, 530-556)
and the write-back requests of the load/store unit (back-end/Lsu/RealLsu.cpp:915-945, 996-1016).

Simplifications: the register file is a total function (register numbers are `PRF_IDX_WIDTH` bit
wires holding values below `PRF_NUM`, C12); an operation is the record `Exu.Op`, of which
`ExePrfWbUop` is a projection; program-counter fields (`comb_req_ftq`, Prf.cpp:119-132) are
the subject of C21 and left out.
-/
import Verif.Model.Exu
namespace Verif.Prf
open Verif.Exu

/-- `reg_file`, `inst_r` (one slot per issue port), Prf.h. -/
structure State (n : Nat) where
  file : Nat → BitVec 32
  stage : List (Option (Op n))

/-- `Prf::init`, Prf.cpp:62-71. -/
def init (n width : Nat) : State n := ⟨fun _ => 0#32, List.replicate width none⟩

/-- `valid && dest_en && dest_preg == preg`: the value a slot supplies, Prf.cpp:25-26, 32-35. -/
def hit {n : Nat} (p : Nat) : Option (Op n) → Option (BitVec 32)
  | some o => if o.destEn && o.dest == p then some o.result else none
  | none => none

/-- Write-back bypass: the loop keeps the last match, Prf.cpp:24-28. -/
def stageRead {n : Nat} (p : Nat) (d : BitVec 32) (stage : List (Option (Op n))) : BitVec 32 :=
  stage.foldl (fun d e => (hit p e).getD d) d

/-- Execution bypass: the loop stops at the first match, Prf.cpp:31-39. -/
def bypRead {n : Nat} (p : Nat) (d : BitVec 32) (byp : List (Option (Op n))) : BitVec 32 :=
  (byp.findSome? (hit p)).getD d

/-- `read_operand_with_bypass`, Prf.cpp:14-42. -/
def readOperand {n : Nat} (p : Nat) (en : Bool) (s : State n) (byp : List (Option (Op n))) :
    BitVec 32 :=
  if !en then 0#32 else bypRead p (stageRead p (s.file p) s.stage) byp

/-- `comb_awake`, Prf.cpp:147-168: the registers announced as loaded.  `isLoad` is
`is_load_wb`, `width` is `LSU_LOAD_WB_WIDTH`. -/
def awake {n : Nat} (isLoad : Nat → Bool) (width : Nat) (c : Ctl n) (s : State n) : List Nat :=
  (s.stage.filterMap (fun e => e.bind (fun o =>
    if o.destEn && isLoad o.op && !brKilled c o then some o.dest else none))).take width

/-- One turn of the loop of `comb_write`, Prf.cpp:184-188. -/
def writeOne {n : Nat} (f : Nat → BitVec 32) (e : Option (Op n)) : Nat → BitVec 32 :=
  match e with
  | some o =>
    if o.destEn && o.dest != 0 then (fun q => if q = o.dest then o.result else f q) else f
  | none => f

/-- `comb_write` and `seq`, Prf.cpp:182-190, 217-221. -/
def write {n : Nat} (s : State n) : Nat → BitVec 32 :=
  fun q => if q = 0 then 0#32 else s.stage.foldl writeOne s.file q

/-- `comb_pipeline`, Prf.cpp:196-214. -/
def pipeline {n : Nat} (c : Ctl n) (entry : List (Option (Op n))) : List (Option (Op n)) :=
  entry.map (fun e => if c.flush then none else (e.filter (fun o => !brKilled c o)).map (scrub c))

/-- One cycle, given `exe2prf->entry[]`. -/
def step {n : Nat} (c : Ctl n) (entry : List (Option (Op n))) (s : State n) : State n :=
  ⟨write s, pipeline c entry⟩

/-- The write-back request for a finished load, RealLsu.cpp:996-1016: `dest_en` is always set and
the register is the one in the load queue entry, i.e. the one rename chose (RealLsu.cpp:1428).
`id`, `robIdx`, `robFlag`, `brMask`: copied from the entry. -/
def loadWb {n : Nat} (opLoad : Nat) (ldq : Op n) (value : BitVec 32) : Op n :=
  { ldq with op := opLoad, destEn := true, result := value }

/-- What a port hands to the register file, Exu.cpp:453-455, 489-494, 519-527 (for the ports with an
arithmetic unit): the completion taken from it, if it has a destination; a CSR instruction
gets the value read from the CSR (`csr`) if there is one. -/
def aluEntry {n : Nat} (opCsr : Nat) (csr : Option (BitVec 32)) (w : Option (Op n)) : Option (Op n) :=
  (w.map (fun u => if u.op = opCsr then { u with result := csr.getD u.result } else u)).filter (·.destEn)

end Verif.Prf

import Verif.Model.RefMem

/-
Address translation of the reference model (diff/ref.cpp).

Simplifications: `csr[csr_mstatus]`, `csr[csr_satp]` and `privilege` are arguments; the access type
(0 fetch, 1 load, 2 store) is a 32-bit number as in the code.  `va2pa_fix` (ref.cpp:1844-1880) adds the
comparison with the fault flags reported by the core; it is modelled with those flags as arguments.
-/
namespace Verif.RefMmu
open Verif.RefMem

/-- The inputs of a translation besides memory. -/
structure Ctx where
  mstatus : BitVec 32
  satp : BitVec 32
  priv : Nat

/-- `(mstatus >> MSTATUS_MPP_SHIFT) & 0x3`. -/
def mpp (mstatus : BitVec 32) : Nat := ((mstatus >>> 11) &&& 3#32).toNat

/-- `effective_data_privilege`, ref.cpp:19-25. -/
def effDataPriv (c : Ctx) : Nat :=
  if c.mstatus.getLsbD 17 = false then c.priv else mpp c.mstatus

/-- `data_translation_enabled`, ref.cpp:27-31. -/
def dataTranslation (c : Ctx) : Bool :=
  decide (c.satp &&& 0x80000000#32 ≠ 0#32) && decide (effDataPriv c ≠ 3)

/-- The condition of `exec`, ref.cpp:275. -/
def fetchTranslation (c : Ctx) : Bool :=
  decide (c.satp &&& 0x80000000#32 ≠ 0#32) && decide (c.priv ≠ 3)

/-- Permission checks of a leaf, ref.cpp:1752-1759 and 1806-1811. -/
def permOk (pte : BitVec 32) (mxr : Bool) (type : Nat) : Bool :=
  !(type == 0 && !pte.getLsbD 3) &&
  !(type == 1 && !pte.getLsbD 1 && !(mxr && pte.getLsbD 3)) &&
  !(type == 2 && !pte.getLsbD 2)

/-- Accessed/dirty checks, ref.cpp:1775-1778 and 1826-1829. -/
def adOk (pte : BitVec 32) (type : Nat) : Bool :=
  pte.getLsbD 6 && !(type == 2 && !pte.getLsbD 7)

/-- `RefCpu::va2pa`, ref.cpp:1712-1842; `none`: page fault. -/
def va2pa (mem : BitVec 32 → BitVec 32) (c : Ctx) (v : BitVec 32) (type : Nat) : Option (BitVec 32) :=
  let mxr := c.mstatus.getLsbD 19
  let sum := c.mstatus.getLsbD 18
  let mprv := c.mstatus.getLsbD 17
  let eff := if type ≠ 0 ∧ mprv = true then mpp c.mstatus else c.priv
  let ppnRoot := c.satp &&& 0x3FFFFF#32
  let vpn1 := (v >>> 22) &&& 0x3FF#32
  let pte1 := mem ((ppnRoot <<< 12) ||| (vpn1 <<< 2))
  if !pte1.getLsbD 0 || (!pte1.getLsbD 1 && pte1.getLsbD 2) then none
  else if pte1.getLsbD 1 || pte1.getLsbD 3 then
    if !permOk pte1 mxr type then none
    else if eff = 0 ∧ pte1.getLsbD 4 = false then none
    else if eff = 1 ∧ pte1.getLsbD 4 = true ∧ sum = false then none
    else if (pte1 >>> 10) &&& 0x3FF#32 ≠ 0#32 then none
    else if !adOk pte1 type then none
    else some (((pte1 <<< 2) &&& 0xFFC00000#32) ||| (v &&& 0x3FFFFF#32))
  else
    let ppn1 := (pte1 >>> 10) &&& 0x3FFFFF#32
    let vpn0 := (v >>> 12) &&& 0x3FF#32
    let pte2 := mem ((ppn1 <<< 12) ||| (vpn0 <<< 2))
    if !pte2.getLsbD 0 || (!pte2.getLsbD 1 && pte2.getLsbD 2) then none
    else if pte2.getLsbD 1 || pte2.getLsbD 3 then
      if !permOk pte2 mxr type then none
      else if eff = 0 ∧ pte2.getLsbD 4 = false then none
      else if eff = 1 ∧ pte2.getLsbD 4 = true ∧ (type = 0 ∨ sum = false) then none
      else if !adOk pte2 type then none
      else some (((pte2 >>> 10) <<< 12) ||| (v &&& 0xFFF#32))
    else none

/-- Outcome of `va2pa_fix`. -/
inductive Fix
  | ok (p : BitVec 32)
  | fault
  | abort
  deriving DecidableEq, Repr

/-- `RefCpu::va2pa_fix`, ref.cpp:1844-1880.  `check`: `dut_pf_check_enable && !ref_only`; `dutFault`: the
core's fault flag for this access type.  `abort`: the assertion. -/
def va2paFix (mem : BitVec 32 → BitVec 32) (c : Ctx) (v : BitVec 32) (type : Nat) (check dutFault : Bool) : Fix :=
  let r := va2pa mem c v type
  let plain := match r with
    | some p => Fix.ok p
    | none => Fix.fault
  if !check then plain
  else if dutFault && r.isSome then .fault
  else if !dutFault && r.isNone then .abort
  else plain

/-- Translation of an access: `exec` (ref.cpp:273-286) for fetches, the load/store/atomic paths
(ref.cpp:993, 1198, 1260) for data. -/
def translate (s : State) (c : Ctx) (v : BitVec 32) (type : Nat) : Option (BitVec 32) :=
  if (if type = 0 then fetchTranslation c else dataTranslation c) then va2pa (loadWord s) c v type else some v

end Verif.RefMmu

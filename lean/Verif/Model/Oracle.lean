import Verif.Model.HandOff
import Verif.Model.Difftest
import Verif.Model.RefCpu
/-
The oracle that takes the place of the front end when the simulator is built without the branch predictor (`CONFIG_BPU` off):
diff/br_oracle.cpp, called by `front_top::step_oracle` through `front_cycle` (rv_simu_mmu_v2.cpp:1205-1213).  It runs a reference
machine ahead of the core and hands over the instructions the machine executes.

The reference that is linked (`refcpu_*`, GenSimpoint/librefcpu.a) is not in the repository, so the machine is a parameter,
`Machine`; `refMachine` is the one made of diff/ref.cpp.  `none`: the machine aborts (an `Assert`, an `exit`, undefined behaviour).

Left out: `inst_idx`, `commit_pc` (messages only), `is_br` of slots that are not valid, the queue of timer values (`push_oracle_timer`,
`get_oracle_timer`: not called by anything in the repository), `commit_stall` (always off, br_oracle.cpp:196).
-/
namespace Verif.Oracle
open Verif.Csr Verif.HandOff
open Verif.Front (W32 Out)

/-- `RefCpuStepInfo`, as far as br_oracle.cpp uses it: what the last step executed. -/
structure Info where
  inst : W32
  pf : Bool
  exc : Bool
  csr : Bool
  io : Bool
  br : Bool
  taken : Bool
  simEnd : Bool
deriving DecidableEq

/-- The linked reference.  `get`, `set`: `refcpu_get_state`, `refcpu_set_state`, a `CPU_state` and the privilege level;
`info`: `refcpu_get_step_info`; `step`: `refcpu_set_sim_time` followed by `refcpu_step(ctx, 1)`; `resume`: `refcpu_set_sim_end(ctx, false)`. -/
structure Machine where
  S : Type
  get : S → Difftest.Cpu × Nat
  set : Difftest.Cpu × Nat → S → S
  info : S → Info
  step : Nat → S → Option S
  resume : S → S

def Machine.pc (M : Machine) (m : M.S) : W32 := (M.get m).1.pc

/-- `CsrStatusIO`, back-end/include/IO.h:1054-1067. -/
structure Status where
  mstatus : W32
  sstatus : W32
  satp : W32
  priv : Nat

/-- What a call reads: `refetch` and `refetch_address`, `csr_status` (`none`: a null pointer), `dut_cpu`, `sim_time`. -/
structure In where
  refetch : Bool
  addr : W32
  status : Option Status
  dut : Difftest.Cpu
  now : Nat

/-- The three registers of `csr_status` written into a state, br_oracle.cpp:87-92, 113-117. -/
def Status.put (c : Status) (f : File) : File :=
  Csr.set (Csr.set (Csr.set f .mstatus c.mstatus) .sstatus c.sstatus) .satp c.satp

/-- `sync_oracle_control_state`, br_oracle.cpp:84-95. -/
def syncControl (M : Machine) (i : In) (m : M.S) : M.S :=
  let (a, p) := M.get m
  M.set (match i.status with
    | none => ({ a with pc := i.addr }, p)
    | some c => ({ a with pc := i.addr, csr := c.put a.csr }, c.priv)) m

/-- `oracle_gpr_matches_dut`, br_oracle.cpp:97-105; `ARF_NUM` is 32. -/
def gprMatch (M : Machine) (i : In) (m : M.S) : Bool :=
  (List.range 32).all fun r => (M.get m).1.gpr r == i.dut.gpr r

/-- `sync_oracle_arch_state_from_dut`, br_oracle.cpp:107-120; M-mode is 3. -/
def syncArch (M : Machine) (i : In) (m : M.S) : M.S :=
  M.set (match i.status with
    | none => ({ i.dut with pc := i.addr }, 3)
    | some c => ({ i.dut with pc := i.addr, csr := c.put i.dut.csr }, c.priv)) m

/-- What a redirect does to the machine, br_oracle.cpp:198-214. -/
def restart (M : Machine) (i : In) (m : M.S) : M.S :=
  let m := syncControl M i (M.resume m)
  if gprMatch M i m then m else syncArch M i m

/-- The oracle: its machine and the static `stall` of `get_oracle`. -/
structure St (M : Machine) where
  m : M.S
  stall : Bool := false

/-- One slot of a group. -/
structure Slot where
  pc : W32
  inst : W32
  pf : Bool
  dir : Bool
deriving DecidableEq

/-- `(state.pc ^ out.pc[i]) & ~(ICACHE_LINE_SIZE - 1)`, br_oracle.cpp:274-275. -/
def otherLine (a b : W32) : Bool := ((a ^^^ b) &&& ~~~63#32) != 0#32

/-- `info.is_exception || info.is_csr`: the oracle waits for a redirect, br_oracle.cpp:238-240. -/
def Info.halts (f : Info) : Bool := f.exc || f.csr

/-- The loop of `get_oracle`, br_oracle.cpp:226-278, with `n` slots left: the slots, the machine, `stall`.  `steady`:
`CONFIG_ORACLE_STEADY_FETCH_WIDTH`.  The tests of `stall` in 257-266 are left out: the loop has been left where it is set. -/
def fill (M : Machine) (steady : Bool) (now : Nat) : Nat → M.S → Option (List Slot × M.S × Bool)
  | 0, m => some ([], m, false)
  | n + 1, m => do
    let m' ← M.step now m
    let f := M.info m'
    if f.halts || f.io then
      return ([⟨M.pc m, f.inst, f.pf, false⟩], m', f.halts)
    else
      let s : Slot := ⟨M.pc m, f.inst, false, f.br && f.taken⟩
      if !steady && ((f.br && f.taken) || otherLine (M.pc m') (M.pc m)) then return ([s], m', false)
      else
        let (l, m'', b) ← fill M steady now n m'
        return (s :: l, m'', b)

/-- `front_top_out` with a group in it; slots behind the group are not valid, br_oracle.cpp:280-282. -/
def toOut (W : Nat) (l : List Slot) (next : W32) : Out W Nat where
  insts j := (l[j.val]?.map (·.inst)).getD 0#32
  pc j := (l[j.val]?.map (·.pc)).getD 0#32
  pf j := (l[j.val]?.map (·.pf)).getD false
  valid j := decide (j.val < l.length)
  dir j := (l[j.val]?.map (·.dir)).getD false
  next := next
  info := 0

/-- `get_oracle`, br_oracle.cpp:184-283. -/
def call (M : Machine) (W : Nat) (steady : Bool) (i : In) (s : St M) : Option (St M × Option (Out W Nat)) :=
  let m := if i.refetch then restart M i s.m else s.m
  let stall := if i.refetch then false else s.stall || (M.info m).simEnd
  if stall then some (⟨m, true⟩, none)
  else (fill M steady i.now W m).map fun (l, m', b) => (⟨m', b⟩, some (toOut W l (M.pc m')))

/-! ### The machine made of diff/ref.cpp -/

/-- Whether `exception` is called by the part of `RISCV` behind the interrupt check, ref.cpp:604-628, and in a load, a store or an
atomic, 1056-1075, 1202-1205, 1262-1265: a page fault, or a read of the time. -/
def dataFault (e : RefCpu.Env) (s : RefCpu.State) (v : W32) (type : Nat) : Bool :=
  RefMmu.dataTranslation s.ctx && (match s.fix e v type with | .fault => true | _ => false)

def opTraps (e : RefCpu.Env) (s : RefCpu.State) : Bool :=
  let op : BitVec 7 := s.inst.extractLsb' 0 7
  let a := s.gpr (s.inst.extractLsb' 15 5).toNat
  if op = 0x73#7 then (let num := (s.inst.extractLsb' 20 12).toNat; decide (num = 0xc01 ∨ num = 0xc81))
  else if op = 0x2f#7 then
    let f5 : BitVec 5 := s.inst.extractLsb' 27 5
    if f5 = 2#5 then dataFault e s a 1
    else if f5 = 3#5 then dataFault e s a 2
    else dataFault e s a 1 || dataFault e s a 2
  else if op = 0x53#7 ∨ op = 0x43#7 ∨ op = 0x4b#7 ∨ op = 0x4f#7 ∨ op = 0x47#7 then false
  else if op = 0x03#7 then dataFault e s (a + (Decode.immI s.inst).setWidth 32) 1
  else if op = 0x23#7 then dataFault e s (a + (Decode.immS s.inst).setWidth 32) 2
  else false

/-- `is_modeled_mmio_addr` and the timer, ref.cpp:62-74, 1211, 1273; include/config.h:630-650. -/
def device (p : W32) : Bool :=
  let r (b n : Nat) : Bool := decide (b ≤ p.toNat ∧ p.toNat < b + n)
  r 0x10000000 0x100 || r 0x0c000000 0x210000 || r 0x1fd0f000 0x100 || r 0x1fb00000 0x1000 || r 0x1fd0e000 0x100

/-- `is_mmio_load`, `is_mmio_store`. -/
def opIo (e : RefCpu.Env) (s : RefCpu.State) : Bool :=
  let op : BitVec 7 := s.inst.extractLsb' 0 7
  let a := s.gpr (s.inst.extractLsb' 15 5).toNat
  let at_ (v : W32) (type : Nat) : Bool :=
    if RefMmu.dataTranslation s.ctx then (match s.fix e v type with | .ok p => device p | _ => false) else device v
  if op = 0x03#7 then at_ (a + (Decode.immI s.inst).setWidth 32) 1
  else if op = 0x23#7 then at_ (a + (Decode.immS s.inst).setWidth 32) 2
  else false

/-- The flags of `RISCV`, ref.cpp:509-631, 1133-1193; the order of the tests as in `RefCpu.riscv`. -/
def riscvInfo (e : RefCpu.Env) (s0 : RefCpu.State) (simEnd : Bool) : Info :=
  let s1 := RefCpu.syncTimer e s0
  let s := { s1 with irq := RefCpu.evalIrq s1 }
  let op : BitVec 7 := s.inst.extractLsb' 0 7
  let early := s.pfInst || s.illegal || RefCpu.asy s || decide (s.inst = RefCpu.INST_ECALL)
  if s.inst = RefCpu.INST_WFI ∧ RefCpu.asy s = false ∧ s.pfInst = false ∧ s.pfLoad = false ∧ s.pfStore = false then
    ⟨s.inst, false, false, false, false, false, false, simEnd⟩
  else if early then ⟨s.inst, false, true, false, false, false, false, simEnd⟩
  else
    let br := decide (op = 0b1101111#7 ∨ op = 0b1100111#7 ∨ op = 0b1100011#7)
    let taken := decide (op = 0b1101111#7 ∨ op = 0b1100111#7) || (decide (op = 0b1100011#7) &&
      Ref.refTaken (s.inst.extractLsb' 12 3) (s.gpr (s.inst.extractLsb' 15 5).toNat) (s.gpr (s.inst.extractLsb' 20 5).toNat))
    ⟨s.inst, false, opTraps e s, decide (op = 0x73#7 ∧ s.inst ≠ RefCpu.INST_WFI), opIo e s, br, taken, simEnd⟩

/-- The flags after `exec`, ref.cpp:267-298; `s'` is the state after it. -/
def execInfo (e : RefCpu.Env) (s0 s' : RefCpu.State) : Info :=
  let s := RefCpu.clear s0
  let fetched (p : W32) : Info :=
    let s := { s with inst := RefMem.loadWord s.mem p }
    if s.inst = RefCpu.INST_EBREAK then ⟨s.inst, false, false, false, false, false, false, s'.simEnd⟩
    else riscvInfo e s s'.simEnd
  if RefMmu.fetchTranslation s.ctx then
    match s.fix e s.pc 0 with
    | .ok p => fetched p
    | _ => ⟨s.inst, true, true, false, false, false, false, s'.simEnd⟩
  else fetched s.pc

/-- `CPU_state` of the reference, ref.h:68-85. -/
def toCpu (s : RefCpu.State) : Difftest.Cpu where
  gpr := s.gpr
  csr := s.file
  pc := s.pc
  store := s.mem.store
  storeAddr := s.mem.storeAddr
  storeData := s.mem.storeData
  storeStrb := s.mem.storeStrb
  inst := s.inst
  pfInst := s.pfInst
  pfLoad := s.pfLoad
  pfStore := s.pfStore
  resValid := s.mem.resValid
  resAddr := s.mem.resAddr

def ofCpu (c : Difftest.Cpu) (priv : Nat) (s : RefCpu.State) : RefCpu.State :=
  { s with
    gpr := c.gpr
    file := c.csr
    pc := c.pc
    mem := { s.mem with store := c.store, storeAddr := c.storeAddr, storeData := c.storeData, storeStrb := c.storeStrb,
                        resValid := c.resValid, resAddr := c.resAddr }
    inst := c.inst
    pfInst := c.pfInst
    pfLoad := c.pfLoad
    pfStore := c.pfStore
    priv := priv }

/-- diff/ref.cpp as the oracle's machine; the fault flags of the core are not consulted (the oracle never sets them). -/
def refMachine (F : Fp.SoftFloat) : Machine where
  S := RefCpu.State × Info
  get s := (toCpu s.1, s.1.priv)
  set a s := (ofCpu a.1 a.2 s.1, s.2)
  info s := s.2
  step now s :=
    let e : RefCpu.Env := ⟨BitVec.ofNat 64 now, false, false, false, false, false⟩
    (RefCpu.exec F e s.1).map fun s' => (s', execInfo e s.1 s')
  resume s := ({ s.1 with simEnd := false }, { s.2 with simEnd := false })

end Verif.Oracle

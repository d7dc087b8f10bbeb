import Verif.Model.Decode
/-
The dispatch stage: `Dispatch`, back-end/Dispatch.cpp:5-762 (the decomposition of lines 766-992 is
`Decode.decompose`).  Parametric in the group width (`DECODE_WIDTH`, the length of the slot list), in
the number of branch tags `n`, and in the limits of `Cfg`.  Not modelled: performance counters, the
block-reason bookkeeping of `comb_fire`, debug payload.
-/
namespace Verif.Dispatch
open Verif.Decode (DecInst MicroOp Iq decompose)

/-- The constants `comb_alloc` and `comb_dispatch` read. -/
structure Cfg where
  /-- `GLOBAL_IQ_CONFIG[q].dispatch_width`, include/config.h:496-508. -/
  ports : Iq → Nat
  /-- `MAX_LDQ_DISPATCH_WIDTH`, include/config.h:420. -/
  ldPorts : Nat
  /-- `MAX_STQ_DISPATCH_WIDTH`, include/config.h:419. -/
  stPorts : Nat
  /-- `STQ_SIZE`. -/
  stqSize : Nat
  /-- `ROB_BANK_NUM`. -/
  banks : Nat

/-- A renamed instruction (`RenDisIO::RenDisInst`, back-end/include/IO.h): the decoded fields and
the physical registers.  `ftq` stands for the payload that is only copied. -/
structure Inst (n : Nat) where
  dec : DecInst
  destPreg : Nat
  src1Preg : Nat
  src2Preg : Nat
  brMask : BitVec n
  ftq : Nat
  deriving DecidableEq

/-- `is_load`, IO.h:607-610. -/
def isLoad (u : DecInst) : Bool := u.type == .load || (u.type == .amo && !(u.amoOp == 3#7))

/-- `is_store`, IO.h:602-605. -/
def isStore (u : DecInst) : Bool := u.type == .store || (u.type == .amo && !(u.amoOp == 2#7))

/-- An entry of `inst_alloc` together with what `comb_alloc` decided for the slot.  `valid` is
`inst_valid[i]`, `robValid` is `dis2rob->valid[i]`, and `stqPort`/`ldqPort` say for which `k`
`stq_port_owner[k]`/`ldq_port_owner[k]` is this slot. -/
structure Alloc (n : Nat) where
  valid : Bool
  inst : Inst n
  robValid : Bool
  robIdx : Nat
  robFlag : Bool
  stqIdx : Nat
  stqFlag : Bool
  ldqIdx : Nat
  stqPort : Option Nat
  ldqPort : Option Nat
  src1Busy : Bool
  src2Busy : Bool
  deriving DecidableEq

/-- The inputs of one cycle.  `wakes` lists the registers of every valid entry of `prf_awake` and
`iss_awake`. -/
structure Input (n : Nat) where
  stqTail : Nat
  stqTailFlag : Bool
  stqFree : Nat
  ldqFree : Nat
  ldqAllocValid : Nat → Bool
  ldqAllocIdx : Nat → Nat
  ready : Iq → Nat
  robEnq : Nat
  robFlag : Bool
  robReady : Bool
  robEmpty : Bool
  robStall : Bool
  flush : Bool
  mispred : Bool
  clear : BitVec n
  wakes : List Nat
  /-- `ren2dis`, `none` = not valid. -/
  ren : List (Option (Inst n))

/-- `inst_r`/`inst_valid`, `busy_table`, and `dispatch_success_flags`, which persists because
`comb_dispatch` leaves it alone behind a slot that does not fit. -/
structure State (n : Nat) where
  slots : List (Option (Inst n))
  busy : Nat → Bool
  flags : List Bool

/-- `Dispatch::init`, Dispatch.cpp:28-50. -/
def init (n W : Nat) : State n := ⟨List.replicate W none, fun _ => false, List.replicate W false⟩

variable {n : Nat}

/-- The content of an invalid slot; nothing below depends on it. -/
def blank : Inst n := ⟨{}, 0, 0, 0, 0, 0⟩

/-- The load branch of `comb_alloc`, Dispatch.cpp:108-118: room for one more load after `ld`? -/
def ldFits (c : Cfg) (i : Input n) (ld : Nat) : Bool :=
  ld < i.ldqFree && ld < c.ports .ld && ld < c.ldPorts && i.ldqAllocValid ld

/-- The store branch of `comb_alloc`, Dispatch.cpp:124-126. -/
def stFits (c : Cfg) (i : Input n) (st : Nat) : Bool := st < i.stqFree && st < c.stPorts

/-- One valid slot of `comb_alloc`, Dispatch.cpp:91-141: slot `k`, with `st` stores and `ld` loads
allocated so far. -/
def allocSlot (c : Cfg) (i : Input n) (k st ld : Nat) (u : Inst n) : Alloc n :=
  let load := isLoad u.dec
  let store := isStore u.dec
  let pos := i.stqTail + st
  let ldOk := load && ldFits c i ld
  let stOk := store && stFits c i st
  { valid := true
    inst := { u with brMask := u.brMask &&& ~~~i.clear }
    robValid := (!load || ldOk) && (!store || stOk)
    robIdx := (i.robEnq * c.banks) ||| k
    robFlag := i.robFlag
    stqIdx := if load || stOk then pos % c.stqSize else 0
    stqFlag := if load || stOk then Bool.xor i.stqTailFlag (pos / c.stqSize % 2 == 1) else false
    ldqIdx := if ldOk then i.ldqAllocIdx ld else 0
    stqPort := if stOk then some st else none
    ldqPort := if ldOk then some ld else none
    src1Busy := false
    src2Busy := false }

/-- An invalid slot of `comb_alloc`. -/
def emptySlot (c : Cfg) (i : Input n) (k : Nat) : Alloc n :=
  ⟨false, blank, false, (i.robEnq * c.banks) ||| k, i.robFlag, 0, false, 0, none, none, false, false⟩

/-- `comb_alloc`, Dispatch.cpp:73-144. -/
def allocGo (c : Cfg) (i : Input n) : List (Option (Inst n)) → Nat → Nat → Nat → List (Alloc n)
  | [], _, _, _ => []
  | none :: t, k, st, ld => emptySlot c i k :: allocGo c i t (k + 1) st ld
  | some u :: t, k, st, ld => allocSlot c i k st ld u ::
      allocGo c i t (k + 1) (if isStore u.dec && stFits c i st then st + 1 else st)
        (if isLoad u.dec && ldFits c i ld then ld + 1 else ld)

/-- The busy flag of one operand before the same-group check: Dispatch.cpp:162-164 and
`apply_wakeup_to_uop`, 19-26. -/
def busyBit (busy : Nat → Bool) (wakes : List Nat) (en : Bool) (p : Nat) : Bool :=
  (if en then busy p else false) && !(en && wakes.contains p)

/-- Does an earlier slot of the group write `p`?  Dispatch.cpp:166-172. -/
def olderWrites (older : List (Alloc n)) (p : Nat) : Bool :=
  older.any fun a => a.robValid && a.inst.dec.destEn && !(a.inst.dec.destAreg == 0) &&
    a.inst.destPreg == p

/-- One slot of `comb_wake`, Dispatch.cpp:156-180; `older` are the slots before it. -/
def wakeSlot (busy : Nat → Bool) (wakes : List Nat) (older : List (Alloc n)) (a : Alloc n) : Alloc n :=
  let d := a.inst.dec
  if a.robValid then
    { a with
      src1Busy := busyBit busy wakes d.src1En a.inst.src1Preg ||
        (d.src1En && olderWrites older a.inst.src1Preg)
      src2Busy := busyBit busy wakes d.src2En a.inst.src2Preg ||
        (d.src2En && olderWrites older a.inst.src2Preg) } else a

/-- `comb_wake`, Dispatch.cpp:155-182. -/
def wakeGo (busy : Nat → Bool) (wakes : List Nat) (older : List (Alloc n)) :
    List (Alloc n) → List (Alloc n)
  | [] => []
  | a :: t => wakeSlot busy wakes older a :: wakeGo busy wakes (older ++ [wakeSlot busy wakes older a]) t

/-- One micro-operation as sent to an issue queue (`DisIssIO::DisIssUop`); `of` supplies the fields
that `make_dis_iss_uop` copies (Dispatch.cpp:766-795). -/
structure Packet (n : Nat) where
  mop : MicroOp
  src1Preg : Nat
  src1Busy : Bool
  src2Preg : Nat
  src2Busy : Bool
  of : Alloc n
  deriving DecidableEq

/-- `decompose_inst` on an allocated instruction, Dispatch.cpp:797-992. -/
def packets (a : Alloc n) : List (Packet n) :=
  (decompose a.inst.dec).map fun m =>
    { mop := m
      src1Preg := if m.src1FromDest then a.inst.destPreg else a.inst.src1Preg
      src1Busy := m.src1BusyForced.getD a.src1Busy
      src2Preg := a.inst.src2Preg
      src2Busy := a.src2Busy
      of := a }

/-- `rob_cplt_mask_from_iq`, back-end/include/util.h:72-86. -/
def cpltGroup : Iq → BitVec 3
  | .int => 1#3
  | .ld => 1#3
  | .br => 2#3
  | .sta => 2#3
  | .std => 4#3

/-- `expect_mask`, Dispatch.cpp:220-230. -/
def expectMask (d : DecInst) : BitVec 3 :=
  if d.type = .amo ∧ d.amoOp = 3#7 then 1#3 ||| 4#3
  else (decompose d).foldl (fun m u => m ||| cpltGroup u.iq) 0#3

/-- `dis2iss->req[q]` from port 0 upwards: the micro-operations written, each with its valid bit. -/
abbrev Reqs (n : Nat) := Iq → List (Packet n × Bool)

/-- Dispatch.cpp:237-248: every queue the instruction needs has a free port and a free slot. -/
def fits (c : Cfg) (i : Input n) (r : Reqs n) (ps : List (Packet n)) : Bool :=
  ps.all fun p => (r p.mop.iq).length < c.ports p.mop.iq && (r p.mop.iq).length < i.ready p.mop.iq

/-- Dispatch.cpp:255-263. -/
def place (r : Reqs n) (ps : List (Packet n)) : Reqs n :=
  ps.foldl (fun r p => fun q => if q = p.mop.iq then r q ++ [(p, true)] else r q) r

/-- `comb_dispatch`, Dispatch.cpp:191-265: new `dispatch_success_flags` and the requests. -/
def dispatchGo (c : Cfg) (i : Input n) : List (Alloc n) → List Bool → Reqs n → List Bool × Reqs n
  | [], _, r => ([], r)
  | a :: t, old, r =>
    if a.valid then
      if fits c i r (packets a) then
        let x := dispatchGo c i t (old.drop 1) (place r (packets a))
        (true :: x.1, x.2)
      else (false :: old.drop 1, r)
    else
      let x := dispatchGo c i t (old.drop 1) r
      (true :: x.1, x.2)

/-- `is_CSR`, back-end/include/util.h:160-162. -/
def isCsr (d : DecInst) : Bool :=
  d.type == .csr || d.type == .mret || d.type == .ecall || d.type == .ebreak

/-- The fire loop of `comb_fire`, Dispatch.cpp:384-440: `dis_fire[]` and the final `pre_stall`.
The list pairs each slot with its success flag; `g` is `global_flush`. -/
def fireGo (i : Input n) (g : Bool) : List (Alloc n × Bool) → Bool → Bool → List Bool × Bool
  | [], stall, _ => ([], stall)
  | (a, ok) :: t, stall, fired =>
    let atomic := a.valid && a.inst.dec.type == .amo
    let wfi := a.valid && a.inst.dec.type == .wfi
    let basic := a.robValid && ok && i.robReady && !stall && !g
    let fire := basic && !((isCsr a.inst.dec || atomic) && (!i.robEmpty || fired))
    let x := fireGo i g t (stall || (a.valid && !fire) || (fire && (atomic || wfi))) (fired || fire)
    (fire :: x.1, x.2)

/-- Withdraw the request in port `k`. -/
def cancel (l : List (Packet n × Bool)) (k : Nat) : List (Packet n × Bool) :=
  l.modify k (fun x => (x.1, false))

/-- The roll-back of one slot, Dispatch.cpp:461-480: step over its ports, withdrawing if `fire` is
false. -/
def backOne (fire : Bool) : List (Packet n) → Reqs n × (Iq → Nat) → Reqs n × (Iq → Nat)
  | [], x => x
  | p :: ps, (r, idx) =>
    let q := p.mop.iq
    backOne fire ps
      ((if fire then r else fun q' => if q' = q then cancel (r q') (idx q') else r q'),
       fun q' => if q' = q then idx q' + 1 else idx q')

/-- The roll-back loop, Dispatch.cpp:452-481. -/
def backGo : List ((Alloc n × Bool) × Bool) → Reqs n × (Iq → Nat) → Reqs n × (Iq → Nat)
  | [], x => x
  | ((a, ok), fire) :: t, x =>
    if !a.valid then backGo t x
    else if !ok then x
    else backGo t (backOne fire (packets a) x)

/-- Everything one cycle computes. -/
structure Out (n : Nat) where
  alloc : List (Alloc n)
  flags : List Bool
  fire : List Bool
  /-- `dis2ren->ready`. -/
  ready : Bool
  reqs : Reqs n

/-- One cycle up to the end of `comb_fire`. -/
def comb (c : Cfg) (s : State n) (i : Input n) : Out n :=
  let al := wakeGo s.busy i.wakes [] (allocGo c i s.slots 0 0 0)
  let d := dispatchGo c i al s.flags (fun _ => [])
  let g := i.flush || i.mispred || i.robStall
  let f := fireGo i g (al.zip d.1) false false
  ⟨al, d.1, f.1, !f.2, (backGo ((al.zip d.1).zip f.1) (d.2, fun _ => 0)).1⟩

/-- `busy_table_1`, Dispatch.cpp:371-381,442-446. -/
def busyNext (s : State n) (i : Input n) (o : Out n) : Nat → Bool := fun p =>
  ((o.alloc.zip o.fire).any fun x => x.2 && x.1.inst.dec.destEn && x.1.inst.destPreg == p) ||
  (s.busy p && !i.wakes.contains p)

/-- `inst_r_1[i].br_mask &= ~clear_mask`. -/
def scrub (i : Input n) (u : Inst n) : Inst n := { u with brMask := u.brMask &&& ~~~i.clear }

/-- `comb_pipeline`, Dispatch.cpp:712-757, and `seq`, 759-765.  The busy flags kept in a held slot
are recomputed by `comb_wake` before they are used and are therefore not part of the state. -/
def step (c : Cfg) (s : State n) (i : Input n) : State n :=
  let o := comb c s i
  { slots :=
      if i.flush || i.mispred then s.slots.map (fun _ => none)
      else if o.ready then i.ren.map (Option.map (scrub i))
      else (s.slots.zip o.fire).map (fun x => if x.2 then none else x.1.map (scrub i))
    busy := busyNext s i o
    flags := o.flags }

/-- The micro-operations that reach issue queue `q`: the requests still valid at the end of
`comb_fire`, in port order. -/
def sent (o : Out n) (q : Iq) : List (Packet n) :=
  (o.reqs q).filterMap (fun x => if x.2 then some x.1 else none)

end Verif.Dispatch

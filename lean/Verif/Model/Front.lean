import Verif.Model.Fu

/-
The front end around its predictors and its instruction cache: predecoding (front-end/predecode.cpp), the predecode
checker (front-end/predecode_checker.cpp), the four queues (front-end/fifo/*.cpp) and the glue of one cycle
(front-end/front_top.cpp:613-1000, 1002-2078).

Simplifications.
* The branch predictors are not modelled: what they say about the fetch group at the program counter (directions, next
  fetch address, the data carried along for training) is an input of the cycle.  Of `BPU_TOP` only the program counter
  and its handshake are kept.  `pc_can_send_to_icache` is left out: it is set by the reset and never cleared
  (BPU.h:1508, 1791, 1807, 1941).
* The instruction cache is a pair of inputs: whether it reports ready before the cycle's request, and what it returns.
* Two-ahead prediction and the second request lane are off in every configuration of the repository
  (config/frontend_feature_config.h:285, FRONTEND_ICACHE_MODE 0), so `dummy_entry`, `mini_flush_*`, slot 1 and
  `icache_read_*_2` are left out.  The two bypasses `FRONTEND_ENABLE_FETCH_TO_ICACHE_BYPASS` and
  `FRONTEND_ENABLE_ICACHE_TO_PREDECODE_BYPASS` (undefined in the repository, hence off) are parameters.
* `exit(1)` is `none`.  Counters, traces and the `full`/`empty` outputs of a queue's step (unused) are left out.
-/
namespace Verif.Front

abbrev W32 := BitVec 32

/-- `PREDECODE_*`, front-end/predecode.h. -/
inductive PType
  | non | direct | jalr | jal
  deriving DecidableEq, Repr

/-- `sign_extend_u32`, predecode.cpp:5-8. -/
def signExtendU32 (v : W32) (bits : Nat) : W32 :=
  (v ^^^ (1#32 <<< (bits - 1))) - (1#32 <<< (bits - 1))

/-- `INST_NOP`, front-end/frontend.h. -/
def instNop : W32 := 0x00000013#32

/-- `predecode_comb`, predecode.cpp:17-58. -/
def predecode (inst pc : W32) : PType × W32 :=
  if inst = 0#32 ∨ inst = instNop then (.non, 0#32) else
  let opcode := inst &&& 0x7f#32
  if opcode = 0b1101111#32 then
    let imm20 := (inst >>> 31) &&& 0x1#32
    let imm10_1 := (inst >>> 21) &&& 0x3ff#32
    let imm11 := (inst >>> 20) &&& 0x1#32
    let imm19_12 := (inst >>> 12) &&& 0xff#32
    let raw := (imm20 <<< 20) ||| (imm19_12 <<< 12) ||| (imm11 <<< 11) ||| (imm10_1 <<< 1)
    (.jal, pc + signExtendU32 raw 21)
  else if opcode = 0b1100011#32 then
    let imm12 := (inst >>> 31) &&& 0x1#32
    let imm10_5 := (inst >>> 25) &&& 0x3f#32
    let imm4_1 := (inst >>> 8) &&& 0xf#32
    let imm11 := (inst >>> 7) &&& 0x1#32
    let raw := (imm12 <<< 12) ||| (imm11 <<< 11) ||| (imm10_5 <<< 5) ||| (imm4_1 <<< 1)
    (.direct, pc + signExtendU32 raw 13)
  else if opcode = 0b1100111#32 then (.jalr, 0#32)
  else (.non, 0#32)

/-! ### A queue -/

/-- `*_read_data`: `size`, and the head entry when `head_valid` (front-end/fifo/front_fifo.h). -/
structure Rd (α : Type) where
  size : Nat
  head : Option α

/-- The update part of `*CombOut`: clear, push, pop. -/
structure Req (α : Type) where
  clear : Bool := false
  push : Option α := none
  pop : Bool := false

/-- `*_FIFO_in` / `PTAB_in`; `write`: the data when `write_enable`. -/
structure QIn (α : Type) where
  reset : Bool
  refetch : Bool
  read : Bool
  write : Option α

/-- `seq_read`: fetch_address_FIFO.cpp:62-69, PTAB.cpp:140-147 and the same lines of the other two. -/
def rdOf {α : Type} (l : List α) : Rd α := ⟨l.length, l.head?⟩

/-- `fetch_address_FIFO_comb`, fetch_address_FIFO.cpp:10-55; `PTAB_comb`, PTAB.cpp:16-133; `instruction_FIFO_comb`;
`front2back_FIFO_comb`.  The second component is what is read. -/
def qComb {α : Type} (i : QIn α) (r : Rd α) : Option (Req α × Option α) :=
  if i.reset then some ({ clear := true }, none) else
  let has := !i.refetch && decide (0 < r.size)
  let doRead := i.read && (has || i.write.isSome)
  if doRead then
    if has then
      match r.head with
      | none => none
      | some h => some ({ clear := i.refetch, push := i.write, pop := true }, some h)
    else some ({ clear := i.refetch, push := i.write, pop := true }, i.write)
  else some ({ clear := i.refetch, push := i.write, pop := false }, none)

/-- `build_next_read_data`: fetch_address_FIFO.cpp:71-107, PTAB.cpp:149-200 and the other two. -/
def qNext {α : Type} (cap : Nat) (cur : Rd α) (q : Req α) : Option (Rd α) := do
  let r0 : Rd α := if q.clear then ⟨0, none⟩ else cur
  let r1 : Rd α ← match q.push with
    | none => some r0
    | some e => if cap ≤ r0.size then none else some ⟨r0.size + 1, if r0.size = 0 then some e else r0.head⟩
  if q.pop then
    if r1.size = 0 then none
    else if r1.size - 1 = 0 then some ⟨0, none⟩
    else if 1 < r0.size then some ⟨r1.size - 1, none⟩
    else match q.push with
      | some e => some ⟨r1.size - 1, some e⟩
      | none => some ⟨r1.size - 1, r1.head⟩
  else some r1

/-- `comb_calc`: fetch_address_FIFO.cpp:109-120 and the other three. -/
def qCalc {α : Type} (cap : Nat) (i : QIn α) (r : Rd α) : Option (Rd α × Req α × Option α) := do
  let (q, o) ← qComb i r
  let r' ← qNext cap r q
  return (r', q, o)

/-- `accumulate_*_req`, front_top.cpp:912-997. -/
def qAcc {α : Type} (a s : Req α) : Option (Req α) :=
  if s.pop && a.pop then none
  else if s.push.isSome && a.push.isSome then none
  else some { clear := a.clear || s.clear, push := if s.push.isSome then s.push else a.push, pop := a.pop || s.pop }

/-- `seq_write`: fetch_address_FIFO.cpp:122-146, PTAB.cpp:214-247 and the other two. -/
def qWrite {α : Type} (cap : Nat) (l : List α) (q : Req α) : Option (List α) := do
  let l0 := if q.clear then [] else l
  let l1 ← match q.push with
    | none => some l0
    | some e => if cap ≤ l0.length then none else some (l0 ++ [e])
  if q.pop then (match l1 with | [] => none | _ :: t => some t) else some l1

/-! ### Data -/

/-- What the instruction cache returns for a group: `icache_out`, front-end/front_IO.h (`fetch_pc`, `fetch_group`,
`page_fault_inst`, `inst_valid`). -/
structure Resp (W : Nat) where
  pc : W32
  insts : Fin W → W32
  pf : Fin W → Bool
  valid : Fin W → Bool

/-- `instruction_FIFO_entry`, fifo/front_fifo.h. -/
structure Group (W : Nat) where
  insts : Fin W → W32
  pc : Fin W → W32
  pf : Fin W → Bool
  valid : Fin W → Bool
  ptype : Fin W → PType
  ptarget : Fin W → W32
  seqNext : W32

/-- `PTAB_entry`, fifo/front_fifo.h.  `info`: the TAGE, SC and loop data, carried along unread. -/
structure Pred (W : Nat) (M : Type) where
  dir : Fin W → Bool
  base : Fin W → W32
  next : W32
  info : M

/-- `front2back_FIFO_entry`, fifo/front_fifo.h, and the part of `front_top_out` copied from it. -/
structure Out (W : Nat) (M : Type) where
  insts : Fin W → W32
  pc : Fin W → W32
  pf : Fin W → Bool
  valid : Fin W → Bool
  dir : Fin W → Bool
  next : W32
  info : M

/-- Compile-time parameters: the queue sizes, the two bypass switches, `ICACHE_LINE_SIZE`, `RESET_PC`. -/
structure Cfg where
  fetchCap : Nat
  ptabCap : Nat
  instCap : Nat
  f2bCap : Nat
  fetchByp : Bool
  predByp : Bool
  line : W32
  resetPc : W32

/-- The group stored for an answer of the instruction cache: front_top.cpp:1552-1582 (bypass), 1606-1633 (queue).
The same code for both. -/
def mkGroup {W : Nat} (k : Cfg) (r : Resp W) : Group W where
  insts := r.insts
  pc := fun j => r.pc + BitVec.ofNat 32 (j.val * 4)
  pf := r.pf
  valid := r.valid
  ptype := fun j => if r.valid j then (predecode (r.insts j) (r.pc + BitVec.ofNat 32 (j.val * 4))).1 else .non
  ptarget := fun j => if r.valid j then (predecode (r.insts j) (r.pc + BitVec.ofNat 32 (j.val * 4))).2 else 0#32
  seqNext :=
    let mask := ~~~(k.line - 1#32)
    let n := r.pc + BitVec.ofNat 32 (W * 4)
    if n &&& mask ≠ r.pc &&& mask then n &&& mask else n

/-- The first lane with a set flag (predecode_checker.cpp:43-49). -/
def firstTaken {W : Nat} (d : Fin W → Bool) : Option (Fin W) := (List.finRange W).find? d

/-- `predict_dir_corrected`, predecode_checker.cpp:22-40. -/
def fixDir {W : Nat} (g : Group W) (dir : Fin W → Bool) : Fin W → Bool := fun j =>
  match g.ptype j with
  | .non => false
  | .direct => dir j
  | .jalr => true
  | .jal => true

/-- `predict_next_fetch_address_corrected`, predecode_checker.cpp:51-63. -/
def fixNext {W : Nat} (g : Group W) (dir : Fin W → Bool) (next : W32) : W32 :=
  match firstTaken (fixDir g dir) with
  | some j => if g.ptype j = .direct ∨ g.ptype j = .jal then g.ptarget j else next
  | none => g.seqNext

/-- `front_front2back_write_comb`, front_top.cpp:780-856, after `predecode_checker_comb`. -/
def mkOut {W : Nat} {M : Type} (g : Group W) (p : Pred W M) : Out W M where
  insts := g.insts
  pc := p.base
  pf := g.pf
  valid := g.valid
  dir := fixDir g p.dir
  next := fixNext g p.dir p.next
  info := p.info

/-! ### The registers and one cycle -/

/-- The queues, `pc_reg` of the BPU, `predecode_refetch` with its address, and the latched full/empty flags
(front_top.cpp:40-75). -/
structure St (W : Nat) (M : Type) where
  pc : W32
  fetch : List W32
  inst : List (Group W)
  ptab : List (Pred W M)
  f2b : List (Out W M)
  preRefetch : Option W32
  fetchFull : Bool
  fetchEmpty : Bool
  instFull : Bool
  instEmpty : Bool
  ptabFull : Bool
  ptabEmpty : Bool
  f2bFull : Bool
  f2bEmpty : Bool

/-- The state after a reset cycle, and at power-on (front_top.cpp:27-37, BPU.h:742-746: the constructor resets). -/
def St.init {W : Nat} {M : Type} (k : Cfg) : St W M :=
  { pc := k.resetPc, fetch := [], inst := [], ptab := [], f2b := [], preRefetch := none,
    fetchFull := decide (k.fetchCap - 1 ≤ 0), fetchEmpty := true,
    instFull := decide (0 = k.instCap), instEmpty := true,
    ptabFull := decide (k.ptabCap - 1 ≤ 0), ptabEmpty := true,
    f2bFull := decide (0 = k.f2bCap), f2bEmpty := true }

/-- The inputs of a cycle: from the back end (`front_top_in`), from the instruction cache before its call (`icReady`,
`icache_peek_ready`), and what the predictors say about the group at the program counter. -/
structure Inp (W : Nat) (M : Type) where
  reset : Bool
  refetch : Bool
  refetchAddr : W32
  readEn : Bool
  icReady : Bool
  bpNext : W32
  bpDir : Fin W → Bool
  bpInfo : M

section
variable {W : Nat} {M : Type}

/-- `global_refetch`, front_top.cpp:617-618. -/
def gRefetch (s : St W M) (i : Inp W M) : Bool := i.refetch || s.preRefetch.isSome

/-- `refetch_address`, front_top.cpp:619-621. -/
def gAddr (s : St W M) (i : Inp W M) : W32 := if i.refetch then i.refetchAddr else s.preRefetch.getD 0#32

/-- `bpu_can_run`, front_top.cpp:680-682. -/
def bpuCanRun (s : St W M) (i : Inp W M) : Bool :=
  !(s.fetchFull || s.ptabFull) || i.reset || gRefetch s i

/-- `bpu_input.icache_read_ready`, front_top.cpp:683-692. -/
def bpuReady (s : St W M) (i : Inp W M) : Bool := bpuCanRun s i && !s.fetchFull

/-- `going_to_do_pred`, BPU.h:842-843. -/
def goingToPred (s : St W M) (i : Inp W M) : Bool := bpuReady s i || gRefetch s i

/-- `fetch_address` = `pred_base_pc`, BPU.h:820, 1077-1078. -/
def predBase (s : St W M) (i : Inp W M) : W32 := if gRefetch s i then gAddr s i else s.pc

/-- `pc_reg_next`: BPU.h:1507, 1790, 1805-1807; with reset BPU.h:1940. -/
def nextPc (k : Cfg) (s : St W M) (i : Inp W M) : W32 :=
  if i.reset then k.resetPc
  else if gRefetch s i then gAddr s i
  else if goingToPred s i then i.bpNext else s.pc

/-- `icache_read_valid && bpu_can_run && !global_reset`, BPU.h:1076, front_top.cpp:1381-1382.  During a reset the
output payload is zero, front_top.cpp:1345-1351. -/
def fetchWrite (s : St W M) (i : Inp W M) : Bool := !gRefetch s i && bpuCanRun s i && !i.reset

/-- `ptab_can_write`, BPU.h:1146, front_top.cpp:1686-1688. -/
def ptabWrite (s : St W M) (i : Inp W M) : Bool :=
  goingToPred s i && !gRefetch s i && !s.ptabFull && !i.reset

/-- `fetch_addr_fifo_read_enable_slot0`, front_top.cpp:630-632. -/
def fetchRead (s : St W M) (i : Inp W M) : Bool :=
  i.icReady && !s.fetchEmpty && !i.reset && !gRefetch s i

/-- `predecode_can_run_old`, front_top.cpp:638-641. -/
def instRead (s : St W M) (i : Inp W M) : Bool :=
  !s.instEmpty && !s.ptabEmpty && !s.f2bFull && !i.reset && !gRefetch s i

/-- The state of the cycle when the instruction cache is called. -/
structure Mid (W : Nat) (M : Type) where
  fetchRd : Rd W32
  fetchReq : Req W32
  instRd : Rd (Group W)
  instReq : Req (Group W)
  instOut : Option (Group W)
  ptabRd : Rd (Pred W M)
  ptabReq : Req (Pred W M)
  ptabOut : Option (Pred W M)
  f2bRd : Rd (Out W M)
  f2bReq : Req (Out W M)
  f2bOut : Option (Out W M)
  /-- `icache_in.icache_read_valid` with `fetch_address`. -/
  icReq : Option W32

/-- A further step of a queue in the same cycle with `write_enable`, and the accumulation of its request
(front_top.cpp:1399-1407, 1634-1637, 1707-1710, 1791-1799). -/
def qPush {α : Type} (cap : Nat) (rst rf : Bool) (e : α) (r : Rd α) (q : Req α) : Option (Rd α × Req α) := do
  let (r', q', _) ← qCalc cap ⟨rst, rf, false, some e⟩ r
  let q'' ← qAcc q q'
  return (r', q'')

/-- The first step of a queue in a cycle (front_top.cpp:1219-1265). -/
def qRead {α : Type} (cap : Nat) (rst rf rd : Bool) (l : List α) : Option (Rd α × Req α × Option α) := do
  let (r', q', o) ← qCalc cap ⟨rst, rf, rd, none⟩ (rdOf l)
  let q'' ← qAcc {} q'
  return (r', q'', o)

/-- `can_bypass_fetch_to_icache`, front_top.cpp:1388-1393; `fo`: what was read from the address queue. -/
def fetchByp (k : Cfg) (s : St W M) (i : Inp W M) (fo : Option W32) : Bool :=
  k.fetchByp && fo.isNone && fetchWrite s i && i.icReady && !gRefetch s i

/-- Stages 1 to 6 up to the call of the instruction cache, front_top.cpp:1088-1476. -/
def front1 (k : Cfg) (s : St W M) (i : Inp W M) : Option (Mid W M) := do
  let g := gRefetch s i
  -- stage 3: the queues are read, front_top.cpp:1219-1265
  let (fr, fq, fo) ← qRead k.fetchCap i.reset g (fetchRead s i) s.fetch
  let (ir, iq, io) ← qRead k.instCap i.reset g (instRead s i) s.inst
  let (pr, pq, po) ← qRead k.ptabCap i.reset g (instRead s i) s.ptab
  let (br, bq, bo) ← qRead k.f2bCap i.reset i.refetch i.readEn s.f2b
  -- stage 5: the address of the group at the program counter, front_top.cpp:1376-1412
  let (fr, fq) ← if fetchWrite s i && !fetchByp k s i fo then qPush k.fetchCap false false (predBase s i) fr fq
    else some (fr, fq)
  -- stage 6: the request to the instruction cache, front_top.cpp:1438-1450
  return ⟨fr, fq, ir, iq, io, pr, pq, po, br, bq, bo,
    match fo with
    | some a => some a
    | none => if fetchByp k s i none then some (predBase s i) else none⟩

/-- What a cycle shows outside: the group handed to the back end (`FIFO_valid` and the data), and whether the second
call of the instruction cache with `invalidate_req` is made. -/
structure Obs (W : Nat) (M : Type) where
  out : Option (Out W M)
  inval : Bool

/-- `can_bypass_icache_to_predecode`, front_top.cpp:1527-1535. -/
def predByp (k : Cfg) (s : St W M) (i : Inp W M) (resp : Option (Resp W)) : Bool :=
  k.predByp && s.instEmpty && !s.ptabEmpty && !s.f2bFull && !i.reset && !gRefetch s i && resp.isSome

/-- The entry for the group at the program counter, `front_ptab_write_comb`, front_top.cpp:725-763. -/
def newPred (s : St W M) (i : Inp W M) : Pred W M :=
  ⟨i.bpDir, fun j => predBase s i + BitVec.ofNat 32 (j.val * 4), i.bpNext, i.bpInfo⟩

/-- The prediction is read for an answer that bypasses the instruction queue, front_top.cpp:1536-1547. -/
def ptabByp (k : Cfg) (s : St W M) (i : Inp W M) (m : Mid W M) (resp : Option (Resp W)) :
    Option (Rd (Pred W M) × Req (Pred W M) × Option (Pred W M)) :=
  if predByp k s i resp then do
    let (r, q, o) ← qCalc k.ptabCap ⟨i.reset, gRefetch s i, true, none⟩ m.ptabRd
    let q' ← qAcc m.ptabReq q
    return (r, q', o)
  else some (m.ptabRd, m.ptabReq, m.ptabOut)

/-- The answer is stored in the instruction queue, front_top.cpp:1603-1641. -/
def instPush (k : Cfg) (s : St W M) (i : Inp W M) (m : Mid W M) (resp : Option (Resp W)) :
    Option (Rd (Group W) × Req (Group W)) :=
  match resp with
  | some r =>
    if !s.instFull && !i.reset && !gRefetch s i && !predByp k s i resp then
      qPush k.instCap i.reset (gRefetch s i) (mkGroup k r) m.instRd m.instReq
    else some (m.instRd, m.instReq)
  | none => some (m.instRd, m.instReq)

/-- The prediction is stored, front_top.cpp:1686-1712. -/
def ptabPush (k : Cfg) (s : St W M) (i : Inp W M) (r : Rd (Pred W M)) (q : Req (Pred W M)) :
    Option (Rd (Pred W M) × Req (Pred W M)) :=
  if ptabWrite s i then qPush k.ptabCap i.reset (gRefetch s i) (newPred s i) r q else some (r, q)

/-- The checker and the queue to the back end, front_top.cpp:1714-1800: `src` is the group to check and `po` its
prediction.  The result: the queue, the group put out directly, the address of a redirect found by the checker. -/
def check (k : Cfg) (s : St W M) (i : Inp W M) (m : Mid W M) (src : Option (Group W)) (po : Option (Pred W M)) :
    Option (Rd (Out W M) × Req (Out W M) × Option (Out W M) × Option W32) :=
  match src, po with
  | some gr, some p =>
    -- front_top.cpp:1719-1725
    if ∀ j, gr.pc j = p.base j then
      let o := mkOut gr p
      let fl := if p.next ≠ o.next then some o.next else none
      let canWrite := !s.f2bFull && !i.reset
      let bypOut := i.readEn && s.f2bEmpty && m.f2bOut.isNone && canWrite
      if canWrite && !bypOut then do
        let (r, q) ← qPush k.f2bCap i.reset i.refetch o m.f2bRd m.f2bReq
        return (r, q, none, fl)
      else some (m.f2bRd, m.f2bReq, if bypOut then some o else none, fl)
    else none
  | _, _ => none

/-- Stages 7 and later, front_top.cpp:1500-1990, and `front_seq_write`, front_top.cpp:2031-2060; `resp`: what the
instruction cache returned. -/
def front2 (k : Cfg) (s : St W M) (i : Inp W M) (m : Mid W M) (resp : Option (Resp W)) :
    Option (St W M × Obs W M) := do
  let (pr, pq, po) ← ptabByp k s i m resp
  let (ir, iq) ← instPush k s i m resp
  let (pr, pq) ← ptabPush k s i pr pq
  let (br, bq, byo, fl) ← if predByp k s i resp || instRead s i then
      check k s i m (if predByp k s i resp then resp.map (mkGroup k) else m.instOut) po
    else some (m.f2bRd, m.f2bReq, none, none)
  -- front_seq_write, front_top.cpp:2031-2060
  let fetch ← qWrite k.fetchCap s.fetch m.fetchReq
  let inst ← qWrite k.instCap s.inst iq
  let ptab ← qWrite k.ptabCap s.ptab pq
  let f2b ← qWrite k.f2bCap s.f2b bq
  return ({ pc := nextPc k s i
            fetch := fetch
            inst := inst
            ptab := ptab
            f2b := f2b
            preRefetch := fl
            fetchFull := decide (k.fetchCap - 1 ≤ m.fetchRd.size)
            fetchEmpty := decide (m.fetchRd.size = 0)
            instFull := decide (ir.size = k.instCap)
            instEmpty := decide (ir.size = 0)
            ptabFull := decide (k.ptabCap - 1 ≤ pr.size)
            ptabEmpty := decide (pr.size = 0)
            f2bFull := decide (br.size = k.f2bCap)
            f2bEmpty := decide (br.size = 0) },
          { out := match m.f2bOut with
              | some o => some o
              | none => byo
            inval := fl.isSome })

/-- `front_top`, front_top.cpp:2064-2078, with the answer of the instruction cache. -/
def cycle (k : Cfg) (s : St W M) (i : Inp W M) (resp : Option (Resp W)) : Option (St W M × Obs W M) := do
  let m ← front1 k s i
  front2 k s i m resp

end
end Verif.Front

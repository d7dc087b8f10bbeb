import Verif.Model.Front
/-
The instruction cache: `icache_module_n::ICache` (front-end/icache/icache_module.cpp), the glue around it
(`TrueICacheTopT`, front-end/icache/ICacheTop.cpp) and its tables (front-end/icache/icache.cpp), in the configuration
of include/config.h: lines of 64 bytes, 64 sets, 8 ways, look-up latency 0.

With latency 0 the registers `lookup_pending_r`, `lookup_index_r`, `lookup_pc_r` are never set
(icache_module.cpp:929-931) and left out.  The state `DRAIN` is never entered (icache_module.cpp:1550 is the only
assignment, inside `DRAIN`) and left out.  `req_index_r` is the index of `req_pc_r` (both written at 934-937) and
computed.  A transaction number that is not valid is not kept (`miss_txid_r` without `miss_txid_valid_r`).
Performance counters and debug output are left out, and the bit-packed interfaces through which all this is run; these are
in `Model/ICacheBits`, and C119 shows that they make no difference.
-/
namespace Verif.ICache
open Verif.Front (Resp instNop)

abbrev W32 := BitVec 32
/-- A line, `ICACHE_WORD_NUM` words (include/config.h:293). -/
abbrev Line := Fin 16 → W32
abbrev Idx := BitVec 6
abbrev Ppn := BitVec 20
abbrev Way := Fin 8
/-- A transaction number of the read port. -/
abbrev Tx := Fin 16

/-- `(pc >> offset_bits) & (set_num - 1)`, icache_module.cpp:783. -/
def idxOf (pc : W32) : Idx := pc.extractLsb' 6 6
/-- `pc >> 12`, icache_module.cpp:951-959. -/
def vpnOf (pc : W32) : Ppn := pc.extractLsb' 12 20
/-- `icache_line_base_addr`, icache_module.cpp:135-137. -/
def lineAddr (p : Ppn) (x : Idx) : W32 := (p.setWidth 32 <<< 12) ||| (x.setWidth 32 <<< 6)

/-- What the MMU says about a page: `ppn_valid` with `page_fault` or `ppn` (`ICacheMmuRespView`). -/
inductive Xlat
  | fault
  | page (p : Ppn)
deriving DecidableEq

/-- `ICacheState`, icache_module.h:98-104. -/
inductive State
  | idle
  | swapIn
  | waitDc
  | cancelWait
deriving DecidableEq

/-- `ICache_regs_t`, icache_module.h:126-158; `busy`: `mem_axi_state`. -/
@[ext] structure Regs where
  reqV : Bool := false
  reqPc : W32 := 0#32
  ready : Bool := true
  st : State := .idle
  busy : Bool := false
  resp : Line := fun _ => 0#32
  repl : Way := 0
  ppn : Ppn := 0#20
  tx : Option Tx := none
  seen : Bool := false
  infl : Tx → Bool := fun _ => false
  canc : Tx → Bool := fun _ => false
  pInfl : Bool := false
  pDone : Bool := false
  pHit : Bool := false
  pWord : Fin 16 := 0
  pData : Line := fun _ => 0#32

/-- `ICache::reset`, icache_module.cpp:669-707. -/
def Regs.init : Regs := {}

/-- `ICache_in_t`, icache_module.h: the request, the translation, the read port, the probe port. -/
structure In where
  kill : Bool
  flush : Bool
  req : Option W32
  xl : Option Xlat
  mReady : Bool
  mAcc : Option Tx
  mResp : Option (Tx × Line)
  /-- answer of the data cache to a probe: `some none` is a miss -/
  probe : Option (Option W32)

/-- `ICache_lookup_in_t`, icache_module.h:112-121. -/
structure Look where
  tags : Option (Way → Option Ppn)
  data : Option (Way × Line)

/-- `ICache_out_t`: the answer (`none`: page fault), the read request, the probe, the request to the MMU, the request
for a data way. -/
structure Out where
  resp : Option (W32 × Option Line) := none
  mReq : Option (W32 × Tx) := none
  mRespReady : Bool := false
  probe : Option W32 := none
  ask : Option Ppn := none
  dataReq : Option (Idx × Way) := none
  ready : Bool := false

/-- `ICache_table_write_t`, icache_module.h:167-178. -/
structure TabW where
  we : Option (Idx × Way × Ppn × Line) := none
  inval : Bool := false

/-- What `eval_state_machine` leaves: `reg_write`, outputs, table write, `req_ready_w`, `fast_bypass_fire`. -/
structure Sm where
  r : Regs
  o : Out := {}
  tw : TabW := {}
  rdy : Bool
  fast : Bool := false

/-! ### The state machine -/

/-- The way that hits, `capture_lookup_meta_result`, icache_module.cpp:817-833. -/
def hitWay (l : Look) (p : Ppn) : Option Way :=
  match l.tags with
  | none => none
  | some t => (List.finRange 8).find? fun w => decide (t w = some p)

/-- The first invalid way, icache_module.cpp:817-823. -/
def freeWay (l : Look) : Option Way :=
  match l.tags with
  | none => none
  | some t => (List.finRange 8).find? fun w => (t w).isNone

/-- `capture_lookup_data_result`, icache_module.cpp:836-851. -/
def hitData (allow : Bool) (l : Look) (w : Way) : Option Line :=
  match l.data with
  | some (w', d) => if allow && decide (w' = w) then some d else none
  | none => none

/-- `alloc_free_txid`, icache_module.cpp:126-133. -/
def freeTx (r : Regs) : Option Tx := (List.finRange 16).find? fun t => !r.infl t

def setB (f : Tx → Bool) (t : Tx) (b : Bool) : Tx → Bool := fun u => if u = t then b else f u

/-- `canceled_resp`, icache_module.cpp:999-1000. -/
def cancResp (r : Regs) (i : In) : Bool := match i.mResp with
  | some (t, _) => r.canc t
  | none => false

/-- `req_accepted_now` and the condition at 1402, icache_module.cpp:1330-1333. -/
def accNow (r : Regs) (i : In) : Bool := !r.busy && match r.tx with
  | some t => decide (i.mAcc = some t)
  | none => false

/-- `active_resp` with its data, icache_module.cpp:1001-1014. -/
def active (r : Regs) (i : In) : Option Line := match i.mResp with
  | some (t, d) =>
    if decide (r.tx = some t) && (r.infl t || (decide (r.st = .swapIn) && accNow r i)) && !r.canc t then some d else none
  | none => none

/-- `orphan_resp`, icache_module.cpp:1015-1017. -/
def orphan (r : Regs) (i : In) : Bool := match i.mResp with
  | some (t, _) => (active r i).isNone && !r.canc t && !r.infl t
  | none => false

/-- The answers that are thrown away, icache_module.cpp:1019-1028. -/
def drop (r : Regs) (i : In) : Regs := match i.mResp with
  | some (t, _) => if cancResp r i || orphan r i then { r with canc := setB r.canc t false, infl := setB r.infl t false } else r
  | none => r

/-- `reset_dcache_probe_regs`, icache_module.cpp:1030-1038. -/
def Regs.noProbe (r : Regs) : Regs :=
  { r with pInfl := false, pDone := false, pHit := false, pWord := 0, pData := fun _ => 0#32 }

/-- The miss is over: the assignments repeated at 1360-1363, 1375-1379, 1463-1467, 1504-1508. -/
def Regs.noMiss (r : Regs) : Regs := { r with st := .idle, busy := false, tx := none, seen := false }.noProbe

/-- The probe request, icache_module.cpp:1055-1068. -/
def probeReq (r : Regs) : Option W32 :=
  if !r.pDone && !r.pInfl && r.reqV then some (lineAddr r.ppn (idxOf r.reqPc) + BitVec.ofNat 32 (r.pWord.val * 4)) else none

/-- The registers of the probe after `step_dcache_probe`, icache_module.cpp:1046-1090. -/
def probeStep (r : Regs) (i : In) (w : Regs) : Regs :=
  let w := if (probeReq r).isSome then { w with pInfl := true } else w
  match r.pInfl, i.probe with
  | true, some none => { w with pInfl := false, pDone := true, pHit := false }
  | true, some (some d) =>
    let w := { w with pInfl := false, pHit := true, pData := fun j => if j = r.pWord then d else w.pData j }
    if h : r.pWord.val + 1 < 16 then { w with pWord := ⟨r.pWord.val + 1, h⟩ } else { w with pDone := true }
  | _, _ => w

/-- The way to fill, icache_module.cpp:1120-1126. -/
def fillWay (r : Regs) (l : Look) : Way := match freeWay l with
  | some w => w
  | none => r.repl + 1

/-- `finish_refill`, icache_module.cpp:1133-1177; `w`: the registers written so far, `o`: the outputs so far. -/
def finish (r : Regs) (i : In) (w : Regs) (o : Out) (line : Line) (way : Way) : Sm :=
  let w := match r.tx with
    | some t => { w with infl := setB w.infl t false }
    | none => w
  { r := w.noMiss
    o := if !i.kill && !i.flush then { o with resp := some (r.reqPc, some line) } else o
    tw := { we := if i.flush then none else some (idxOf r.reqPc, way, r.ppn, line), inval := i.flush }
    rdy := true }

/-- `IDLE` with a registered request and its page, icache_module.cpp:1243-1309. -/
def regPath (allow : Bool) (r : Regs) (i : In) (l : Look) (w : Regs) (o : Out) (p : Ppn) : Sm :=
  let w := { w with ppn := p }
  match hitWay l p with
  | some h => match hitData allow l h with
    | some d => { r := w, o := { o with resp := some (r.reqPc, some d) }, tw := { inval := i.flush }, rdy := true }
    | none => { r := w, o := { o with dataReq := some (idxOf r.reqPc, h) }, tw := { inval := i.flush }, rdy := false }
  | none => match r.tx.or (freeTx r) with
    | none => { r := w, o := o, tw := { inval := i.flush }, rdy := false }
    | some t => { r := { w.noProbe with tx := some t, seen := false, st := .swapIn }, o := o, tw := { inval := i.flush }, rdy := false }

/-- `IDLE`, icache_module.cpp:1180-1317. -/
def idleStep (allow : Bool) (r : Regs) (i : In) (l : Look) (w : Regs) (o : Out) : Sm :=
  if i.kill then { r := w, o := o, tw := { inval := i.flush }, rdy := true }
  else if r.reqV then
    match i.xl with
    | some .fault => { r := w, o := { o with resp := some (r.reqPc, none) }, tw := { inval := i.flush }, rdy := true }
    | some (.page p) => regPath allow r i l w o p
    | none => { r := w, o := o, tw := { inval := i.flush }, rdy := false }
  else
    match i.req, i.xl with
    | some pc, some .fault => { r := w, o := { o with resp := some (pc, none) }, tw := { inval := i.flush }, rdy := true, fast := true }
    | some pc, some (.page p) => match hitWay l p with
      | some h => match hitData allow l h with
        | some d => { r := w, o := { o with resp := some (pc, some d) }, tw := { inval := i.flush }, rdy := true, fast := true }
        | none => { r := w, o := { o with dataReq := some (idxOf pc, h) }, tw := { inval := i.flush }, rdy := false }
      | none => { r := w, o := o, tw := { inval := i.flush }, rdy := true }
    | _, _ => { r := w, o := o, tw := { inval := i.flush }, rdy := true }

/-- The response is taken while the miss is active, icache_module.cpp:1099-1131, 1405-1426, 1444-1459, 1575-1579;
`pr`: the probe's registers after this cycle. -/
def gotLine (r : Regs) (i : In) (l : Look) (w : Regs) (o : Out) (d : Line) : Sm :=
  let o := { o with mRespReady := true }
  let w := { w with resp := d, repl := fillWay r l }
  if w.pDone then finish r i w o (if w.pHit then w.pData else d) (fillWay r l)
  else
    let w := match r.tx with
      | some t => { w with infl := setB w.infl t false }
      | none => w
    { r := { w with st := .waitDc, busy := false, tx := none, seen := false }, o := o, tw := { inval := i.flush }, rdy := false }

/-- `SWAP_IN`, icache_module.cpp:1319-1457. -/
def swapStep (r : Regs) (i : In) (l : Look) (w : Regs) (o : Out) : Sm :=
  let o := { o with probe := probeReq r }
  let w := probeStep r i w
  let rdyNow := !r.busy && i.mReady && r.tx.isSome
  let w := if rdyNow then { w with seen := true } else w
  if i.kill then
    match r.tx with
    | some t =>
      if r.busy || accNow r i then
        { r := { w with canc := setB w.canc t true, infl := setB w.infl t true }.noMiss, o := o, tw := { inval := i.flush }, rdy := true }
      else if r.seen || rdyNow then
        { r := { w with st := .cancelWait, busy := false }.noProbe, o := o, tw := { inval := i.flush }, rdy := false }
      else { r := w.noMiss, o := o, tw := { inval := i.flush }, rdy := true }
    | none => { r := w.noMiss, o := o, tw := { inval := i.flush }, rdy := true }
  else if r.busy then
    match active r i with
    | some d => gotLine r i l w o d
    | none => { r := w, o := o, tw := { inval := i.flush }, rdy := false }
  else if accNow r i then
    match active r i with
    | some d => gotLine r i l w o d
    | none =>
      let w := match r.tx with
        | some t => { w with infl := setB w.infl t true }
        | none => w
      { r := { w with busy := true }, o := o, tw := { inval := i.flush }, rdy := false }
  else
    { r := w, o := { o with mReq := r.tx.map fun t => (lineAddr r.ppn (idxOf r.reqPc), t) }, tw := { inval := i.flush }, rdy := false }

/-- `WAIT_DCACHE_AFTER_MEM`, icache_module.cpp:1460-1492. -/
def waitStep (r : Regs) (i : In) (w : Regs) (o : Out) : Sm :=
  if i.kill then { r := w.noMiss, o := o, tw := { inval := i.flush }, rdy := true }
  else
    let o := { o with probe := probeReq r }
    let w := probeStep r i w
    if w.pDone then finish r i w o (if w.pHit then w.pData else r.resp) r.repl
    else { r := w, o := o, tw := { inval := i.flush }, rdy := false }

/-- `CANCEL_WAIT_ACCEPT`, icache_module.cpp:1494-1514. -/
def cancelStep (r : Regs) (i : In) (w : Regs) (o : Out) : Sm :=
  let o := { o with mRespReady := true }
  let w := match r.tx with
    | some t => if i.mAcc = some t then { w with canc := setB w.canc t true, infl := setB w.infl t true } else w
    | none => w
  { r := w.noMiss, o := o, tw := { inval := i.flush }, rdy := true }

/-- `eval_state_machine`, icache_module.cpp:963-1582. -/
def evalSm (allow : Bool) (r : Regs) (i : In) (l : Look) : Sm :=
  let o : Out := { mRespReady := cancResp r i || orphan r i }
  let w := drop r i
  match r.st with
  | .idle => idleStep allow r i l w o
  | .swapIn => swapStep r i l w o
  | .waitDc => waitStep r i w o
  | .cancelWait => cancelStep r i w o

/-- `icache_req_slot_idle`, icache_module.cpp:119-124. -/
def slotIdle (r : Regs) : Bool := !r.reqV && decide (r.st = .idle) && !r.busy && r.tx.isNone

/-- `lookup`, icache_module.cpp:860-961, and the end of `comb_core`, 785. -/
def lookup (r : Regs) (i : In) (s : Sm) : Regs × Out :=
  if i.kill then ({ s.r with reqV := false, ready := false }, { s.o with ready := false })
  else if s.fast then ({ s.r with reqV := false, ready := true }, { s.o with ready := s.rdy })
  else
    let acc := if s.rdy && slotIdle r then i.req else none
    let v := if acc.isSome then true else if s.rdy then false else r.reqV
    ({ s.r with reqV := v, reqPc := acc.getD s.r.reqPc, ready := s.rdy && !v },
     { s.o with ready := s.rdy
                ask := match acc with
                  | some pc => some (vpnOf pc)
                  | none => if r.reqV && i.xl.isNone then some (vpnOf r.reqPc) else none })

/-- `comb_core`, icache_module.cpp:752-786. -/
def core (allow : Bool) (r : Regs) (i : In) (l : Look) : Regs × Out × TabW :=
  let s := evalSm allow r i l
  let (r', o) := lookup r i s
  (r', o, s.tw)

/-! ### The cache with its tables -/

/-- The three tables of icache.cpp:46-48. -/
structure Tabs where
  tag : Idx → Way → Ppn := fun _ _ => 0#20
  valid : Idx → Way → Bool := fun _ _ => false
  data : Idx → Way → Line := fun _ _ _ => 0#32

/-- The module's registers, its tables, and `io.out.ifu_req_ready` of the last call, which `peek_ready` reads
(ICacheTop.cpp:668). -/
structure IC where
  r : Regs := {}
  t : Tabs := {}
  outRdy : Bool := false

/-- The inputs of `icache_comb_calc` (`icache_in`, front_IO.h), and what the read port, the probe port and the MMU
show. -/
structure TopIn where
  refetch : Bool := false
  fenceI : Bool := false
  inval : Bool := false
  req : Option W32 := none
  mmu : Ppn → Option Xlat := fun _ => none
  mReady : Bool := false
  mAcc : Option Tx := none
  mResp : Option (Tx × Line) := none
  probe : Option (Option W32) := none

/-- `cancel_pending_req`, ICacheTop.cpp:895. -/
def TopIn.kill (i : TopIn) : Bool := i.refetch || i.inval || i.fenceI

/-- The module's inputs, ICacheTop.cpp:906-926. -/
def TopIn.core (i : TopIn) (x : Option Xlat) : In :=
  { kill := i.kill, flush := i.fenceI, req := i.req, xl := x, mReady := i.mReady, mAcc := i.mAcc, mResp := i.mResp, probe := i.probe }

/-- The set that is read, icache.cpp:283-292 (`fetch_address` is 0 without a request, front_top.cpp:1450-1451). -/
def readIdx (c : IC) (i : TopIn) : Idx := if c.r.reqV then idxOf c.r.reqPc else idxOf (i.req.getD 0#32)

/-- `icache_fill_lookup_meta_input`, icache.cpp:203-214, with the read enable of 297-301. -/
def metaIn (c : IC) (i : TopIn) : Look :=
  if !i.refetch && (i.req.isSome || c.r.reqV) then
    { tags := some fun w => if c.t.valid (readIdx c i) w then some (c.t.tag (readIdx c i) w) else none, data := none }
  else { tags := none, data := none }

/-- `icache_fill_lookup_data_input`, icache.cpp:216-238. -/
def dataIn (c : IC) (i : TopIn) (q : Option (Idx × Way)) : Look :=
  let l := metaIn c i
  match l.tags, q with
  | some _, some (x, w) => if x = readIdx c i then { l with data := some (w, c.t.data x w) } else l
  | _, _ => l

/-- The table writes, icache.cpp:327-353. -/
def Tabs.write (t : Tabs) (w : TabW) : Tabs :=
  let t := match w.we with
    | some (x, y, p, d) =>
      { tag := fun a b => if a = x ∧ b = y then p else t.tag a b
        valid := fun a b => if a = x ∧ b = y then true else t.valid a b
        data := fun a b => if a = x ∧ b = y then d else t.data a b }
    | none => t
  if w.inval then { t with valid := fun _ _ => false } else t

/-- `icache_comb_calc`, icache.cpp:259-360, with `TrueICacheTopT::comb`, ICacheTop.cpp:864-997: a first look at the
tags without the page number, the request to the MMU, the look with it, the data of the way that hit; then the
registers and tables are written. -/
def call (c : IC) (i : TopIn) : IC × Out :=
  let ask := (core false c.r (i.core none) (metaIn c i)).2.1.ask
  let x := if i.refetch then none else ask.bind i.mmu
  let q := (core false c.r (i.core x) (metaIn c i)).2.1.dataReq
  let (r', o, tw) := core true c.r (i.core x) (dataIn c i q)
  ({ r := r', t := c.t.write tw, outRdy := o.ready }, o)

/-- The page `call` asks the MMU for, ICacheTop.cpp:931-933. -/
def asks (c : IC) (i : TopIn) : Option Ppn :=
  if i.refetch then none else (core false c.r (i.core none) (metaIn c i)).2.1.ask

/-- `icache_peek_ready`: ICacheTop.cpp:785-791 and `eval_true_glue`, 238-247; `hold`: `itlb_flush`, `fence_i` or
`invalidate_req`. -/
def peek (c : IC) (hold : Bool) : Bool :=
  !hold && (c.r.ready && !(c.r.reqV || c.r.tx.isSome || decide (c.r.st ≠ .idle) || c.r.busy) && c.outRdy)

/-- The group made of an answer: `eval_true_glue`, ICacheTop.cpp:249-268. -/
def glue (W : Nat) (pc : W32) (line : Option Line) : Resp W :=
  let base := (pc &&& 63#32).toNat / 4
  { pc := pc
    insts := fun j => if h : base + j.val < 16 then match line with
      | some l => l ⟨base + j.val, h⟩
      | none => instNop
      else instNop
    pf := fun j => if base + j.val < 16 then line.isNone else false
    valid := fun j => decide (base + j.val < 16) }

end Verif.ICache

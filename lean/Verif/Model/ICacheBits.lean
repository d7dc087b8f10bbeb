import Verif.Model.ICache
import Verif.Model.TlbKernel

/-
The instruction cache's module as it runs: `ICache::comb_via_compact_io_generator`
(front-end/icache/icache_module.cpp:722-750) writes the registers and inputs into an array of bits, calls
`compact_io_generator` (icache_module.cpp:631-656), which reads them back into a fresh module, runs `comb_core` on it and
writes the results into a second array, which the caller reads back.

The records of icache_module.h are kept field by field, with the values a field has when its valid flag is off.
Configuration: include/config.h, look-up latency 0 (icache_module.h:61-67).

Simplifications: a field of one bit is a `Bool`; every other field is a 32-bit number, though its C type may be
narrower; `txid_inflight_r[x & 0xF]` is read and written at `txn x`.  The run of `comb_core` on a copy of the module for
the performance counters (icache_module.cpp:723-724, 748-749), the counters and the traces are left out.
-/
namespace Verif.ICacheBits
open Verif.ICache (W32 Line Tx)
open Verif.TlbKernel (Bits Reader putBit putUint getBit getUint getMany)

/-! ## The records -/

/-- `ICache_regs_t`, icache_module.h:127-160; `axi`: `mem_axi_state`. -/
structure RRegs where
  reqV : Bool := false
  reqPc : W32 := 0#32
  reqIdx : W32 := 0#32
  ready : Bool := true
  st : W32 := 0#32
  axi : Bool := false
  resp : Line := fun _ => 0#32
  repl : W32 := 0#32
  ppn : W32 := 0#32
  txV : Bool := false
  tx : W32 := 0#32
  seen : Bool := false
  infl : Tx → Bool := fun _ => false
  canc : Tx → Bool := fun _ => false
  pInfl : Bool := false
  pDone : Bool := false
  pHit : Bool := false
  pWord : W32 := 0#32
  pData : Line := fun _ => 0#32
  lookP : Bool := false
  lookIdx : W32 := 0#32
  lookPc : W32 := 0#32

/-- `ICache_in_t`, icache_module.h:179-204, without `ifu_resp_ready`, which nothing reads. -/
structure RIn where
  pc : W32 := 0#32
  reqV : Bool := false
  refetch : Bool := false
  flush : Bool := false
  ppn : W32 := 0#32
  ppnV : Bool := false
  fault : Bool := false
  mReady : Bool := false
  mAcc : Bool := false
  mAccId : W32 := 0#32
  mRespV : Bool := false
  mRespId : W32 := 0#32
  mResp : Line := fun _ => 0#32
  dcV : Bool := false
  dcMiss : Bool := true
  dcData : W32 := 0#32

/-- `ICache_lookup_in_t`, icache_module.h:113-122. -/
structure RLook where
  metaV : Bool := false
  tag : Fin 8 → W32 := fun _ => 0#32
  val : Fin 8 → Bool := fun _ => false
  dataV : Bool := false
  dataWay : W32 := 0#32
  dataLine : Line := fun _ => 0#32

/-- `PackedLookupMetaInput`, icache_module.cpp:331-337; the members `lookup_meta_*_w` of the module. -/
structure RMeta where
  respV : Bool := false
  hitV : Bool := false
  hitWay : W32 := 0#32
  hasInv : Bool := false
  firstInv : W32 := 0#32
  deriving DecidableEq

/-- `ICache_out_t`, icache_module.h:206-233. -/
structure ROut where
  miss : Bool := false
  respV : Bool := false
  ready : Bool := false
  respPc : W32 := 0#32
  rd : Line := fun _ => 0#32
  fault : Bool := false
  ppnReady : Bool := false
  mmuV : Bool := false
  mmuVtag : W32 := 0#32
  memV : Bool := false
  memAddr : W32 := 0#32
  memId : W32 := 0#32
  memRespReady : Bool := false
  dcV : Bool := false
  dcAddr : W32 := 0#32
  dataV : Bool := false
  dataIdx : W32 := 0#32
  dataWay : W32 := 0#32

/-- `ICache_table_write_t`, icache_module.h:169-177. -/
structure RTw where
  we : Bool := false
  inval : Bool := false
  idx : W32 := 0#32
  way : W32 := 0#32
  data : Line := fun _ => 0#32
  tag : W32 := 0#32
  valid : Bool := false

/-! ## `comb_core` -/

/-- An index into `txid_inflight_r` or `txid_canceled_r`: `x & 0xF`. -/
def txn (v : W32) : Tx := ⟨v.toNat % 16, Nat.mod_lt _ (by decide)⟩

/-- An assignment to an element of these. -/
def setT (f : Tx → Bool) (v : W32) (b : Bool) : Tx → Bool := fun u => if u = txn v then b else f u

/-- What `comb_core` works on: the members of the module that it writes, and the results; `stN`: `state_next`, `axiN`:
`mem_axi_state_next`, `gnt`: `mem_gnt`, `respW`: `mem_resp_data_w`, `replN`: `replace_idx_next`, `rdy`: `req_ready_w`,
`fast`: `fast_bypass_fire`. -/
structure Wk where
  rw : RRegs
  o : ROut
  tw : RTw
  rdy : Bool := false
  fast : Bool := false
  stN : W32
  axiN : Bool
  gnt : Bool := false
  respW : Line := fun _ => 0#32
  replN : W32 := 0#32

/-- The beginnings of `comb_core`, icache_module.cpp:752-776, and of `eval_state_machine`, 963-997, on a fresh module. -/
def Wk.start (r : RRegs) (i : RIn) : Wk where
  rw := r
  o := { ready := r.ready, respPc := r.reqPc, memId := if r.txV then r.tx else 0#32
         memAddr := (r.ppn <<< 12) ||| (r.reqIdx <<< 6)
         mmuVtag := if r.lookP then r.lookPc >>> 12 else if r.reqV then r.reqPc >>> 12 else i.pc >>> 12 }
  tw := { inval := i.flush }
  stN := r.st
  axiN := r.axi

/-- `canceled_resp`, icache_module.cpp:999-1000. -/
def cancR (r : RRegs) (i : RIn) : Bool := i.mRespV && r.canc (txn i.mRespId)

/-- `same_cycle_accept_resp_candidate`, icache_module.cpp:1001-1007. -/
def sameR (r : RRegs) (i : RIn) : Bool :=
  i.mRespV && r.st == 1#32 && !r.axi && r.txV && (i.mRespId &&& 0xF#32) == (r.tx &&& 0xF#32) && i.mAcc
    && (i.mAccId &&& 0xF#32) == (r.tx &&& 0xF#32)

/-- `active_resp`, icache_module.cpp:1008-1013. -/
def activeR (r : RRegs) (i : RIn) : Bool :=
  i.mRespV && r.txV && (i.mRespId &&& 0xF#32) == r.tx && (r.infl (txn i.mRespId) || sameR r i) && !cancR r i

/-- `orphan_resp`, icache_module.cpp:1014-1016. -/
def orphanR (r : RRegs) (i : RIn) : Bool := i.mRespV && !activeR r i && !cancR r i && !r.infl (txn i.mRespId)

/-- The body of both `if`s, icache_module.cpp:1018-1027. -/
def Wk.forget (w : Wk) (i : RIn) : Wk :=
  { w with o := { w.o with memRespReady := true }
           rw := { w.rw with canc := setT w.rw.canc i.mRespId false, infl := setT w.rw.infl i.mRespId false } }

/-- Answers that are thrown away, icache_module.cpp:1018-1027. -/
def Wk.drop (w : Wk) (r : RRegs) (i : RIn) : Wk :=
  let w := if cancR r i then w.forget i else w
  if orphanR r i then w.forget i else w

/-- `reset_dcache_probe_regs`, icache_module.cpp:1029-1037. -/
def Wk.noProbe (w : Wk) : Wk :=
  { w with rw := { w.rw with pInfl := false, pDone := false, pHit := false, pWord := 0#32, pData := fun _ => 0#32 } }

/-- The miss is over: assignments repeated at icache_module.cpp:1136-1142, 1361-1366, 1378-1383, 1461-1465, 1503-1507. -/
def Wk.noMiss (w : Wk) : Wk :=
  ({ w with stN := 0#32, axiN := false, rw := { w.rw with txV := false, seen := false } } : Wk).noProbe

/-- `icache_line_base_addr`, icache_module.cpp:135-137. -/
def lineBase (ppn index : W32) : W32 := (ppn <<< 12) ||| (index <<< 6)

/-- `DcacheProbeStep`, icache_module.cpp:1039-1043. -/
structure PStep where
  done : Bool
  hit : Bool
  line : Line

/-- Element `v` of a line is `d`; nothing if there is no such element (the word is read from four bits, so there is). -/
def setW (f : Line) (v : W32) (d : W32) : Line := fun j => if v = BitVec.ofNat 32 j.val then d else f j

/-- `step_dcache_probe`, icache_module.cpp:1045-1090. -/
def probeR (r : RRegs) (i : RIn) (w : Wk) : Wk × PStep :=
  let w := if !r.pDone && !r.pInfl && decide (r.pWord.toNat < 16) && r.reqV then
      { w with o := { w.o with dcV := true, dcAddr := lineBase r.ppn r.reqIdx + r.pWord * 4#32 }
               rw := { w.rw with pInfl := true } }
    else w
  if r.pInfl && i.dcV then
    let w : Wk := { w with rw := { w.rw with pInfl := false } }
    if i.dcMiss then ({ w with rw := { w.rw with pDone := true, pHit := false } }, ⟨true, false, r.pData⟩)
    else
      let w : Wk := { w with rw := { w.rw with pHit := true, pData := setW w.rw.pData r.pWord i.dcData } }
      let line := setW r.pData r.pWord i.dcData
      if (r.pWord + 1#32).toNat ≥ 16 then ({ w with rw := { w.rw with pDone := true } }, ⟨true, true, line⟩)
      else ({ w with rw := { w.rw with pWord := r.pWord + 1#32 } }, ⟨r.pDone, true, line⟩)
  else (w, ⟨r.pDone, r.pHit, r.pData⟩)

/-- What `capture_lookup_meta_result` leaves, icache_module.cpp:788-815: `lookup_hit_valid_w`, `lookup_hit_way_w`,
`lookup_has_invalid_way_w`, `lookup_first_invalid_way_w`. -/
structure Cap where
  hit : Bool := false
  way : W32 := 0#32
  inv : Bool := false
  first : W32 := 0#32

/-- `capture_lookup_meta_result` of a module with a look-up done beforehand, icache_module.cpp:788-815. -/
def capMeta (m : RMeta) (cmp : Bool) : Cap :=
  if !m.respV then {}
  else
    let inv := m.hasInv && decide (m.firstInv.toNat < 8)
    let hit := cmp && m.hitV && decide (m.hitWay.toNat < 8)
    { inv := inv, first := if inv then m.firstInv else 0#32, hit := hit, way := if hit then m.hitWay else 0#32 }

/-- `lookup_data_ready_w`, `capture_lookup_data_result`, icache_module.cpp:837-851. -/
def capData (allow : Bool) (l : RLook) (c : Cap) : Bool := allow && c.hit && l.dataV && l.dataWay == c.way

/-- `latch_mem_refill`, icache_module.cpp:1092-1131. -/
def latchR (r : RRegs) (i : RIn) (m : RMeta) (w : Wk) : Wk :=
  let c := capMeta m false
  { w with gnt := true, respW := i.mResp, replN := if c.inv then c.first else (r.repl + 1#32) % 8#32 }

/-- `finish_refill`, icache_module.cpp:1133-1177. -/
def finishR (r : RRegs) (i : RIn) (w : Wk) (line : Line) (way : W32) : Wk :=
  let w : Wk := if r.txV then { w with rw := { w.rw with infl := setT w.rw.infl r.tx false } } else w
  let w := w.noMiss
  let w : Wk := if !i.flush then
      { w with tw := { w.tw with we := true, idx := r.reqIdx, way := way, data := line, tag := r.ppn, valid := true } }
    else w
  let w : Wk := if !i.refetch && !i.flush then { w with o := { w.o with respV := true, rd := line } } else w
  { w with rdy := true }

/-- `alloc_free_txid`, icache_module.cpp:126-133; -1 is `none`. -/
def allocR (r : RRegs) : Option W32 := ((List.finRange 16).find? (fun t => !r.infl t)).map fun t => BitVec.ofNat 32 t.val

/-- `IDLE` behind the bypass, icache_module.cpp:1230-1317. -/
def regR (allow : Bool) (r : RRegs) (i : RIn) (m : RMeta) (l : RLook) (w : Wk) : Wk :=
  if r.reqV && i.ppnV then
    if i.fault then
      { w with o := { w.o with rd := fun _ => 0#32, respV := true, fault := true }, rdy := true, stN := 0#32 }
    else
      let c := capMeta m true
      let d := capData allow l c
      let w : Wk := { w with o := { w.o with respV := c.hit && d }, rdy := c.hit && d }
      let w : Wk :=
        if c.hit && d then { w with o := { w.o with rd := l.dataLine }, stN := 0#32 }
        else if c.hit then { w with o := { w.o with dataV := true, dataIdx := r.reqIdx, dataWay := c.way }, stN := 0#32 }
        else match (if r.txV then some r.tx else allocR r) with
          | none => { w with stN := 0#32, rdy := false }
          | some t =>
            let w : Wk := ({ w with rw := { w.rw with ppn := i.ppn } } : Wk).noProbe
            { w with rw := { w.rw with txV := true, tx := t &&& 0xF#32, seen := false }, stN := 1#32 }
      { w with o := { w.o with ppnReady := r.reqV } }
  else if r.reqV && !i.ppnV then { w with rdy := false, stN := 0#32, o := { w.o with ppnReady := r.reqV } }
  else { w with rdy := true, stN := 0#32, o := { w.o with ppnReady := r.reqV } }

/-- `IDLE`, icache_module.cpp:1180-1317. -/
def idleR (allow : Bool) (r : RRegs) (i : RIn) (m : RMeta) (l : RLook) (w : Wk) : Wk :=
  if i.refetch then { w with stN := 0#32, rdy := true }
  else if !r.reqV && i.reqV && i.ppnV then
    let w : Wk := { w with o := { w.o with respPc := i.pc } }
    if i.fault then
      { w with o := { w.o with rd := fun _ => 0#32, respV := true, fault := true }, rdy := true, fast := true, stN := 0#32 }
    else
      let c := capMeta m true
      let d := capData allow l c
      if c.hit && d then
        { w with o := { w.o with rd := l.dataLine, respV := true, fault := false }, rdy := true, fast := true, stN := 0#32 }
      else if c.hit then
        { w with o := { w.o with dataV := true, dataIdx := (i.pc >>> 6) &&& 63#32, dataWay := c.way }, rdy := false, stN := 0#32 }
      else regR allow r i m l w
  else regR allow r i m l w

/-- The answer comes before the probe is done, icache_module.cpp:1412-1417 and 1447-1452. -/
def awaitR (r : RRegs) (w : Wk) : Wk :=
  { w with stN := 2#32, axiN := false, rdy := false
           rw := { w.rw with infl := setT w.rw.infl r.tx false, txV := false, seen := false } }

/-- `req_ready_seen_now`, icache_module.cpp:1323-1325. -/
def seenNow (r : RRegs) (i : RIn) : Bool := !r.axi && i.mReady && r.txV

/-- `req_accepted_now`, icache_module.cpp:1330-1333. -/
def accNowR (r : RRegs) (i : RIn) : Bool := !r.axi && i.mAcc && (i.mAccId &&& 0xF#32) == (r.tx &&& 0xF#32) && r.txV

/-- `SWAP_IN` with `kill_pipe`, icache_module.cpp:1350-1389. -/
def swapKillR (r : RRegs) (i : RIn) (w : Wk) : Wk :=
  let inflight := r.txV && (r.axi || accNowR r i)
  let waiting := r.txV && !inflight && (r.seen || seenNow r i)
  if inflight then
    let w : Wk := { w with rw := { w.rw with canc := setT w.rw.canc r.tx true, infl := setT w.rw.infl r.tx true } }
    { w.noMiss with rdy := true }
  else if waiting then ({ w with stN := 4#32, axiN := false, rdy := false } : Wk).noProbe
  else { w.noMiss with rdy := true }

/-- `SWAP_IN`, icache_module.cpp:1319-1457. -/
def swapR (r : RRegs) (i : RIn) (m : RMeta) (w : Wk) : Wk :=
  let p := probeR r i w
  let w := p.1
  let w : Wk := if seenNow r i then { w with rw := { w.rw with seen := true } } else w
  if i.refetch then swapKillR r i w
  else if !r.axi then
    let w : Wk := { w with o := { w.o with memAddr := (r.ppn <<< 12) ||| (r.reqIdx <<< 6), memId := r.tx }, stN := 1#32 }
    if i.mAcc && (i.mAccId &&& 0xF#32) == (r.tx &&& 0xF#32) then
      let w : Wk := { w with o := { w.o with memV := false } }
      if activeR r i then
        let w := latchR r i m { w with o := { w.o with memRespReady := true } }
        let p := probeR r i w
        let w := p.1
        if !p.2.done then awaitR r w else finishR r i w (if p.2.hit then p.2.line else w.respW) w.replN
      else { w with axiN := true, rw := { w.rw with infl := setT w.rw.infl r.tx true } }
    else { w with o := { w.o with memV := true }, axiN := false }
  else
    let w : Wk := { w with o := { w.o with memV := false, memRespReady := w.o.memRespReady || activeR r i }, stN := 1#32 }
    let w : Wk := { w with gnt := activeR r i && w.o.memRespReady }
    if w.gnt then
      let w := latchR r i m w
      if !p.2.done then awaitR r w else finishR r i w (if p.2.hit then p.2.line else w.respW) w.replN
    else w

/-- `WAIT_DCACHE_AFTER_MEM`, icache_module.cpp:1459-1492. -/
def waitR (r : RRegs) (i : RIn) (w : Wk) : Wk :=
  if i.refetch then { w.noMiss with rdy := true }
  else
    let p := probeR r i w
    let w := p.1
    if !p.2.done then { w with stN := 2#32, rdy := false }
    else finishR r i w (if p.2.hit then p.2.line else r.resp) r.repl

/-- `CANCEL_WAIT_ACCEPT`, icache_module.cpp:1494-1514. -/
def cancelR (r : RRegs) (i : RIn) (w : Wk) : Wk :=
  let w : Wk := { w with o := { w.o with memV := false, memRespReady := true } }
  let w : Wk := if i.mAcc && r.txV && (i.mAccId &&& 0xF#32) == (r.tx &&& 0xF#32) then
      { w with rw := { w.rw with canc := setT w.rw.canc r.tx true, infl := setT w.rw.infl r.tx true } }
    else w
  { w.noMiss with rdy := true }

/-- `DRAIN`, icache_module.cpp:1516-1553 (`mem_wait_must_drain_on_refetch` is true, 8-10). -/
def drainR (r : RRegs) (i : RIn) (w : Wk) : Wk :=
  let w : Wk := { w with o := { w.o with memRespReady := true, memV := false } }
  if i.mRespV then
    let w : Wk := { w with axiN := false, stN := 0#32 }
    let w : Wk := if r.txV then
        { w with rw := { w.rw with infl := setT w.rw.infl r.tx false, canc := setT w.rw.canc r.tx false, txV := false } }
      else w
    let w : Wk := ({ w with rw := { w.rw with seen := false } } : Wk).noProbe
    { w with rdy := true }
  else { w with stN := 3#32, rdy := false }

/-- The end of `eval_state_machine`, icache_module.cpp:1562-1581. -/
def Wk.latch (w : Wk) (r : RRegs) (i : RIn) : Wk :=
  let w : Wk := { w with rw := { w.rw with st := w.stN, axi := w.axiN } }
  let w : Wk := if i.ppnV && w.o.ppnReady then { w with rw := { w.rw with ppn := i.ppn } } else w
  let w : Wk := { w with rw := { w.rw with ready := w.rdy } }
  if r.st == 1#32 && w.gnt then { w with rw := { w.rw with resp := w.respW, repl := w.replN } } else w

/-- `eval_state_machine`, icache_module.cpp:963-1582; `none`: `exit(1)`. -/
def evalR (allow : Bool) (r : RRegs) (i : RIn) (m : RMeta) (l : RLook) : Option Wk :=
  let w := (Wk.start r i).drop r i
  let w : Option Wk :=
    if r.st = 0#32 then some (idleR allow r i m l w)
    else if r.st = 1#32 then some (swapR r i m w)
    else if r.st = 2#32 then some (waitR r i w)
    else if r.st = 3#32 then some (drainR r i w)
    else if r.st = 4#32 then some (cancelR r i w)
    else none
  w.map fun w => w.latch r i

/-- `icache_req_slot_idle`, icache_module.cpp:119-124. -/
def slotIdleR (r : RRegs) : Bool := !r.reqV && r.st == 0#32 && !r.axi && !r.txV

/-- `lookup`, icache_module.cpp:860-961, with latency 0, and the last line of `comb_core`, 785. -/
def lookupR (r : RRegs) (i : RIn) (w : Wk) : Wk :=
  let index := (i.pc >>> 6) &&& 63#32
  if i.refetch then
    { w with rdy := false
             o := { w.o with mmuV := false, ready := false }
             rw := { w.rw with reqV := false, lookP := false, lookIdx := 0#32, lookPc := 0#32, ready := false } }
  else if w.fast then
    { w with o := { w.o with mmuV := false, ready := w.rdy }
             rw := { w.rw with reqV := false, lookP := false, lookIdx := 0#32, lookPc := 0#32, ready := true } }
  else
    let loadPc := if r.lookP then r.lookPc else i.pc
    let acc := i.reqV && w.rdy && !r.lookP && slotIdleR r
    let v := if acc then true else if w.rdy then false else r.reqV
    let rw : RRegs := { w.rw with reqV := v, lookP := false, lookIdx := 0#32, lookPc := 0#32, ready := w.rdy && !r.lookP && !v }
    let rw : RRegs := if acc then { rw with reqPc := loadPc, reqIdx := index } else rw
    let o : ROut := { w.o with mmuV := false }
    let o : ROut :=
      if acc then { o with mmuV := true, mmuVtag := i.pc >>> 12 }
      else if r.lookP && !i.ppnV then { o with mmuV := true, mmuVtag := r.lookPc >>> 12 }
      else if r.reqV && !i.ppnV then { o with mmuV := true, mmuVtag := r.reqPc >>> 12 }
      else o
    { w with rw := rw, o := { o with ready := w.rdy } }

/-- `comb_core`, icache_module.cpp:752-786. -/
def coreR (allow : Bool) (r : RRegs) (i : RIn) (m : RMeta) (l : RLook) : Option (RRegs × ROut × RTw) :=
  (evalR allow r i m l).map fun w => ((lookupR r i w).rw, (lookupR r i w).o, (lookupR r i w).tw)

/-! ## Fields into bits and back

`write_packed_uint`, `read_packed_uint`, `write_packed_bit` and `read_packed_bit` (icache_module.cpp:139-164) with a
position that moves on are `putUint`, `getUint`, `putBit` and `getBit` of Model/TlbKernel (no field is wider than 32
bits). -/

/-- `icache_constexpr_ceil_log2`, icache_module.h:75-79. -/
def ceilLog2 (v : Nat) : Nat → Nat → Nat
  | 0, width => width
  | fuel + 1, width => if v ≤ 2 ^ width then width else ceilLog2 v fuel (width + 1)

/-- `kPackedPcWordWidth`, icache_module.h:262. -/
def kPc : Nat := 32
/-- `kPackedLineAddrWidth`, icache_module.h:263. -/
def kLineAddr : Nat := 32 - 6
/-- `kPackedWayWidth`, icache_module.h:264, 93-94. -/
def kWay : Nat := ceilLog2 8 32 0
/-- `kPackedWordIndexWidth`, icache_module.h:265, 95-96. -/
def kWord : Nat := ceilLog2 16 32 0
/-- `kPackedLineDataWidth`, icache_module.h:266-267. -/
def kLine : Nat := 16 * 32
/-- `ICACHE_V1_TAG_BITS`, icache_module.h:91; include/config.h:294. -/
def kTag : Nat := 32 - 6 - 6
/-- `ICACHE_V1_INDEX_BITS`, icache_module.h:85; include/config.h:291. -/
def kIdx : Nat := 12 - 6
/-- `kPackedRawLookupMetaWidth`, icache_module.h:268-269. -/
def kRawMeta : Nat := 1 + 8 * (kTag + 1)
/-- `kPackedLookupMetaWidth`, icache_module.h:270-273. -/
def kMeta : Nat := 1 + 1 + kWay + 1 + kWay
/-- `kLookupMetaPackPiWidth`, icache_module.h:274-277. -/
def kMetaPi : Nat := 1 + kTag + kRawMeta
/-- `kLookupMetaPackPoWidth`, icache_module.h:278. -/
def kMetaPo : Nat := kMeta
/-- `kPackedRegsWidth`, icache_module.h:280-295. -/
def kRegs : Nat := 1 + kPc + 1 + 3 + 1 + kLine + kWay + kTag + 1 + 4 + 1 + 16 + 16 + 1 + 1 + 1 + kWord + kLine + 1 + kPc
/-- `kPackedInputWidth`, icache_module.h:297-310. -/
def kIn : Nat := 1 + kPc + 1 + 1 + 1 + kTag + 1 + 1 + 1 + 1 + 4 + 1 + 4 + kLine + 1 + 1 + 32
/-- `kPackedLookupInWidth`, icache_module.h:312-315. -/
def kLook : Nat := kMeta + 1 + kWay + kLine
/-- `kPackedOutWidth`, icache_module.h:317-329. -/
def kOut : Nat := 1 + 1 + 1 + kPc + kLine + 1 + 1 + 1 + kTag + 1 + kLineAddr + 4 + 1 + 1 + kPc + 1 + kIdx + kWay
/-- `kPackedTableWriteWidth`, icache_module.h:331-337. -/
def kTw : Nat := 1 + 1 + kIdx + kWay + kLine + kTag + 1
/-- `kCompactPiWidth`, icache_module.h:339-340. -/
def kPi : Nat := kRegs + kIn + kLook
/-- `kCompactPoWidth`, icache_module.h:341-342. -/
def kPo : Nat := kRegs + kOut + kTw

/-- Writing at position `at` of an array; `none`: past its end. -/
def poke (a : Bits) (pos : Nat) (b : Bits) : Option Bits :=
  if pos + b.length ≤ a.length then some (a.take pos ++ b ++ a.drop (pos + b.length)) else none

/-- Reading at position `at` of an array; `none`: past its end. -/
def peekAt (a : Bits) (pos : Nat) (g : Reader α) : Option α := (g (a.drop pos)).map (·.1)

/-- `write_packed_line`, icache_module.cpp:187-192. -/
def putLine (l : Line) : Bits := (List.finRange 16).flatMap fun j => putUint (l j) 32

/-- `read_packed_line`, icache_module.cpp:180-185. -/
def getLine : Reader Line := do
  let l ← getMany (getUint 32) 16
  return fun j => l.getD j.val 0#32

/-- Sixteen bits, icache_module.cpp:256-261. -/
def putSet (f : Tx → Bool) : Bits := (List.finRange 16).flatMap fun t => putBit (f t)

/-- Sixteen bits, icache_module.cpp:219-224. -/
def getSet : Reader (Tx → Bool) := do
  let l ← getMany getBit 16
  return fun t => l.getD t.val false

/-- The index of a set, icache_module.cpp:201-203 and 234-236. -/
def idxR (pc : W32) : W32 := (pc >>> 6) &&& 63#32

/-- `encode_packed_regs`, icache_module.cpp:238-273. -/
def putRegs (r : RRegs) : Bits :=
  putBit r.reqV ++ putUint r.reqPc kPc ++ putBit r.ready ++ putUint r.st 3 ++ putBit r.axi ++ putLine r.resp
    ++ putUint r.repl kWay ++ putUint r.ppn kTag ++ putBit r.txV ++ putUint r.tx 4 ++ putBit r.seen ++ putSet r.infl
    ++ putSet r.canc ++ putBit r.pInfl ++ putBit r.pDone ++ putBit r.pHit ++ putUint r.pWord kWord ++ putLine r.pData
    ++ putBit r.lookP ++ putUint r.lookPc kPc

/-- `decode_packed_regs`, icache_module.cpp:194-236. -/
def getRegs : Reader RRegs := do
  let reqV ← getBit
  let reqPc ← getUint kPc
  let ready ← getBit
  let st ← getUint 3
  let axi ← getBit
  let resp ← getLine
  let repl ← getUint kWay
  let ppn ← getUint kTag
  let txV ← getBit
  let tx ← getUint 4
  let seen ← getBit
  let infl ← getSet
  let canc ← getSet
  let pInfl ← getBit
  let pDone ← getBit
  let pHit ← getBit
  let pWord ← getUint kWord
  let pData ← getLine
  let lookP ← getBit
  let lookPc ← getUint kPc
  return { reqV, reqPc, reqIdx := idxR reqPc, ready, st, axi, resp, repl, ppn, txV, tx, seen, infl, canc, pInfl, pDone, pHit,
           pWord, pData, lookP, lookIdx := idxR lookPc, lookPc }

/-- `encode_packed_input`, icache_module.cpp:275-300. -/
def putIn (allow : Bool) (i : RIn) : Bits :=
  putBit allow ++ putUint i.pc kPc ++ putBit i.reqV ++ putBit i.refetch ++ putBit i.flush ++ putUint i.ppn kTag
    ++ putBit i.ppnV ++ putBit i.fault ++ putBit i.mReady ++ putBit i.mAcc ++ putUint i.mAccId 4 ++ putBit i.mRespV
    ++ putUint i.mRespId 4 ++ putLine i.mResp ++ putBit i.dcV ++ putBit i.dcMiss ++ putUint i.dcData 32

/-- `decode_packed_input`, icache_module.cpp:302-329. -/
def getIn : Reader (Bool × RIn) := do
  let allow ← getBit
  let pc ← getUint kPc
  let reqV ← getBit
  let refetch ← getBit
  let flush ← getBit
  let ppn ← getUint kTag
  let ppnV ← getBit
  let fault ← getBit
  let mReady ← getBit
  let mAcc ← getBit
  let mAccId ← getUint 4
  let mRespV ← getBit
  let mRespId ← getUint 4
  let mResp ← getLine
  let dcV ← getBit
  let dcMiss ← getBit
  let dcData ← getUint 32
  return (allow, { pc, reqV, refetch, flush, ppn, ppnV, fault, mReady, mAcc, mAccId, mRespV, mRespId, mResp, dcV, dcMiss, dcData })

/-- `RawLookupMetaPackInput`, icache_module.cpp:339-345. -/
structure RawMeta where
  cmp : Bool
  cmpTag : W32
  respV : Bool
  tag : Fin 8 → W32
  val : Fin 8 → Bool

/-- `encode_raw_lookup_meta_pack_input`, icache_module.cpp:440-453. -/
def putRawMeta (cmp : Bool) (cmpTag : W32) (l : RLook) : Bits :=
  putBit cmp ++ putUint cmpTag kTag ++ putBit l.metaV
    ++ (List.finRange 8).flatMap fun w => putUint (l.tag w) kTag ++ putBit (l.val w)

/-- `decode_raw_lookup_meta_pack_input`, icache_module.cpp:347-360. -/
def getRawMeta : Reader RawMeta := do
  let cmp ← getBit
  let cmpTag ← getUint kTag
  let respV ← getBit
  let l ← getMany (do let t ← getUint kTag; let v ← getBit; return (t, v)) 8
  return { cmp, cmpTag, respV, tag := fun w => (l.getD w.val (0#32, false)).1, val := fun w => (l.getD w.val (0#32, false)).2 }

/-- The body of the loop of `pack_lookup_meta_input`, icache_module.cpp:370-383. -/
def packWay (x : RawMeta) (m : RMeta) (w : Fin 8) : RMeta :=
  let m := if !x.val w && !m.hasInv then { m with hasInv := true, firstInv := BitVec.ofNat 32 w.val } else m
  if !x.cmp || m.hitV || !x.val w then m
  else if x.tag w != x.cmpTag then m
  else { m with hitV := true, hitWay := BitVec.ofNat 32 w.val }

/-- `pack_lookup_meta_input`, icache_module.cpp:362-385. -/
def packMeta (x : RawMeta) : RMeta :=
  let m : RMeta := { respV := x.respV }
  if !x.respV then m else (List.finRange 8).foldl (packWay x) m

/-- `encode_packed_lookup_meta`, icache_module.cpp:387-396. -/
def putMeta (m : RMeta) : Bits :=
  putBit m.respV ++ putBit m.hitV ++ putUint m.hitWay kWay ++ putBit m.hasInv ++ putUint m.firstInv kWay

/-- `lookup_meta_compare_context`, icache_module.cpp:398-438, with latency 0: `compare_valid`, `compare_tag`. -/
def metaCtx (r : RRegs) (i : RIn) : Bool × W32 :=
  let kill := i.refetch || i.flush
  if r.st == 0#32 && !kill && !r.reqV && i.reqV && i.ppnV && !i.fault then (true, i.ppn &&& 0xFFFFF#32)
  else if r.st == 0#32 && !kill && r.reqV && i.ppnV && !i.fault then (true, i.ppn &&& 0xFFFFF#32)
  else if r.st == 1#32 && !kill && r.axi then
    let canceled := i.mRespV && r.canc (txn i.mRespId)
    let active := i.mRespV && r.txV && (i.mRespId &&& 0xF#32) == (r.tx &&& 0xF#32) && r.infl (txn i.mRespId) && !canceled
    (false, if active then r.ppn &&& 0xFFFFF#32 else 0#32)
  else (false, 0#32)

/-- `lookup_meta_pack_io_generator`, icache_module.cpp:662-667. -/
def metaGen (pi : Bits) : Option Bits := do
  let x ← peekAt pi 0 getRawMeta
  poke (List.replicate kMetaPo false) 0 (putMeta (packMeta x))

/-- `encode_packed_lookup_input_for_runtime`, icache_module.cpp:476-492. -/
def putLook (r : RRegs) (i : RIn) (l : RLook) : Option Bits := do
  let pi ← poke (List.replicate kMetaPi false) 0 (putRawMeta (metaCtx r i).1 (metaCtx r i).2 l)
  let po ← metaGen pi
  if po.length < kMeta then none
  else return po.take kMeta ++ putBit l.dataV ++ putUint l.dataWay kWay ++ putLine l.dataLine

/-- `decode_packed_lookup_input`, icache_module.cpp:455-474. -/
def getLook : Reader (RMeta × RLook) := do
  let respV ← getBit
  let hitV ← getBit
  let hitWay ← getUint kWay
  let hasInv ← getBit
  let firstInv ← getUint kWay
  let dataV ← getBit
  let dataWay ← getUint kWay
  let dataLine ← getLine
  return ({ respV, hitV, hitWay, hasInv, firstInv }, { metaV := respV, dataV, dataWay, dataLine })

/-- `encode_packed_out`, icache_module.cpp:494-523. -/
def putOut (o : ROut) : Bits :=
  putBit o.miss ++ putBit o.respV ++ putBit o.ready ++ putUint o.respPc kPc ++ putLine o.rd ++ putBit o.fault
    ++ putBit o.ppnReady ++ putBit o.mmuV ++ putUint o.mmuVtag kTag ++ putBit o.memV ++ putUint (o.memAddr >>> 6) kLineAddr
    ++ putUint o.memId 4 ++ putBit o.memRespReady ++ putBit o.dcV ++ putUint o.dcAddr kPc ++ putBit o.dataV
    ++ putUint o.dataIdx kIdx ++ putUint o.dataWay kWay

/-- `decode_packed_out`, icache_module.cpp:525-554. -/
def getOut : Reader ROut := do
  let miss ← getBit
  let respV ← getBit
  let ready ← getBit
  let respPc ← getUint kPc
  let rd ← getLine
  let fault ← getBit
  let ppnReady ← getBit
  let mmuV ← getBit
  let mmuVtag ← getUint kTag
  let memV ← getBit
  let memLine ← getUint kLineAddr
  let memId ← getUint 4
  let memRespReady ← getBit
  let dcV ← getBit
  let dcAddr ← getUint kPc
  let dataV ← getBit
  let dataIdx ← getUint kIdx
  let dataWay ← getUint kWay
  return { miss, respV, ready, respPc, rd, fault, ppnReady, mmuV, mmuVtag, memV, memAddr := memLine <<< 6, memId, memRespReady, dcV,
           dcAddr, dataV, dataIdx, dataWay }

/-- `encode_packed_table_write`, icache_module.cpp:556-569. -/
def putTw (t : RTw) : Bits :=
  putBit t.we ++ putBit t.inval ++ putUint t.idx kIdx ++ putUint t.way kWay ++ putLine t.data ++ putUint t.tag kTag ++ putBit t.valid

/-- `decode_packed_table_write`, icache_module.cpp:571-585. -/
def getTw : Reader RTw := do
  let we ← getBit
  let inval ← getBit
  let idx ← getUint kIdx
  let way ← getUint kWay
  let data ← getLine
  let tag ← getUint kTag
  let valid ← getBit
  return { we, inval, idx, way, data, tag, valid }

/-- `compact_io_generator`, icache_module.cpp:631-656. -/
def compactGen (pi : Bits) : Option Bits := do
  let r ← peekAt pi 0 getRegs
  let i ← peekAt pi kRegs getIn
  let l ← peekAt pi (kRegs + kIn) getLook
  let x ← coreR i.1 r i.2 l.1 l.2
  let po ← poke (List.replicate kPo false) 0 (putRegs x.1)
  let po ← poke po kRegs (putOut x.2.1)
  poke po (kRegs + kOut) (putTw x.2.2)

/-- `comb_via_compact_io_generator`, icache_module.cpp:722-750: `reg_write`, the outputs and the table write. -/
def packedComb (allow : Bool) (r : RRegs) (i : RIn) (l : RLook) : Option (RRegs × ROut × RTw) := do
  let pi ← poke (List.replicate kPi false) 0 (putRegs r)
  let pi ← poke pi kRegs (putIn allow i)
  let look ← putLook r i l
  let pi ← poke pi (kRegs + kIn) look
  let po ← compactGen pi
  let rw ← peekAt po 0 getRegs
  let o ← peekAt po kRegs getOut
  let tw ← peekAt po (kRegs + kOut) getTw
  return (rw, o, tw)

end Verif.ICacheBits

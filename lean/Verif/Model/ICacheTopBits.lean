import Verif.Model.ICacheBits
import Verif.Model.FetchSys

/-
The instruction cache as it runs: the tables (front-end/icache/icache.cpp), `TrueICacheTopT`
(front-end/icache/ICacheTop.cpp:761-1012) with its bit-packed glue, and the packed module.

The three tables are those of Model/ICache.  A row number out of range cannot be formed from the packed six bits; a way
out of range is `none`.  The reset input, the counters and the traces are left out.
-/
namespace Verif.ICacheBits
open Verif.ICache (W32 Line Tx Tabs Idx Ppn Way)
open Verif.TlbKernel (Bits Reader putBit putUint getBit getUint getMany)
open Verif.Front (Resp instNop)

/-! ## The glue -/

/-- `TrueGlueInput`, ICacheTop.cpp:91-106. -/
structure GIn where
  reset : Bool := false
  hold : Bool := false
  regReady : Bool := false
  lookP : Bool := false
  reqV : Bool := false
  txV : Bool := false
  st : W32 := 0#32
  axi : W32 := 0#32
  modReady : Bool := false
  respV : Bool := false
  respPc : W32 := 0#32
  rd : Line := fun _ => 0#32
  fault : Bool := false

/-- `TrueGlueOutput`, ICacheTop.cpp:108-122, for groups of `W`. -/
structure GOut (W : Nat) where
  ready : Bool := false
  complete : Bool := false
  ready2 : Bool := false
  complete2 : Bool := false
  group : Fin W → W32
  pf : Fin W → Bool := fun _ => false
  valid : Fin W → Bool := fun _ => false
  group2 : Fin W → W32
  pf2 : Fin W → Bool := fun _ => false
  valid2 : Fin W → Bool := fun _ => false
  pc : W32 := 0#32
  pc2 : W32 := 0#32

/-- `ICACHE_TOP_TRUE_GLUE_PI_WIDTH`, ICacheTop.h:67-80. -/
def kGPi : Nat := 1 + 1 + 1 + 1 + 1 + 1 + 3 + 1 + 1 + 1 + 32 + 16 * 32 + 1
/-- `ICACHE_TOP_TRUE_GLUE_PO_WIDTH`, ICacheTop.h:82-91. -/
def kGPo (W : Nat) : Nat := 4 + W * 32 + W + W + W * 32 + W + W + 32 + 32

/-- `encode_true_glue_input`, ICacheTop.cpp:124-141. -/
def putGIn (g : GIn) : Bits :=
  putBit g.reset ++ putBit g.hold ++ putBit g.regReady ++ putBit g.lookP ++ putBit g.reqV ++ putBit g.txV ++ putUint g.st 3
    ++ putUint g.axi 1 ++ putBit g.modReady ++ putBit g.respV ++ putUint g.respPc 32 ++ putLine g.rd ++ putBit g.fault

/-- `decode_true_glue_input`, ICacheTop.cpp:143-162. -/
def getGIn : Reader GIn := do
  let reset ← getBit
  let hold ← getBit
  let regReady ← getBit
  let lookP ← getBit
  let reqV ← getBit
  let txV ← getBit
  let st ← getUint 3
  let axi ← getUint 1
  let modReady ← getBit
  let respV ← getBit
  let respPc ← getUint 32
  let rd ← getLine
  let fault ← getBit
  return { reset, hold, regReady, lookP, reqV, txV, st, axi, modReady, respV, respPc, rd, fault }

/-- `FETCH_WIDTH` words. -/
def putWords {W : Nat} (f : Fin W → W32) : Bits := (List.finRange W).flatMap fun j => putUint (f j) 32
/-- `FETCH_WIDTH` bits. -/
def putBools {W : Nat} (f : Fin W → Bool) : Bits := (List.finRange W).flatMap fun j => putBit (f j)
/-- `FETCH_WIDTH` words. -/
def getWords (W : Nat) : Reader (Fin W → W32) := do
  let l ← getMany (getUint 32) W
  return fun j => l.getD j.val 0#32
/-- `FETCH_WIDTH` bits. -/
def getBools (W : Nat) : Reader (Fin W → Bool) := do
  let l ← getMany getBit W
  return fun j => l.getD j.val false

/-- `encode_true_glue_output`, ICacheTop.cpp:164-190. -/
def putGOut {W : Nat} (g : GOut W) : Bits :=
  putBit g.ready ++ putBit g.complete ++ putBit g.ready2 ++ putBit g.complete2 ++ putWords g.group ++ putBools g.pf
    ++ putBools g.valid ++ putWords g.group2 ++ putBools g.pf2 ++ putBools g.valid2 ++ putUint g.pc 32 ++ putUint g.pc2 32

/-- `decode_true_glue_output`, ICacheTop.cpp:192-220. -/
def getGOut (W : Nat) : Reader (GOut W) := do
  let ready ← getBit
  let complete ← getBit
  let ready2 ← getBit
  let complete2 ← getBit
  let group ← getWords W
  let pf ← getBools W
  let valid ← getBools W
  let group2 ← getWords W
  let pf2 ← getBools W
  let valid2 ← getBools W
  let pc ← getUint 32
  let pc2 ← getUint 32
  return { ready, complete, ready2, complete2, group, pf, valid, group2, pf2, valid2, pc, pc2 }

/-- `eval_true_glue`, ICacheTop.cpp:222-271. -/
def evalGlue (W : Nat) (g : GIn) : GOut W :=
  let out : GOut W := { group := fun _ => instNop, group2 := fun _ => instNop }
  if g.reset then { out with ready := true }
  else
    let busy := g.lookP || g.reqV || g.txV || g.st != 0#32 || g.axi != 0#32
    let out := { out with ready := if g.hold then false else g.regReady && !busy && g.modReady }
    if g.respV then
      let base := (g.respPc &&& 63#32).toNat / 4
      { out with
        complete := true
        pc := g.respPc
        group := fun j => if h : base + j.val < 16 then (if g.fault then instNop else g.rd ⟨base + j.val, h⟩) else instNop
        pf := fun j => if base + j.val < 16 then g.fault else false
        valid := fun j => decide (base + j.val < 16) }
    else out

/-- `run_true_glue_io_generator`, ICacheTop.cpp:273-279, with `icache_top_true_glue_io_generator`, 281-285. -/
def runGlue (W : Nat) (g : GIn) : Option (GOut W) := do
  let pi ← poke (List.replicate kGPi false) 0 (putGIn g)
  let g ← peekAt pi 0 getGIn
  let po ← poke (List.replicate (kGPo W) false) 0 (putGOut (evalGlue W g))
  peekAt po 0 (getGOut W)

/-! ## The cache with its tables -/

/-- The module's registers, its outputs of the last call, and the tables. -/
structure RIC where
  r : RRegs := {}
  o : ROut := {}
  t : Tabs := {}

/-- What the ports show: the inputs of `icache_comb_calc` (`icache_in`, front-end/front_IO.h), the read port
(`MemReadView`, ICacheTop.cpp:382-389), the probe port (`DcacheProbeView`, 391-395), and the MMU's answer to each
address. -/
structure RTop where
  refetch : Bool := false
  fenceI : Bool := false
  inval : Bool := false
  itlbFlush : Bool := false
  reqV : Bool := false
  pc : W32 := 0#32
  mmu : W32 → Tlb.Result := fun _ => .retry
  mReady : Bool := false
  mAcc : Bool := false
  mAccId : W32 := 0#32
  mRespV : Bool := false
  mRespId : W32 := 0#32
  mResp : Line := fun _ => 0#32
  dcV : Bool := false
  dcMiss : Bool := true
  dcData : W32 := 0#32

/-- `make_true_glue_input`, ICacheTop.cpp:654-675. -/
def glueIn (c : RIC) (hold : Bool) : GIn :=
  { hold := hold, regReady := c.r.ready, lookP := c.r.lookP, reqV := c.r.reqV, txV := c.r.txV, st := c.r.st
    axi := if c.r.axi then 1#32 else 0#32, modReady := c.o.ready, respV := c.o.respV, respPc := c.o.respPc, rd := c.o.rd
    fault := c.o.fault }

/-- `peek_ready`, ICacheTop.cpp:785-791, with `comb_visible_ready`, 1021-1027. -/
def peekR (W : Nat) (c : RIC) (hold : Bool) : Option Bool := (runGlue W (glueIn c hold)).map (·.ready)

/-- The row that is read, icache.cpp:283-292. -/
def rowOf (c : RIC) (i : RTop) : W32 :=
  idxR (if c.r.reqV then c.r.reqPc else if c.r.lookP then c.r.lookPc else i.pc)

/-- A row number into the tables. -/
def rowI (x : W32) : Idx := x.setWidth 6

/-- The enable of the tables' reads, icache.cpp:297-301. -/
def readEn (c : RIC) (i : RTop) : Bool := !i.refetch && (i.reqV || c.r.reqV || c.r.lookP)

/-- `icache_fill_lookup_meta_input`, icache.cpp:203-214. -/
def fillMeta (c : RIC) (i : RTop) : RLook :=
  if readEn c i then
    { metaV := true, tag := fun w => (c.t.tag (rowI (rowOf c i)) w).setWidth 32, val := fun w => c.t.valid (rowI (rowOf c i)) w }
  else {}

/-- `icache_fill_lookup_data_input`, icache.cpp:216-238. -/
def fillData (c : RIC) (i : RTop) (l : RLook) (o : ROut) : RLook :=
  if h : o.dataWay.toNat < 8 then
    if o.dataV && readEn c i && rowOf c i == o.dataIdx then
      { l with dataV := true, dataWay := o.dataWay, dataLine := c.t.data (rowI (rowOf c i)) ⟨o.dataWay.toNat, h⟩ }
    else { l with dataV := false, dataWay := 0#32, dataLine := fun _ => 0#32 }
  else { l with dataV := false, dataWay := 0#32, dataLine := fun _ => 0#32 }

/-- The module's inputs before the MMU is asked, ICacheTop.cpp:906-926, with the views of the ports (416-430, 487-496). -/
def modIn (i : RTop) : RIn :=
  { refetch := i.refetch || i.inval || i.fenceI, flush := i.fenceI, pc := i.pc, reqV := i.reqV, mReady := i.mReady, mAcc := i.mAcc
    mAccId := i.mAccId &&& 0xF#32, mRespV := i.mRespV, mRespId := i.mRespId &&& 0xF#32, mResp := i.mResp, dcV := i.dcV
    dcMiss := i.dcMiss, dcData := i.dcData }

/-- `comb_mmu_view`, ICacheTop.cpp:612-645, and `apply_mmu_resp_view`, 647-652; `ask`: `translate_valid` and `vaddr`. -/
def applyMmu (i : RTop) (x : RIn) (valid : Bool) (vaddr : W32) : RIn :=
  if valid then
    match i.mmu vaddr with
    | .ok pa => { x with ppn := pa >>> 12, ppnV := true, fault := false }
    | .fault => { x with ppn := 0#32, ppnV := true, fault := true }
    | .retry => { x with ppn := 0#32, ppnV := false, fault := false }
  else { x with ppn := 0#32, ppnV := false, fault := false }

/-- The table writes, icache.cpp:327-353; `none`: the way is out of range. -/
def writeTabs (t : Tabs) (w : RTw) : Option Tabs :=
  let t : Tabs := if w.inval then { t with valid := fun _ _ => false } else t
  if w.we then
    if h : w.way.toNat < 8 then
      some { tag := fun a b => if a = rowI w.idx ∧ b = ⟨w.way.toNat, h⟩ then w.tag.setWidth 20 else t.tag a b
             valid := fun a b => if a = rowI w.idx ∧ b = ⟨w.way.toNat, h⟩ then w.valid else t.valid a b
             data := fun a b => if a = rowI w.idx ∧ b = ⟨w.way.toNat, h⟩ then w.data else t.data a b }
    else none
  else some t

/-- `icache_comb_calc`, icache.cpp:259-360, with `TrueICacheTopT::comb`, ICacheTop.cpp:864-997, and `seq`, 999-1018:
the outputs, which drive the ports, and the group; `none`: the module has
reported a miss with an answer (957-961), or an array was too short. -/
def rcall (W : Nat) (c : RIC) (i : RTop) : Option (RIC × GOut W) := do
  let l := fillMeta c i
  let (_, o, _) ← packedComb false c.r (modIn i) l
  let x := applyMmu i (modIn i) (!i.refetch && o.mmuV) (o.mmuVtag <<< 12)
  let (_, o, _) ← packedComb false c.r x l
  let (rw, o, tw) ← packedComb true c.r x (fillData c i l o)
  let g ← runGlue W (glueIn { c with o := o } (i.itlbFlush || i.fenceI || i.inval))
  if o.respV && o.miss then none
  let t ← writeTabs c.t tw
  return ({ r := rw, o := o, t := t }, g)

/-- The group the front end is given (`icache_out`, ICacheTop.cpp:963-985). -/
def GOut.resp {W : Nat} (g : GOut W) : Option (Resp W) := if g.complete then some ⟨g.pc, g.group, g.pf, g.valid⟩ else none

/-- A way number. -/
def wayN (v : W32) : Way := ⟨v.toNat % 8, Nat.mod_lt _ (by decide)⟩

/-- What the ports and the front end see of the outputs: the values whose flag is on (ICacheTop.cpp:433-446, 498-506,
675-690). -/
def ROut.abs (o : ROut) : ICache.Out where
  resp := if o.respV then some (o.respPc, if o.fault then none else some o.rd) else none
  mReq := if o.memV then some (o.memAddr, txn o.memId) else none
  mRespReady := o.memRespReady
  probe := if o.dcV then some o.dcAddr else none
  ask := if o.mmuV then some (o.mmuVtag.setWidth 20) else none
  dataReq := if o.dataV then some (o.dataIdx.setWidth 6, wayN o.dataWay) else none
  ready := o.ready

end Verif.ICacheBits

import Verif.Model.Bpu
/-
The direction predictor (front-end/BPU/dir_predictor/TAGE_top.h): a base table of two-bit counters, four tagged tables indexed with
longer and longer folded histories, a corrector table ("SC-lite"), eight corrector tables over history and path ("SC-L") and a loop
table.  One instance serves one bank.

Simplifications.
* The switches `ENABLE_TAGE_USE_ALT_ON_NA`, `ENABLE_TAGE_SC_LITE`, `TAGE_SC_USE_WEAK_ONLY`, `TAGE_SC_STRONG_ONLY_OVERRIDE`,
  `ENABLE_TAGE_SC_L`, `ENABLE_TAGE_SC_PATH` and `ENABLE_TAGE_LOOP_PRED` are taken as committed, all on
  (config/frontend_feature_config.h:87-145).  Sizes and thresholds are a parameter.
* The registers of the older multi-cycle design (`state`, `*_latch`, `sram_*`, `mem`, `idx`, `useful_reset_*`) are reset and copied
  but nothing that is answered or stored depends on them (TAGE_top.h:948-1277), so they are left out.
* Indices, tags and counters are `Nat`; the counters are kept in `uint8_t`, the sums in `uint16_t`.
* `age` of a loop entry is written and never read (TAGE_top.h:1047-1075, 1212-1240); it is left out.
-/
namespace Verif.Tage
open Verif.Bpu (W32)

/-- Sizes and thresholds: config/frontend_feature_config.h:55-191. -/
structure Cfg where
  /-- log2 of `BASE_ENTRY_NUM` -/
  baseBits : Nat
  /-- log2 of `TN_ENTRY_NUM` -/
  idxBits : Nat
  tagBits : Nat
  /-- log2 of `TAGE_SC_ENTRY_NUM` -/
  scBits : Nat
  /-- log2 of `TAGE_SC_L_ENTRY_NUM` -/
  sclBits : Nat
  /-- `(1 << TAGE_SC_L_CTR_BITS) - 1` -/
  sclMax : Nat
  sclInit : Nat
  thetaInit : Nat
  thetaMin : Nat
  thetaMax : Nat
  margin : Nat
  pathBits : Nat
  /-- log2 of `TAGE_LOOP_ENTRY_NUM` -/
  loopBits : Nat
  loopTagBits : Nat
  iterMax : Nat
  confMax : Nat
  confThr : Nat
  weakLow : Nat
  weakHigh : Nat
  scWeakLow : Nat
  scWeakHigh : Nat
  usefulThr : Nat
  altMax : Nat
  altInit : Nat
  altThr : Nat

/-- As committed. -/
def cfg0 : Cfg where
  baseBits := 6
  idxBits := 6
  tagBits := 8
  scBits := 10
  sclBits := 6
  sclMax := 63
  sclInit := 32
  thetaInit := 18
  thetaMin := 6
  thetaMax := 64
  margin := 4
  pathBits := 16
  loopBits := 6
  loopTagBits := 12
  iterMax := 4095
  confMax := 7
  confThr := 5
  weakLow := 3
  weakHigh := 3
  scWeakLow := 3
  scWeakHigh := 4
  usefulThr := 0
  altMax := 15
  altInit := 7
  altThr := 8

/-- One row of a tagged table: `tag_table`, `cnt_table`, `useful_table`, TAGE_top.h:700-712. -/
structure Ent where
  tag : Nat
  cnt : Nat
  useful : Nat

/-- `LoopEntry`. -/
structure LoopE where
  valid : Bool
  tag : Nat
  count : Nat
  limit : Nat
  conf : Nat
  dir : Bool
deriving DecidableEq

/-- Everything the predictor remembers. -/
structure St where
  base : Nat → Nat
  tn : Nat → Nat → Ent
  sc : Nat → Nat
  scl : Nat → Nat → Nat
  theta : Nat
  loop : Nat → LoopE
  /-- `LSFR[0..3]` -/
  lsfr : Bool × Bool × Bool × Bool
  /-- `reset_cnt_reg` -/
  rst : W32
  useAlt : Nat

def loopEmpty : LoopE := ⟨false, 0, 0, 0, 0, false⟩

/-- `reset`, TAGE_top.h:750-806.  The corrector table is filled with ones, the SC-L tables with their middle value. -/
def init (c : Cfg) : St where
  base := fun _ => 0
  tn := fun _ _ => ⟨0, 0, 0⟩
  sc := fun _ => 1
  scl := fun _ _ => c.sclInit
  theta := c.thetaInit
  loop := fun _ => loopEmpty
  lsfr := (false, false, false, true)
  rst := 0
  useAlt := c.altInit

/-! ### Counters -/

/-- `sat_inc_*` and `sat_dec_*`, TAGE_top.h:82-160, and the same pattern in the loop table, TAGE_top.h:196-203. -/
def satInc (m v : Nat) : Nat := if m ≤ v then m else v + 1

def satDec (v : Nat) : Nat := if v = 0 then 0 else v - 1

/-- A counter of maximum `m` trained with an outcome. -/
def bump (m : Nat) (dir : Bool) (v : Nat) : Nat := if dir then satInc m v else satDec v

/-! ### Indices -/

/-- A word cut to its low `n` bits. -/
def low (n : Nat) (w : W32) : Nat := (w &&& BitVec.ofNat 32 (2 ^ n - 1)).toNat

/-- `base_idx`, TAGE_top.h:1616, 898. -/
def baseIdx (c : Cfg) (pc : W32) : Nat := low c.baseBits (pc >>> 2)

/-- `tag[i]`, TAGE_top.h:1618-1619. -/
def tagOf (c : Cfg) (pc : W32) (fh : Nat → Nat → W32) (i : Nat) : Nat := low c.tagBits (fh 1 i ^^^ fh 2 i ^^^ (pc >>> 2))

/-- `tage_index[i]`, TAGE_top.h:1620-1621. -/
def idxOf (c : Cfg) (pc : W32) (fh : Nat → Nat → W32) (i : Nat) : Nat := low c.idxBits (fh 0 i ^^^ (pc >>> 2))

/-- `tage_sc_idx_from_pc`, TAGE_top.h:129-134. -/
def scIdx (c : Cfg) (pc : W32) : Nat :=
  let v := pc >>> 2
  let v := v ^^^ (v >>> 7)
  let v := v ^^^ (v >>> 13)
  low c.scBits v

/-- `kHistLen`, `kPathHistLen`, TAGE_top.h:863-864. -/
def histLen : List Nat := [0, 4, 8, 16, 32, 64, 128, 256]
def pathLen : List Nat := [0, 4, 8, 12, 16, 20, 24, 28]

def bit (b : Bool) : W32 := if b then 1 else 0

/-- `scl_fold_ghr_idx`, TAGE_top.h:164-174. -/
def foldGhr (g : Nat → Bool) (len bits : Nat) : W32 :=
  let f := (List.range len).foldl (fun f i => f ^^^ (bit (g i) <<< (i % bits)) ^^^ (bit (g i) <<< ((i * 7) % bits))) 0
  f &&& BitVec.ofNat 32 (2 ^ bits - 1)

/-- `scl_fold_path_idx`, TAGE_top.h:176-191. -/
def foldPath (c : Cfg) (p : W32) (len bits : Nat) : W32 :=
  let eff := if len < c.pathBits then len else c.pathBits
  let p := p &&& BitVec.ofNat 32 (2 ^ c.pathBits - 1)
  let p := if eff < 32 then p &&& BitVec.ofNat 32 (2 ^ eff - 1) else p
  let f := (List.range eff).foldl (fun f i =>
    f ^^^ (bit (p.getLsbD i) <<< (i % bits)) ^^^ (bit (p.getLsbD i) <<< ((i * 5 + 3) % bits))) 0
  f &&& BitVec.ofNat 32 (2 ^ bits - 1)

/-- `pred_scl_idx[t]`, TAGE_top.h:865-881, 990-1005. -/
def sclIdx (c : Cfg) (pc : W32) (g : Nat → Bool) (path : W32) (t : Nat) : Nat :=
  let folded := foldGhr g (histLen.getD t 0) c.sclBits
  let m := pc >>> 2
  let m := m ^^^ (m >>> 11)
  let m := m ^^^ (m >>> 19)
  let m := m ^^^ folded
  let m := m ^^^ (folded <<< 1)
  let pf := foldPath c path (pathLen.getD t 0) c.sclBits
  let m := m ^^^ pf
  let m := m ^^^ (pf <<< 2)
  let m := m ^^^ (pf >>> 1)
  low c.sclBits m

/-- `loop_idx_from_pc`, TAGE_top.h:197-200. -/
def loopIdx (c : Cfg) (pc : W32) : Nat := low c.loopBits ((pc >>> 2) ^^^ (pc >>> 11) ^^^ (pc >>> 19))

/-- `loop_tag_from_pc`, TAGE_top.h:202-205. -/
def loopTag (c : Cfg) (pc : W32) : Nat := low c.loopTagBits ((pc >>> 2) ^^^ (pc >>> (2 + c.loopTagBits)))

/-! ### Prediction -/

/-- What a branch is predicted with: its address within the bank and the histories. -/
structure Key where
  pc : W32
  fh : Nat → Nat → W32
  ghr : Nat → Bool
  path : W32

/-- What a prediction answers, and what comes back with the training of the same branch: `OutputPayload`,
TAGE_top.h:700-730; `InputPayload`, BPU.h:1010-1031. -/
structure Meta where
  pred : Bool
  alt : Bool
  pcpn : Nat
  altpcpn : Nat
  tag : Nat → Nat
  idx : Nat → Nat
  scUsed : Bool
  scPred : Bool
  scSum : Nat
  scIdx : Nat → Nat
  loopUsed : Bool
  loopPred : Bool
  loopIdx : Nat
  loopTag : Nat

/-- The highest `i < n` with `p i`; `TN_MAX = 4` if there is none: the two downward loops of `tage_pred_select_comb`,
TAGE_top.h:1639-1651. -/
def highest (p : Nat → Bool) : Nat → Nat
  | 0 => 4
  | n + 1 => if p n then n else highest p n

def weak (lo hi v : Nat) : Bool := decide (lo ≤ v) && decide (v ≤ hi)

/-- The rows a prediction reads: `tage_data_seq_read`, TAGE_top.h:1367-1378. -/
def row (c : Cfg) (s : St) (k : Key) (i : Nat) : Ent := s.tn i (idxOf c k.pc k.fh i)

/-- The tagged part of an answer: `tage_pred_select_comb`, TAGE_top.h:1625-1698. -/
def select (c : Cfg) (base : Nat) (rows : Nat → Ent) (tags : Nat → Nat) (scCtr useAlt : Nat) :
    Bool × Bool × Nat × Nat :=
  let basePred := decide (2 ≤ base)
  let hit := fun i => (rows i).tag == tags i
  let pcpn := highest hit 4
  let altpcpn := highest hit pcpn
  let alt := if 4 ≤ altpcpn then basePred else decide (4 ≤ (rows altpcpn).cnt)
  if 4 ≤ pcpn then (basePred, alt, pcpn, altpcpn)
  else
    let cnt := (rows pcpn).cnt
    let prov := decide (4 ≤ cnt)
    let p1 :=
      if weak c.weakLow c.weakHigh cnt && decide ((rows pcpn).useful ≤ c.usefulThr) then
        (if useAlt ≤ c.altThr then alt else prov)
      else prov
    let p2 :=
      if (prov != alt) && weak c.scWeakLow c.scWeakHigh cnt then
        (if scCtr = 0 then alt else if scCtr = 3 then prov else p1)
      else p1
    (p2, alt, pcpn, altpcpn)

/-- `abs_diff_u16`, TAGE_top.h:160-162. -/
def absDiff (a b : Nat) : Nat := if b ≤ a then a - b else b - a

/-- `kSclSumBias`. -/
def sclBias (c : Cfg) : Nat := 8 * c.sclInit

/-- `sum_raw`, TAGE_top.h:988-1008; kept in 16 bits. -/
def sclSum (c : Cfg) (s : St) (k : Key) : Nat :=
  (List.range 8).foldl (fun a t => (a + s.scl t (sclIdx c k.pc k.ghr k.path t)) % 65536) 0

/-- What the loop table says, if it is confident: TAGE_top.h:1047-1061. -/
def loopSays (c : Cfg) (e : LoopE) (tag : Nat) : Option Bool :=
  if e.valid && e.tag == tag && decide (c.confThr ≤ e.conf) then
    some (if decide (e.limit ≠ 0) && e.count + 1 == e.limit then !e.dir else e.dir)
  else none

/-- The prediction half of `tage_comb`, TAGE_top.h:968-1088. -/
def predict (c : Cfg) (s : St) (k : Key) : Meta :=
  let rows := row c s k
  let sel := select c (s.base (baseIdx c k.pc)) rows (tagOf c k.pc k.fh) (s.sc (scIdx c k.pc)) s.useAlt
  let pcpn := sel.2.2.1
  let sum := sclSum c s k
  let scPred := decide (sclBias c ≤ sum)
  let provWeak := decide (pcpn < 4) && weak c.weakLow c.weakHigh (rows pcpn).cnt
  let scUsed := provWeak && (scPred != decide (4 ≤ (rows pcpn).cnt)) &&
    decide ((s.theta + c.margin) % 65536 ≤ absDiff sum (sclBias c))
  let p1 := if scUsed then scPred else sel.1
  let lp := loopSays c (s.loop (loopIdx c k.pc)) (loopTag c k.pc)
  let loopUsed := provWeak && lp.isSome
  { pred := if loopUsed then lp.getD false else p1
    alt := sel.2.1
    pcpn := pcpn
    altpcpn := sel.2.2.2
    tag := tagOf c k.pc k.fh
    idx := idxOf c k.pc k.fh
    scUsed := scUsed
    scPred := scPred
    scSum := sum
    scIdx := sclIdx c k.pc k.ghr k.path
    loopUsed := loopUsed
    loopPred := lp.getD false
    loopIdx := loopIdx c k.pc
    loopTag := loopTag c k.pc }

/-! ### Training -/

/-- A training: the address, the direction the branch took, and what came back from its prediction. -/
structure Upd where
  pc : W32
  dir : Bool
  m : Meta

/-- `lsfr_update_comb`, TAGE_top.h:1875-1889. -/
def lsfrNext (l : Bool × Bool × Bool × Bool) : Bool × Bool × Bool × Bool := (l.1 ^^ l.2.2.2, l.1, l.2.1, l.2.2.1)

/-- `random_val`: two bits of the new state. -/
def lsfrRand (l : Bool × Bool × Bool × Bool) : Nat := 2 * l.1.toNat + l.2.1.toNat

/-- Provider rows at training: TAGE_top.h:1395-1400. -/
def urow (c : Cfg) (s : St) (u : Upd) (i : Nat) : Ent := s.tn i (u.m.idx i % 2 ^ c.idxBits)

/-- The new `useful` of the provider, if written: TAGE_top.h:1721-1745. -/
def provUseful (e : Ent) (u : Upd) : Option Nat :=
  let raw := decide (4 ≤ e.cnt)
  let provUsed := !(u.m.scUsed || u.m.loopUsed)
  let altUsed := provUsed && (u.m.pred == u.m.alt)
  if !provUsed then some (bump 3 (raw == u.dir) e.useful)
  else if !altUsed then some (bump 3 (u.m.pred == u.dir) e.useful)
  else if (raw != u.dir) && (u.m.alt == u.dir) then some (satDec e.useful)
  else none

/-- Tables at or above `start` whose row is not in use: TAGE_top.h:1804-1816 keeps the first two. -/
def freeTabs (rows : Nat → Ent) (start : Nat) : List Nat :=
  (List.range 4).filter (fun i => decide (start ≤ i) && (rows i).useful == 0)

/-- Whether a training allocates: TAGE_top.h:1797-1798. -/
def mayAlloc (u : Upd) : Bool := (u.m.pred != u.dir) && (decide (u.m.pcpn ≤ 2) || u.m.pcpn == 4)

/-- `start_search`. -/
def allocStart (u : Upd) : Nat := if u.m.pcpn = 4 then 0 else u.m.pcpn + 1

/-- The table that gets a new entry: TAGE_top.h:1797-1832. -/
def allocTab (rows : Nat → Ent) (u : Upd) (rand : Nat) : Option Nat :=
  if mayAlloc u then
    match freeTabs rows (allocStart u) with
    | [] => none
    | [j] => some j
    | j :: k :: _ => some (if rand % 3 = 0 then k else j)
  else none

/-- Whether longer tables lose usefulness because none is free: TAGE_top.h:1818-1822. -/
def agesTabs (rows : Nat → Ent) (u : Upd) : Bool := mayAlloc u && (freeTabs rows (allocStart u)).isEmpty

/-- The row of table `i` after its own writes: `tage_update_comb`, TAGE_top.h:1702-1835, 1131-1147. -/
def newRow (rows : Nat → Ent) (u : Upd) (rand i : Nat) : Ent :=
  let e := rows i
  if allocTab rows u rand = some i then ⟨u.m.tag i, if u.dir then 4 else 3, 0⟩
  else if i = u.m.pcpn then ⟨e.tag, bump 7 u.dir e.cnt, (provUseful e u).getD e.useful⟩
  else if agesTabs rows u && decide (allocStart u ≤ i) then ⟨e.tag, e.cnt, satDec e.useful⟩
  else e

/-- Whether the training of table `i` writes its `useful`: `useful_we[i]`. -/
def usefulWe (rows : Nat → Ent) (u : Upd) (rand i : Nat) : Bool :=
  decide (allocTab rows u rand = some i) || (decide (i = u.m.pcpn) && (provUseful (rows i) u).isSome) ||
    (agesTabs rows u && decide (allocStart u ≤ i))

/-- `use_alt_ctr`, TAGE_top.h:1757-1785. -/
def useAltNext (c : Cfg) (e : Ent) (u : Upd) (v : Nat) : Nat :=
  let raw := decide (4 ≤ e.cnt)
  if weak c.weakLow c.weakHigh e.cnt && decide (e.useful ≤ c.usefulThr) && (raw != u.m.alt) then
    (if u.m.alt == u.dir then satDec v else satInc c.altMax v)
  else v

/-- `sc_ctr`, TAGE_top.h:1837-1858. -/
def scNext (c : Cfg) (e : Ent) (u : Upd) (v : Nat) : Nat :=
  let raw := decide (4 ≤ e.cnt)
  if !(u.m.scUsed || u.m.loopUsed) && (raw != u.m.alt) && weak c.scWeakLow c.scWeakHigh e.cnt then
    bump 3 (raw == u.dir) v
  else v

/-- The loop entry after a training: TAGE_top.h:1205-1258. -/
def loopNext (c : Cfg) (e : LoopE) (tag : Nat) (dir : Bool) : LoopE :=
  let e := if !e.valid || e.tag != tag then ⟨true, tag, 0, 0, 0, true⟩ else e
  if dir == e.dir then { e with count := satInc c.iterMax e.count }
  else if decide (e.limit ≠ 0) && e.count == e.limit then
    { e with conf := satInc c.confMax e.conf, count := 0 }
  else { e with conf := satDec e.conf, limit := e.count, count := 0 }

/-- Whether SC-L is trained, and its new threshold: TAGE_top.h:1167-1203. -/
def sclTrain (c : Cfg) (s : St) (u : Upd) : Bool :=
  u.m.scUsed && ((u.m.scPred != u.dir) || decide (absDiff u.m.scSum (sclBias c) < s.theta))

def thetaNext (c : Cfg) (s : St) (u : Upd) : Nat :=
  let a := absDiff u.m.scSum (sclBias c)
  if !u.m.scUsed then s.theta
  else if (u.m.scPred != u.dir) && decide (s.theta ≤ a) then (if s.theta < c.thetaMax then s.theta + 1 else s.theta)
  else if (u.m.scPred == u.dir) && decide (a < s.theta) then (if c.thetaMin < s.theta then s.theta - 1 else s.theta)
  else s.theta

/-- The row whose `useful` bits are aged this time, and whether it is their high bit: TAGE_top.h:1860-1872, 912-916. -/
def sweepRow (c : Cfg) (s : St) : Option (Nat × Bool) :=
  if low 11 s.rst = 0 then some (low 12 (s.rst >>> 11) % 2 ^ c.idxBits, s.rst.getLsbD 23) else none

/-- The training half of `tage_comb` and `tage_seq_write`, TAGE_top.h:1090-1270, 1503-1595. -/
def update (c : Cfg) (s : St) (u : Upd) : St :=
  let rows := urow c s u
  let l := lsfrNext s.lsfr
  let rand := lsfrRand l
  let at_ := fun i => u.m.idx i % 2 ^ c.idxBits
  let sweep := fun i r (e : Ent) =>
    match sweepRow c s with
    | none => e
    | some (q, msb) =>
      if r = q ∧ ¬ (usefulWe rows u rand i = true ∧ at_ i = q) then
        { e with useful := if msb then (s.tn i r).useful % 2 else (s.tn i r).useful / 2 % 2 * 2 } else e
  { base := fun b => if b = baseIdx c u.pc ∧ 4 ≤ u.m.pcpn then bump 3 u.dir (s.base b) else s.base b
    tn := fun i r =>
      let e := if i < 4 ∧ r = at_ i then newRow rows u rand i else s.tn i r
      if i < 4 then sweep i r e else e
    sc := fun x => if x = scIdx c u.pc ∧ u.m.pcpn < 4 then scNext c (rows u.m.pcpn) u (s.sc x) else s.sc x
    scl := fun t x =>
      if t < 8 ∧ x = u.m.scIdx t % 2 ^ c.sclBits ∧ sclTrain c s u = true then bump c.sclMax u.dir (s.scl t x) else s.scl t x
    theta := thetaNext c s u
    loop := fun x => if x = u.m.loopIdx % 2 ^ c.loopBits then
      loopNext c (s.loop u.m.loopIdx) (u.m.loopTag % 2 ^ c.loopTagBits) u.dir else s.loop x
    lsfr := l
    rst := s.rst + 1
    useAlt := if u.m.pcpn < 4 then useAltNext c (rows u.m.pcpn) u s.useAlt else s.useAlt }

end Verif.Tage

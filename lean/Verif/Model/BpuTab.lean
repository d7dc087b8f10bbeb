import Verif.Model.Bpu
/-
The type predictor (front-end/BPU/type_predictor/TypePredictor.h) and the target predictor
(front-end/BPU/target_predictor/BTB_top.h): four set-associative tables.

Simplifications.
* The tables' hit checks are the same loop (TypePredictor.h:233-242, BTB_top.h:1240-1270) and are modelled once, as is the search
  for a free way.
* `BTB_TOP` keeps pipeline registers of an older design that are reset, copied and never used (`state`, `*_latch`, `sram_*`);
  `btb_comb` answers in the same cycle (BTB_top.h:747-880).
* Indices, tags and counters are `Nat`; histories (`bht_hist_t`) are words cut to their storage width `histW`.
* Table entries outside the array bounds are never read.
-/
namespace Verif.BpuTab
open Verif.Bpu (W32 BrType bankSel bankPc)

/-- One way of one set: valid bit, tag, payload, and the rank by which a victim is chosen (`age`, `useful`). -/
structure Way (P : Type) where
  valid : Bool
  tag : Nat
  pay : P
  rank : Nat

/-- The first way that is valid with this tag: `hit_comb`, TypePredictor.h:233-242; `btb_hit_check_comb`, `tc_hit_check_comb`,
BTB_top.h:1240-1270. -/
def hitWay {P : Type} (n : Nat) (s : Nat → Way P) (t : Nat) : Option Nat :=
  (List.range n).find? (fun w => (s w).valid && (s w).tag == t)

/-- The first invalid way: TypePredictor.h:255-260, BTB_top.h:1336-1342, 1358-1363. -/
def freeWay {P : Type} (n : Nat) (s : Nat → Way P) : Option Nat :=
  (List.range n).find? (fun w => !(s w).valid)

/-- The scan for the least rank among `ways`, starting with `(m, w)`. -/
def scanLeast {P : Type} (s : Nat → Way P) (ways : List Nat) (p : Nat × Nat) : Nat × Nat :=
  ways.foldl (fun p w => if (s w).rank < p.1 then ((s w).rank, w) else p) p

/-- `victim_comb`, TypePredictor.h:253-270: starts with way 0. -/
def typeVictim {P : Type} (n : Nat) (s : Nat → Way P) : Nat :=
  (freeWay n s).getD (scanLeast s ((List.range n).drop 1) ((s 0).rank, 0)).2

/-- `btb_victim_select_comb`, `tc_victim_select_comb`, BTB_top.h:1333-1376: starts with 255. -/
def btbVictim {P : Type} (n : Nat) (s : Nat → Way P) : Nat :=
  (freeWay n s).getD (scanLeast s (List.range n) (255, 0)).2

/-- One write to one set. -/
def put {P : Type} (s : Nat → Way P) (w : Nat) (e : Way P) : Nat → Way P := fun v => if v = w then e else s v

/-! ### Type predictor -/

/-- Table sizes, config/frontend_feature_config.h:31-55, BPU_configs.h:47-96. -/
structure TCfg where
  sets : Nat
  ways : Nat
  tagBits : Nat
  confMax : Nat
  ageMax : Nat

/-- As committed. -/
def tcfg0 : TCfg := ⟨32, 2, 12, 3, 3⟩

/-- `ceil_log2_u32`, wire_types.h:9-17. -/
def clog2 (n : Nat) : Nat := (List.range 33).find? (fun k => decide (n ≤ 2 ^ k)) |>.getD 0

/-- Bank, set and tag of an address: `type_pred_bank_sel_comb`, `type_pred_bank_pc_comb`, `type_pred_req_comb`,
TypePredictor.h:156-189. -/
def typeKey (c : Bpu.Cfg) (tc : TCfg) (pc : W32) : (Nat × Nat) × Nat :=
  let word := bankPc c pc >>> 2
  ((bankSel c pc, (word &&& BitVec.ofNat 32 (tc.sets - 1)).toNat),
   ((word >>> clog2 tc.sets) &&& BitVec.ofNat 32 (2 ^ tc.tagBits - 1)).toNat)

/-- Type and confidence. -/
abbrev TEntry := Way (BrType × Nat)

abbrev TTable := Nat × Nat → Nat → TEntry

/-- `Entry{}`: all zero; `BR_DIRECT` is 0. -/
def tEmpty : TEntry := ⟨false, 0, (.direct, 0), 0⟩

/-- `reset`, TypePredictor.h:399. -/
def tInit : TTable := fun _ _ => tEmpty

/-- `type_pred_update_comb`, TypePredictor.h:272-317: the write, if any. -/
def typeUpdate (tc : TCfg) (s : Nat → TEntry) (tag : Nat) (ty : BrType) : Option (Nat × TEntry) :=
  let h := hitWay tc.ways s tag
  if ty = .nonctl then h.map (fun w => (w, tEmpty))
  else
    let w := h.getD (typeVictim tc.ways s)
    let e := if h.isSome then s w else tEmpty
    if h.isSome && e.pay.1 == ty then
      some (w, ⟨true, tag, (e.pay.1, if tc.confMax ≤ e.pay.2 then tc.confMax else e.pay.2 + 1),
        if tc.ageMax ≤ e.rank then tc.ageMax else e.rank + 1⟩)
    else some (w, ⟨true, tag, (ty, 1), 1⟩)

/-- `hit_comb` and `select_comb`, TypePredictor.h:233-251: the predicted type. -/
def typePredict (c : Bpu.Cfg) (tc : TCfg) (T : TTable) (pc : W32) : BrType :=
  let k := typeKey c tc pc
  match hitWay tc.ways (T k.1) k.2 with
  | none => .nonctl
  | some w => (T k.1 w).pay.1

/-- One cycle of updates: all read the old table (`data_seq_read`), the writes are made in order (`type_pred_seq_write`),
TypePredictor.h:325-433. -/
def typeCycle (c : Bpu.Cfg) (tc : TCfg) (T : TTable) (us : List (W32 × BrType)) : TTable :=
  us.foldl (fun T' u =>
    let k := typeKey c tc u.1
    match typeUpdate tc (T k.1) k.2 u.2 with
    | none => T'
    | some (w, e) => fun r => if r = k.1 then put (T' r) w e else T' r) T

/-! ### Target predictor -/

/-- Sizes and switches, config/frontend_feature_config.h:198-240; `histW` is the storage width of `bht_hist_t`. -/
structure BCfg where
  entries : Nat
  ways : Nat
  tagBits : Nat
  bhtEntries : Nat
  tcEntries : Nat
  tcWays : Nat
  tcTagBits : Nat
  histW : Nat
  aliasHash : Bool
  signature : Bool
  idirTrain : Bool
  idirFallback : Bool
  idirInit : Nat
  tcInit : Nat

/-- As committed. -/
def bcfg0 : BCfg := ⟨64, 4, 8, 64, 64, 2, 10, 8, true, true, true, true, 0, 1⟩

/-- `calc_index_width`, BTB_top.h:1119-1126. -/
def indexWidth (m : Nat) : Nat :=
  if h : 0 < m then indexWidth (m / 2) + 1 else 0
  decreasing_by omega

/-- `hash_index_value`, BTB_top.h:1128-1145. -/
def hashIndex (w : W32) (mask : Nat) (salt : W32) : Nat :=
  let width := indexWidth mask
  if width = 0 then (w &&& BitVec.ofNat 32 mask).toNat
  else
    let x := w
    let x := if width < 32 then x ^^^ (w >>> width) else x
    let x := if 2 * width < 32 then x ^^^ (w >>> (2 * width)) else x
    let x := if 3 * width < 32 then x ^^^ (w >>> (3 * width)) else x
    ((x ^^^ salt) &&& BitVec.ofNat 32 mask).toNat

/-- `btb_get_tag_comb`, BTB_top.h:1148-1152. -/
def btbTag (b : BCfg) (pc : W32) : Nat := (((pc >>> 2) >>> clog2 b.entries) &&& BitVec.ofNat 32 (2 ^ b.tagBits - 1)).toNat

/-- `btb_get_idx_comb`, BTB_top.h:1154-1163. -/
def btbIdx (b : BCfg) (pc : W32) : Nat :=
  if b.aliasHash then hashIndex (pc >>> 2) (b.entries - 1) 0x9e3779b9#32
  else ((pc >>> 2) &&& BitVec.ofNat 32 (b.entries - 1)).toNat

/-- `bht_get_idx_comb`, BTB_top.h:1178-1187. -/
def bhtIdx (b : BCfg) (pc : W32) : Nat :=
  if b.aliasHash then hashIndex (pc >>> 2) (b.bhtEntries - 1) 0x6a5d39e1#32
  else ((pc >>> 2) &&& BitVec.ofNat 32 (b.bhtEntries - 1)).toNat

/-- `tc_get_idx_comb`, BTB_top.h:1189-1203. -/
def tcIdx (b : BCfg) (pc h : W32) : Nat :=
  if b.aliasHash then
    let mix := h ^^^ (h >>> 7) ^^^ (h >>> 13) ^^^ (h <<< 9)
    hashIndex ((pc >>> 2) ^^^ mix ^^^ (h >>> 19)) (b.tcEntries - 1) 0x51ed270b#32
  else ((h ^^^ pc) &&& BitVec.ofNat 32 (b.tcEntries - 1)).toNat

/-- `tc_get_tag_comb`, BTB_top.h:1205-1215. -/
def tcTag (b : BCfg) (pc : W32) : Nat :=
  if b.aliasHash then hashIndex (pc >>> 2) (2 ^ b.tcTagBits - 1) 0x3c6ef372#32
  else ((pc >>> 2) &&& BitVec.ofNat 32 (2 ^ b.tcTagBits - 1)).toNat

/-- `bht_next_state_comb`, BTB_top.h:1218-1232, cut to the storage width. -/
def bhtNext (b : BCfg) (cur : W32) (ty : BrType) (dir : Bool) (target : W32) : W32 :=
  let v : W32 :=
    if b.signature && ty == .idirect then
      let t := target >>> 2
      let tf := t ^^^ (t >>> 11) ^^^ (t >>> 19)
      let hf := cur ^^^ (cur <<< 5) ^^^ (cur >>> 2)
      hf ^^^ tf ^^^ 0x9e3779b9#32
    else (cur <<< 1) ||| Bpu.bit dir
  v &&& (if b.histW < 32 then (1#32 <<< b.histW) - 1#32 else 0xffffffff#32)

/-- `useful_next_state_comb`, BTB_top.h:1234-1247. -/
def usefulNext (v : Nat) (correct : Bool) : Nat :=
  if correct then (if v < 7 then v + 1 else v) else (if 0 < v then v - 1 else v)

/-- `tc_mode_next_value`, BTB_top.h:1281-1286. -/
def modeNext (m : Nat) (preCorrect : Bool) : Nat :=
  if preCorrect then (if m < 6 then m + 1 else 6) else (if 0 < m then m - 1 else 0)

abbrev BEntry := Way W32

/-- `mem_btb_*`, `mem_bht`, `mem_tc_*`, `mem_tc_pre_*`, `mem_tc_mode`, BTB_top.h:466-481. -/
structure BTable where
  btb : Nat → Nat → BEntry
  bht : Nat → W32
  tc : Nat → Nat → BEntry
  tcPre : Nat → Nat → BEntry
  mode : Nat → Nat

/-- `reset`, BTB_top.h:530-548. -/
def bInit : BTable where
  btb := fun _ _ => ⟨false, 0, 0#32, 0⟩
  bht := fun _ => 0#32
  tc := fun _ _ => ⟨false, 0, 0#32, 0⟩
  tcPre := fun _ _ => ⟨false, 0, 0#32, 0⟩
  mode := fun _ => 2

/-- `btb_pred_output_comb` with the reads before it, BTB_top.h:1288-1331: the predicted target.  `pc` is the address within the
bank (BPU.h:992-996). -/
def btbPredict (b : BCfg) (T : BTable) (pc : W32) (ty : BrType) : W32 :=
  let s := T.btb (btbIdx b pc)
  let hit := hitWay b.ways s (btbTag b pc)
  match ty with
  | .idirect =>
    let i := tcIdx b pc (T.bht (bhtIdx b pc))
    let t := hitWay b.tcWays (T.tc i) (tcTag b pc)
    let p := hitWay b.tcWays (T.tcPre i) (tcTag b pc)
    match p, t with
    | some w, none => (T.tcPre i w).pay
    | some w, some v => if 3 ≤ T.mode (bhtIdx b pc) then (T.tcPre i w).pay else (T.tc i v).pay
    | none, some v => (T.tc i v).pay
    | none, none =>
      match (if b.idirFallback then hit else none) with
      | some w => (s w).pay
      | none => pc + 4#32
  | .direct | .call | .jal | .ret =>
    match hit with
    | some w => (s w).pay
    | none => pc + 4#32
  | .nonctl => pc + 4#32

/-- An update of one bank: address within the bank, type, direction, target. -/
structure BUpd where
  pc : W32
  ty : BrType
  dir : Bool
  target : W32
  deriving DecidableEq

/-- Write of a target into a set: hit way or victim; `useful` counts correct predictions, and is `fresh` for a new entry. -/
def targetWrite (n : Nat) (s : Nat → BEntry) (tag : Nat) (target : W32) (fresh : Nat) : Nat × BEntry :=
  let h := hitWay n s tag
  let w := h.getD (btbVictim n s)
  (w, ⟨true, tag, target, if h.isSome then usefulNext (s w).rank (decide ((s w).pay = target)) else fresh⟩)

/-- The update half of `btb_comb` and `btb_seq_write`, BTB_top.h:777-874, 1073-1099. -/
def btbUpdate (b : BCfg) (T : BTable) (u : BUpd) : BTable :=
  let bi := bhtIdx b u.pc
  let h := T.bht bi
  let h' := if u.ty = .nonctl then h else bhtNext b h u.ty u.dir u.target
  -- BTB_top.h:790-819
  let writes := match u.ty with
    | .direct | .call | .ret | .jal => true
    | .idirect => b.idirTrain
    | .nonctl => false
  let i := btbIdx b u.pc
  let p := targetWrite b.ways (T.btb i) (btbTag b u.pc) u.target 1
  let e := if u.ty = .idirect then { p.2 with rank := b.idirInit } else p.2
  let btb := if u.dir && writes then (fun j => if j = i then put (T.btb i) p.1 e else T.btb j) else T.btb
  let bht := if u.ty = .nonctl then T.bht else (fun j => if j = bi then h' else T.bht j)
  -- BTB_top.h:821-872; requests at 734-741
  if u.dir && u.ty == .idirect then
    let tag := tcTag b u.pc
    let pi := tcIdx b u.pc h
    let wi := tcIdx b u.pc h'
    let q := targetWrite b.tcWays (T.tc wi) tag u.target b.tcInit
    let r := targetWrite b.tcWays (T.tcPre pi) tag u.target b.tcInit
    let preCorrect := match hitWay b.tcWays (T.tcPre pi) tag with
      | some w => decide ((T.tcPre pi w).pay = u.target)
      | none => false
    let predCorrect := match hitWay b.tcWays (T.tc pi) tag with
      | some w => decide ((T.tc pi w).pay = u.target)
      | none => false
    { btb := btb
      bht := bht
      tc := fun j => if j = wi then put (T.tc wi) q.1 q.2 else T.tc j
      tcPre := fun j => if j = pi then put (T.tcPre pi) r.1 r.2 else T.tcPre j
      mode := if predCorrect ≠ preCorrect then (fun j => if j = bi then modeNext (T.mode bi) preCorrect else T.mode j) else T.mode }
  else { btb := btb, bht := bht, tc := T.tc, tcPre := T.tcPre, mode := T.mode }

end Verif.BpuTab

import Verif.Model.Decode
/-
The top of the branch predictor: `BPU_TOP`, front-end/BPU/BPU.h: which addresses of a fetch group are predicted and by which
bank, the choice of the next fetch address, the two global histories with their folded copies, the two return-address stacks, and
the queues of retired instructions that train the banks.

Simplifications.
* What the direction predictor (TAGE), the target predictor (BTB) and the type predictor answer is an input of the cycle.
* Two-ahead prediction is off in every configuration (config/frontend_feature_config.h:285), so `bpu_nlp_comb` only copies.
* `pc_can_send_to_icache` is set by the reset and never cleared (BPU.h:1508, 1791, 1807, 1941): constant true.
* Registers that are written and never read (`state`, the `*_latch`, `*_done`, `nlp_*`, `saved_*`) are left out.
* An array is a function on `Nat`; the entries outside the array are never read.  Counters are `Nat` (their C++ types hold the
  array length, wire_types.h:245-254).
* `meta` of an update stands for the fields that are copied through the queue untouched.
* `exit(EXIT_FAILURE)` is `none`.
-/
namespace Verif.Bpu

abbrev W32 := BitVec 32

/-- The constants: include/config.h, config/frontend_feature_config.h, BPU.h:618-621. -/
structure Cfg where
  fetchWidth : Nat
  commitWidth : Nat
  bankNum : Nat
  rasDepth : Nat
  qDepth : Nat
  ghrLen : Nat
  lineSize : Nat
  pathBits : Nat
  /-- `ghr_length[TN_MAX]` -/
  tnLen : Nat → Nat
  /-- `fh_length[FH_N_MAX][TN_MAX]` -/
  fhLen : Nat → Nat → Nat

/-- The static assertions of BPU_configs.h:6-43 and config.h:541-560 that matter here. -/
structure Cfg.Ok (c : Cfg) : Prop where
  fetchPos : 0 < c.fetchWidth
  commitPos : 0 < c.commitWidth
  banksFetch : c.fetchWidth ≤ c.bankNum
  banksCommit : c.commitWidth ≤ c.bankNum
  rasPos : 0 < c.rasDepth
  qCommit : c.commitWidth ≤ c.qDepth
  pathPos : 0 < c.pathBits ∧ c.pathBits ≤ 32
  tn : ∀ i, i < 4 → 0 < c.tnLen i ∧ c.tnLen i ≤ c.ghrLen
  fh : ∀ k, k < 3 → ∀ i, i < 4 → 0 < c.fhLen k i ∧ c.fhLen k i < 32

/-- include/config.h and config/frontend_feature_config.h as committed. -/
def cfg0 : Cfg where
  fetchWidth := 4
  commitWidth := 2
  bankNum := 4
  rasDepth := 16
  qDepth := 500
  ghrLen := 512
  lineSize := 64
  pathBits := 16
  tnLen i := [8, 13, 32, 119].getD i 1
  fhLen k i := ([[8, 11, 11, 11], [8, 8, 8, 8], [7, 7, 7, 7]].getD k []).getD i 1

/-- `BR_*`, BPU_configs.h:226-231. -/
inductive BrType
  | direct | call | ret | idirect | nonctl | jal
  deriving DecidableEq, Repr

/-- `bank_sel_comb`, BPU.h:30-33. -/
def bankSel (c : Cfg) (pc : W32) : Nat := (pc >>> 2).toNat % c.bankNum

/-- The loop of `bank_pc_comb`, BPU.h:53-58: position of the highest set bit. -/
def highestBit (n : Nat) : Nat :=
  if h : 1 < n then highestBit (n / 2) + 1 else 0
  decreasing_by omega

/-- `bank_pc_comb`, BPU.h:43-60. -/
def bankPc (c : Cfg) (pc : W32) : W32 :=
  if c.bankNum &&& (c.bankNum - 1) ≠ 0 then
    (BitVec.ofNat 32 ((pc >>> 2).toNat / c.bankNum)) <<< 2
  else pc >>> highestBit c.bankNum

/-! ### Global history -/

def bit (b : Bool) : W32 := if b then 1#32 else 0#32

/-- `tage_ghr_update_comb`, TAGE_top.h:242-250. -/
def ghrUpd (c : Cfg) (g : Nat → Bool) (d : Bool) : Nat → Bool :=
  fun i => if i = 0 then d else if i < c.ghrLen then g (i - 1) else false

/-- `tage_fh_update_comb`, TAGE_top.h:252-265. -/
def fhUpd (c : Cfg) (fh : Nat → Nat → W32) (g : Nat → Bool) (d : Bool) : Nat → Nat → W32 :=
  fun k i =>
    let val := fh k i
    let len := c.fhLen k i
    let oldHighest : Bool := decide ((val >>> (len - 1)) &&& 1#32 ≠ 0#32)
    let val := (val <<< 1) &&& ((1#32 <<< len) - 1#32)
    let val := val ||| bit (d ^^ oldHighest)
    let ghrIdx := c.tnLen i
    val ^^^ (bit (g (ghrIdx - 1)) <<< (ghrIdx % len))

/-- `TAGE_SC_PATH_MASK`, BPU_configs.h:127-131. -/
def pathMask (c : Cfg) : W32 := if c.pathBits = 32 then 0xffffffff#32 else (1#32 <<< c.pathBits) - 1#32

/-- `tage_path_update_value`, BPU.h:101-111. -/
def pathUpd (c : Cfg) (cur pc : W32) (d : Bool) : W32 :=
  let path := cur &&& pathMask c
  let m := pc >>> 2
  let m := m ^^^ (m >>> 5)
  let m := m ^^^ (m >>> 11)
  let m := m ^^^ (if d then 0x9e3779b9#32 else 0x7f4a7c15#32)
  ((path <<< 1) ^^^ m) &&& pathMask c

/-- `*_GHR`, `*_FH`, `*_PATH`, BPU.h:605-611. -/
structure GHist where
  ghr : Nat → Bool
  fh : Nat → Nat → W32
  path : W32

/-- One conditional branch enters a history, BPU.h:1294-1305, 1360-1366. -/
def GHist.push (c : Cfg) (h : GHist) (pc : W32) (d : Bool) : GHist :=
  ⟨ghrUpd c h.ghr d, fhUpd c h.fh h.ghr d, pathUpd c h.path pc d⟩

/-! ### Return-address stack -/

/-- `*_ras_stack`, `*_ras_count`, BPU.h:612-615. -/
structure Ras where
  stk : Nat → W32
  cnt : Nat

/-- `ras_push`, BPU.h:714-723. -/
def Ras.push (c : Cfg) (r : Ras) (v : W32) : Ras :=
  if r.cnt < c.rasDepth then ⟨fun i => if i = r.cnt then v else r.stk i, r.cnt + 1⟩
  else ⟨fun i => if i = c.rasDepth - 1 then v else r.stk (i + 1), r.cnt⟩

/-- `ras_pop`, BPU.h:725-729. -/
def Ras.pop (r : Ras) : Ras := if 0 < r.cnt then ⟨r.stk, r.cnt - 1⟩ else r

/-! ### What the back end reports -/

/-- `br_type` in `back2front_comb`, rv_simu_mmu_v2.cpp:1305-1321; the micro-operation is that of Idu.cpp. -/
def reportType (u : Decode.DecInst) : BrType :=
  let t : BrType := if u.type = .br then .direct else .nonctl
  let t := if u.type = .jal then .jal else t
  if u.type = .jal && u.destEn && u.destAreg == 1 then .call
  else if u.type = .jalr then (if u.isRet then .ret else .idirect)
  else t

/-! ### Training queues -/

/-- What the back end reports about a retired instruction: `in_update_base_pc`, `in_actual_dir`, `in_actual_br_type`,
`in_actual_targets`, `in_pred_dir` and the rest, BPU.h:121-141. -/
structure Upd where
  pc : W32
  dir : Bool
  ty : BrType
  target : W32
  predDir : Bool
  info : Nat := 0
  deriving DecidableEq

/-- `update_queue[.][bank]`, `q_wr_ptr`, `q_rd_ptr`, `q_count`, BPU.h:646-649. -/
structure QBank where
  slot : Nat → Upd
  wr : Nat
  rd : Nat
  count : Nat

/-- One bank's pop, BPU.h:1409-1418. -/
def QBank.pop (c : Cfg) (q : QBank) : QBank :=
  if q.count ≠ 0 then { q with rd := (q.rd + 1) % c.qDepth, count := q.count - 1 } else q

/-- One push, BPU.h:1426-1457, 1878-1911. -/
def QBank.push (c : Cfg) (q : QBank) (u : Upd) : QBank :=
  { q with slot := fun i => if i = q.wr then u else q.slot i, wr := (q.wr + 1) % c.qDepth, count := q.count + 1 }

/-- `bpu_queue_comb`, the pushes, BPU.h:1419-1466. -/
def pushAll (c : Cfg) : List (Option Upd) → (Nat → QBank) → Option (Nat → QBank)
  | [], b => some b
  | none :: r, b => pushAll c r b
  | some u :: r, b =>
    let k := bankSel c u.pc
    if (b k).count < c.qDepth then pushAll c r (fun j => if j = k then (b k).push c u else b j)
    else none

/-- `update_queue_full`, BPU.h:1468-1474. -/
def queueFull (c : Cfg) (b : Nat → QBank) : Bool :=
  (List.range c.bankNum).any (fun i => decide (c.qDepth - (b i).count < c.commitWidth))

/-! ### State, input, output of a cycle -/

structure St where
  pc : W32
  spec : GHist
  arch : GHist
  specRas : Ras
  archRas : Ras
  bank : Nat → QBank

/-- `reset_internal_all`, BPU.h:1938-2015; `RESET_PC` is a parameter. -/
def init (resetPc : W32) : St where
  pc := resetPc
  spec := ⟨fun _ => false, fun _ _ => 0#32, 0#32⟩
  arch := ⟨fun _ => false, fun _ _ => 0#32, 0#32⟩
  specRas := ⟨fun _ => 0#32, 0⟩
  archRas := ⟨fun _ => 0#32, 0⟩
  bank := fun _ => ⟨fun _ => ⟨0#32, false, .direct, 0#32, false, 0⟩, 0, 0, 0⟩

/-- `InputPayload`, BPU.h:116-142, and the answers of the three predictors: the type of the instruction in a slot, and per bank
the direction (`none`: `tage_pred_out_valid` low) and the target (`none`: `btb_pred_out_valid` low). -/
structure In where
  refetch : Option W32
  ready : Bool
  upds : List (Option Upd)
  pType : Nat → BrType
  tage : Nat → Option Bool
  btb : Nat → Option W32

/-- One slot of the fetch group: `do_pred_on_this_pc`, `do_pred_for_this_pc`, `pred_type`, `final_pred_dir`, and the target. -/
structure Slot where
  on : Bool
  pc : W32
  ty : BrType
  taken : Bool
  target : Option W32
  deriving DecidableEq

/-- `OutputPayload`, BPU.h:144-179, and what the banks are trained with. -/
structure Out where
  fetchAddr : W32
  readValid : Bool
  nextAddr : W32
  ptabWrite : Bool
  predDir : Nat → Bool
  full : Bool
  train : Nat → Option Upd

/-- `boundary_addr`, BPU.h:822-828. -/
def boundary (c : Cfg) (pc : W32) : W32 :=
  let mask := ~~~ (BitVec.ofNat 32 (c.lineSize - 1))
  let plus := pc + BitVec.ofNat 32 (c.fetchWidth * 4)
  if pc &&& mask ≠ plus &&& mask then plus &&& mask else plus

/-- `bpu_predict_main_comb`, the direction, BPU.h:1097-1109. -/
def predTaken (i : In) (ty : BrType) (bank : Nat) : Bool :=
  match ty with
  | .nonctl => false
  | .ret | .call | .idirect | .jal => true
  | .direct => (i.tage bank).getD false

/-- The group: BPU.h:830-842 and 1083-1151.  Each predicted slot reads its bank. -/
def slots (c : Cfg) (base : W32) (going : Bool) (i : In) : List Slot :=
  (List.range c.fetchWidth).map fun k =>
    let pc := base + BitVec.ofNat 32 (k * 4)
    let on := decide (pc.toNat < (boundary c base).toNat)
    let b := bankSel c pc
    ⟨on, pc, i.pType k, going && on && predTaken i (i.pType k) b, i.btb b⟩

/-- `next_fetch_addr_calc`: the first slot predicted taken whose target is valid, BPU.h:1143-1151. -/
def nextAddr (ras : Option W32) (dflt : W32) : List Slot → W32
  | [] => dflt
  | s :: r =>
    if s.on && s.taken then
      match s.target with
      | some t => if s.ty = .ret then ras.getD t else t
      | none => nextAddr ras dflt r
    else nextAddr ras dflt r

/-- The speculative history of the group: up to and including the first slot predicted taken, BPU.h:1285-1313. -/
def walkHist (c : Cfg) : List Slot → GHist → GHist
  | [], h => h
  | s :: r, h =>
    if !s.on then walkHist c r h else
    let h' := if s.ty = .direct then h.push c s.pc s.taken else h
    if s.taken then h' else walkHist c r h'

/-- The speculative stack: the first slot predicted taken, BPU.h:1314-1341. -/
def walkRas (c : Cfg) : List Slot → Ras → Ras
  | [], r => r
  | s :: l, r =>
    if !s.on || !s.taken then walkRas c l r else
    if s.ty = .call then r.push c (s.pc + 4#32)
    else if s.ty = .ret then r.pop
    else r

/-- The retired instructions enter the retired history; a mispredicted direction overwrites the speculative one,
BPU.h:1344-1382.  State: (speculative, retired). -/
def archStep (c : Cfg) (p : GHist × GHist) (u : Upd) : GHist × GHist :=
  if u.ty = .direct then
    let n := p.2.push c u.pc u.dir
    (if u.predDir ≠ u.dir then n else p.1, n)
  else p

/-- The retired stack, BPU.h:1384-1404. -/
def archRasStep (c : Cfg) (r : Ras) (u : Upd) : Ras :=
  if u.ty = .call then r.push c (u.pc + 4#32) else if u.ty = .ret then r.pop else r

/-- Top of a stack: `ras_has_entry_snapshot`, `ras_top_snapshot`, BPU.h:811-818, 862-871. -/
def Ras.top (r : Ras) : Option W32 := if 0 < r.cnt then some (r.stk (r.cnt - 1)) else none

/-- One cycle: `bpu_comb_calc` (BPU.h:2017-2076) and `bpu_seq_write` (BPU.h:1816-1931). -/
def cycle (c : Cfg) (s : St) (i : In) : Option (St × Out) :=
  let isRe := i.refetch.isSome
  -- BPU.h:820, 844-845
  let base := i.refetch.getD s.pc
  let going := i.ready || isRe
  let ss := slots c base going i
  let ras := if isRe then s.archRas.top else s.specRas.top
  let next := if going then nextAddr ras (boundary c base) ss else boundary c base
  -- BPU.h:1279-1343
  let upd := going && !isRe
  let spec1 := if upd then walkHist c ss s.spec else s.spec
  let specRas1 := if upd then walkRas c ss s.specRas else s.specRas
  let us := i.upds.filterMap id
  let p := us.foldl (archStep c) (spec1, s.arch)
  let archRas := us.foldl (archRasStep c) s.archRas
  -- BPU.h:1407-1475
  match pushAll c i.upds (fun b => (s.bank b).pop c) with
  | none => none
  | some bank =>
    -- BPU.h:1789-1808
    let pc' := match i.refetch with
      | some a => a
      | none => if going then next else s.pc
    some (
      { pc := pc'
        spec := if isRe then p.2 else p.1
        arch := p.2
        specRas := if isRe then archRas else specRas1
        archRas := archRas
        bank := bank },
      { fetchAddr := base
        readValid := !isRe
        nextAddr := next
        ptabWrite := upd
        predDir := fun k => (ss[k]?.map Slot.taken).getD false
        full := queueFull c bank
        train := fun b => if (s.bank b).count ≠ 0 then some ((s.bank b).slot (s.bank b).rd) else none })

/-- A run; the outputs in order. -/
def run (c : Cfg) (s : St) : List In → Option (St × List Out)
  | [] => some (s, [])
  | i :: r => do
    let (s', o) ← cycle c s i
    let (s'', os) ← run c s' r
    return (s'', o :: os)

end Verif.Bpu

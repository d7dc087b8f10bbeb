/-
Model of the level-1 data cache: MemSubSystem/RealDcache.cpp (both stages), MemSubSystem/MSHR.cpp,
MemSubSystem/WriteBuffer.cpp, MemSubSystem/DcacheConfig.cpp (arrays) and the driver functions
`dcache_domain_comb_outputs`, `dcache_domain_comb_inputs`, `capture_dcache_raw_response`,
`forward_pending_response_from_fill`, `publish_pending_dcache_response` and `dcache_fast_comb` of
MemSubSystem/MemSubsystem.cpp.

Conventions and simplifications.
* The `cur` copies of MSHR and write buffer are not read by the modelled code (only by counters); the state
  is `nxt`.
* Ports without a request are left out: the slots are the lists of valid requests in port order.  The
  condition `icache_req == i` becomes the flag `probe` of the slot.
* The registered requests to the write buffer and the MSHR (`bypass_req`, `merge_req`, `find_req`, line
  read) are issued by stage 1 exactly for the slots with `replayed = false` and carry the slot's address
  (RealDcache.cpp:221-316), so they are read off the slots.
* `fill_out` is requested by stage 1 exactly if stage 2 will hold a fill, for the fill's set
  (RealDcache.cpp:136-147,323), so stage 2 reads the fill's set directly.
* A set of `DCACHE_WORD_NUM` words is a function on word numbers; only numbers below 16 are ever used.
* `touched` in `FillW` and `late` in `LdResp` are bookkeeping for the statements; no decision reads them.
-/
namespace Verif.Dcache

/-- include/config.h:298-313 -/
def wayBits : Nat := 2
def ways : Nat := 2 ^ wayBits
def mshrN : Nat := 8
def wbN : Nat := 8

abbrev Line := Nat → BitVec 32

def upd {α : Type} (f : Nat → α) (i : Nat) (x : α) : Nat → α := fun j => if j = i then x else f j

/-! ## Addresses, DcacheConfig.cpp:45-57,119-121 -/

def setOf (a : BitVec 32) : BitVec 8 := (a >>> 6).setWidth 8
def tagOf (a : BitVec 32) : BitVec 18 := (a >>> 14).setWidth 18
def wordOf (a : BitVec 32) : Nat := ((a >>> 2) &&& 15#32).toNat
/-- `get_addr(set, tag, 0)`. -/
def getAddr (s : BitVec 8) (t : BitVec 18) : BitVec 32 := (t.setWidth 32 <<< 14) ||| (s.setWidth 32 <<< 6)
/-- The address of the line, as computed in MSHR.cpp:171-172. -/
def lineOf (a : BitVec 32) : BitVec 32 := getAddr (setOf a) (tagOf a)
/-- `cache_line_match`. -/
def lineMatch (a b : BitVec 32) : Bool := a >>> 6 = b >>> 6
/-- The mask of `find_wb_entry`, WriteBuffer.cpp:26. -/
def lineMask (a : BitVec 32) : BitVec 32 := a &&& ~~~63#32

/-- `apply_strobe`, DcacheConfig.cpp:84-94. -/
def strobe (dst src : BitVec 32) (strb : BitVec 8) : BitVec 32 :=
  (List.range 4).foldl (fun d b => if strb.getLsbD b then (d &&& ~~~(0xFF#32 <<< (b * 8))) ||| (src &&& (0xFF#32 <<< (b * 8))) else d) dst

/-! ## Arrays, DcacheConfig.cpp -/

structure Arr where
  valid : BitVec 8 → Nat → Bool
  dirty : BitVec 8 → Nat → Bool
  tag : BitVec 8 → Nat → BitVec 18
  data : BitVec 8 → Nat → Line
  plru : BitVec 8 → Nat → Bool

def upd2 {α : Type} (f : BitVec 8 → Nat → α) (s : BitVec 8) (w : Nat) (x : α) : BitVec 8 → Nat → α :=
  fun s' w' => if s' = s ∧ w' = w then x else f s' w'

/-- `init_dcache`, DcacheConfig.cpp:36-43. -/
def Arr.init : Arr :=
  { valid := fun _ _ => false, dirty := fun _ _ => false, tag := fun _ _ => 0#18, data := fun _ _ _ => 0#32, plru := fun _ _ => false }

/-- `plru_touch_way`, DcacheConfig.cpp:16-33, `k` levels to go. -/
def touchLoop (way : Nat) : (k node left : Nat) → (Nat → Bool) → (Nat → Bool)
  | 0, _, _, t => t
  | k + 1, node, left, t =>
    let right := decide (way ≥ left + 2 ^ k)
    touchLoop way k (node * 2 + if right then 2 else 1) (if right then left + 2 ^ k else left) (upd t node (!right))

def touch (a : Arr) (s : BitVec 8) (way : Nat) : Arr :=
  if way ≥ ways then a else { a with plru := fun s' => if s' = s then touchLoop way wayBits 0 0 (a.plru s) else a.plru s' }

/-- `choose_plru_tree_victim`, DcacheConfig.cpp:71-80, `k` levels to go. -/
def victimLoop (t : Nat → Bool) : (k node way : Nat) → Nat
  | 0, _, way => way
  | k + 1, node, way => victimLoop t k (node * 2 + if t node then 2 else 1) (if t node then way + 2 ^ k else way)

/-- `choose_plru_tree_victim`, DcacheConfig.cpp:60-81. -/
def victim (t : Nat → Bool) (valid : Nat → Bool) : Nat :=
  match (List.range ways).find? (fun w => !valid w) with
  | some w => w
  | none => victimLoop t wayBits 0 0

/-- The way that holds the line, e.g. RealDcache.cpp:415-421. -/
def hitWay (a : Arr) (s : BitVec 8) (t : BitVec 18) : Option Nat :=
  (List.range ways).find? fun w => a.valid s w && decide (a.tag s w = t)

/-! ## MSHR -/

/-- `MSHREntry`, MSHR.h:16-29. -/
structure MEntry where
  valid : Bool := false
  issued : Bool := false
  addr : BitVec 32 := 0#32
  dirty : Bool := false
  data : Line := fun _ => 0#32
  strb : Nat → BitVec 8 := fun _ => 0#8

/-- `MSHR_STATE`, MSHR.h:32-42; `hold` is the held read response. -/
structure Mshr where
  ent : Nat → MEntry := fun _ => {}
  count : Nat := 0
  hold : Option (Nat × Line) := none

/-- `find_entry_idx`, MSHR.cpp:12-20. -/
def Mshr.find (m : Mshr) (line : BitVec 32) : Option Nat :=
  (List.range mshrN).find? fun i => (m.ent i).valid && decide ((m.ent i).addr = line)

/-- A store (`MergeReq`, `StoreSlot`). -/
structure St where
  addr : BitVec 32
  data : BitVec 32
  strb : BitVec 8
  id : BitVec 32
  deriving DecidableEq

/-- `merge_store_into_entry`, MSHR.cpp:28-36. -/
def MEntry.merge (e : MEntry) (r : St) : MEntry :=
  { e with
    data := upd e.data (wordOf r.addr) (strobe (e.data (wordOf r.addr)) r.data r.strb)
    strb := upd e.strb (wordOf r.addr) (e.strb (wordOf r.addr) ||| r.strb)
    dirty := true }

/-- A request to the MSHR: the line of a missing load, or a store. -/
inductive MReq
  | load (addr : BitVec 32)
  | store (r : St)

def MReq.addr : MReq → BitVec 32
  | .load a => a
  | .store r => r.addr

/-- One request, MSHR.cpp:168-212. -/
def Mshr.request (m : Mshr) (q : MReq) : Mshr :=
  let line := lineOf q.addr
  let (m1, idx) :=
    match m.find line with
    | some i => (m, some i)
    | none =>
      match (List.range mshrN).find? (fun j => !(m.ent j).valid) with
      | some j => ({ m with ent := upd m.ent j { valid := true, addr := line }, count := m.count + 1 }, some j)
      | none => (m, none)
  match q, idx with
  | .store r, some i => { m1 with ent := upd m1.ent i ((m1.ent i).merge r) }
  | _, _ => m1

/-- End of a fill, MSHR.cpp:116-158. -/
def Mshr.done (m : Mshr) (id : Nat) : Mshr :=
  match m.hold with
  | some (h, _) =>
    if id < mshrN ∧ h = id ∧ (m.ent id).valid = true ∧ (m.ent id).issued = true then
      { ent := upd m.ent id { valid := false, issued := false, addr := (m.ent id).addr }, count := m.count - 1, hold := none }
    else m
  | none => m

/-- `fill_resp`, if any. -/
def Mshr.finish (m : Mshr) : Option Nat → Mshr
  | some id => m.done id
  | none => m

/-- `comb_inputs_axi`, accepted request, MSHR.cpp:222-256.  `none`: assertion "Invalid MSHR accepted request
ID". -/
def Mshr.accepted (m : Mshr) (id : Option Nat) : Option Mshr :=
  match id with
  | none => some m
  | some i =>
    if i < mshrN then
      some (if (m.ent i).valid = true ∧ (m.ent i).issued = false then { m with ent := upd m.ent i { m.ent i with issued := true } } else m)
    else none

/-- `comb_inputs_axi`, read response, MSHR.cpp:260-296; tells whether the response was taken. -/
def Mshr.response (m : Mshr) (r : Option (Nat × Line)) : Mshr × Bool :=
  match m.hold, r with
  | none, some (i, l) =>
    if i < mshrN ∧ (m.ent i).valid = true ∧ (m.ent i).issued = true then ({ m with hold := some (i, l) }, true) else (m, false)
  | _, _ => (m, false)

/-- `comb_outputs_axi`, MSHR.cpp:99-110: the request presented to the interconnect. -/
def Mshr.axiReq (m : Mshr) : Option (Nat × BitVec 32) :=
  ((List.range mshrN).find? fun i => (m.ent i).valid && !(m.ent i).issued).map fun i => (i, (m.ent i).addr)

/-- The line with the stores merged while it was outstanding, MSHR.cpp:79-86. -/
def MEntry.over (e : MEntry) (l : Line) : Line := fun w => if e.strb w ≠ 0#8 then strobe (l w) (e.data w) (e.strb w) else l w

/-- `MSHR_FILLReq`. -/
structure FillReq where
  id : Nat
  dirty : Bool
  addr : BitVec 32
  data : Line

/-- `comb_outputs_dcache`, MSHR.cpp:70-98. -/
def Mshr.fillReq (m : Mshr) : Option FillReq :=
  m.hold.map fun (i, l) => { id := i, dirty := (m.ent i).dirty, addr := (m.ent i).addr, data := (m.ent i).over l }

/-! ## Write buffer -/

structure WEntry where
  addr : BitVec 32 := 0#32
  data : Line := fun _ => 0#32

structure Wb where
  ent : Nat → WEntry := fun _ => {}
  head : Nat := 0
  count : Nat := 0
  send : Bool := false

/-- Entry at distance `c` from the head. -/
def Wb.at (b : Wb) (c : Nat) : WEntry := b.ent ((b.head + c) % wbN)

/-- `find_wb_entry`, WriteBuffer.cpp:20-34: the last match of the first `c` entries, as distance from the
head. -/
def Wb.findIn (b : Wb) (line : BitVec 32) : (c : Nat) → Option Nat
  | 0 => none
  | c + 1 => if (b.at c).addr = line then some c else b.findIn line c

def Wb.find (b : Wb) (a : BitVec 32) : Option Nat := b.findIn (lineMask a) b.count

/-- A load looks into the write buffer, WriteBuffer.cpp:51-66. -/
def Wb.bypass (b : Wb) (a : BitVec 32) : Option (BitVec 32) := (b.find a).map fun c => (b.at c).data (wordOf a)

/-- Answer to a merge request. -/
inductive Merge
  | no | busy | done
  deriving DecidableEq

/-- A store looks into the write buffer, WriteBuffer.cpp:68-92. -/
def Wb.merge (b : Wb) (r : St) : Wb × Merge :=
  match b.find r.addr with
  | none => (b, .no)
  | some c =>
    if (b.head + c) % wbN = b.head ∧ b.count > 0 ∧ b.send = true then (b, .busy)
    else
      let i := (b.head + c) % wbN
      ({ b with ent := upd b.ent i { b.ent i with
          data := upd (b.ent i).data (wordOf r.addr) (strobe ((b.ent i).data (wordOf r.addr)) r.data r.strb) } }, .done)

/-- `comb_inputs_axi`, WriteBuffer.cpp:117-171.  `none`: assertion "WriteBuffer underflow". -/
def Wb.axi (b : Wb) (accepted resp : Bool) : Option Wb :=
  let b1 := if accepted then { b with send := true } else b
  if resp then
    if b1.count > 0 then some { b1 with count := b1.count - 1, head := (b1.head + 1) % wbN, send := false } else none
  else some b1

/-- `comb_inputs_dcache`, WriteBuffer.cpp:173-195.  `none`: assertion "WriteBuffer overflow". -/
def Wb.push (b : Wb) (d : Option (BitVec 32 × Line)) : Option Wb :=
  match d with
  | none => some b
  | some (a, l) =>
    if b.count < wbN then
      some { b with ent := upd b.ent ((b.head + b.count) % wbN) { addr := a, data := l }, count := b.count + 1 }
    else none

/-- `comb_outputs_axi`, WriteBuffer.cpp:95-114: the request presented to the interconnect. -/
def Wb.axiReq (b : Wb) : Option (BitVec 32 × Line) :=
  if b.send = true ∨ b.count = 0 then none else some ((b.ent b.head).addr, (b.ent b.head).data)

/-! ## Requests and answers -/

/-- `ReplayType`, IO.h:1211-1216. -/
inductive Replay
  | hit | conflict | mshrHit | mshrFull
  deriving DecidableEq, Repr

/-- `S1S2Reg::LoadSlot`; `probe`: a look-up of the instruction cache (`icache_req`). -/
structure Ld where
  addr : BitVec 32
  id : BitVec 32
  probe : Bool := false
  deriving DecidableEq

/-- An answer to a load, with the request's address (`DcacheRespMeta`); `late`: given from a fill that had
already taken in a store. -/
structure LdResp where
  req : Ld
  replay : Replay
  data : BitVec 32 := 0#32
  late : Bool := false
  deriving DecidableEq

/-- An answer to a store, with the request (`DcacheRespMeta`). -/
structure StResp where
  req : St
  replay : Replay
  deriving DecidableEq

/-- `FILLWrite` as register between the stages; `touched`: it has taken in a store. -/
structure FillW where
  id : Nat
  dirty : Bool
  set : BitVec 8
  tag : BitVec 18
  data : Line
  touched : Bool := false

structure State where
  arr : Arr := Arr.init
  m : Mshr := {}
  wb : Wb := {}
  /-- stage 2 slots, with `replayed` (no bank) -/
  loads : List (Ld × Bool) := []
  stores : List (St × Bool) := []
  fill : Option FillW := none
  pendLd : List LdResp := []
  pendSt : List StResp := []

/-! ## Stage 2 -/

/-- A line with a store written into it. -/
def Line.put (l : Line) (r : St) : Line := upd l (wordOf r.addr) (strobe (l (wordOf r.addr)) r.data r.strb)

/-- What stage 2 writes into the arrays for the fill (`out.fill_write`). -/
structure FillOut where
  id : Nat
  dirty : Bool
  set : BitVec 8
  tag : BitVec 18
  way : Nat
  data : Line

/-- The fill in stage 2, RealDcache.cpp:349-391: the array write, if it takes place, and the evicted line. -/
def fillStep (a : Arr) (free : Nat) (f : Option FillW) : Option FillOut × Option (BitVec 32 × Line) :=
  match f with
  | none => (none, none)
  | some f =>
    let w := victim (a.plru f.set) (a.valid f.set)
    let o : FillOut := { id := f.id, dirty := f.dirty, set := f.set, tag := f.tag, way := w, data := f.data }
    if a.valid f.set w = true ∧ a.dirty f.set w = true then
      if free > 0 then (some o, some (getAddr f.set (a.tag f.set w), a.data f.set w)) else (none, none)
    else (some o, none)

/-- A load in stage 2, RealDcache.cpp:396-480: the answer, the MSHR request and the remaining free MSHR
entries. -/
def loadStep (s : State) (free : Nat) (x : Ld × Bool) : LdResp × Option MReq × Nat :=
  let (r, replayed) := x
  if replayed then ({ req := r, replay := .conflict }, none, free)
  else
    match s.wb.bypass r.addr with
    | some d => ({ req := r, replay := .hit, data := d }, none, free)
    | none =>
      match hitWay s.arr (setOf r.addr) (tagOf r.addr) with
      | some w => ({ req := r, replay := .hit, data := s.arr.data (setOf r.addr) w (wordOf r.addr) }, none, free)
      | none =>
        if r.probe then ({ req := r, replay := .conflict }, none, free)
        else if (s.m.find (lineOf r.addr)).isSome then ({ req := r, replay := .mshrHit }, none, free)
        else if free = 0 then ({ req := r, replay := .mshrFull }, none, free)
        else ({ req := r, replay := .mshrHit }, some (.load r.addr), free - 1)

/-- The ways touched by loads (`lru_updates`), RealDcache.cpp:437-439. -/
def loadTouch (s : State) (x : Ld × Bool) : Option (BitVec 8 × Nat) :=
  if x.2 then none
  else if (s.wb.bypass x.1.addr).isSome then none
  else (hitWay s.arr (setOf x.1.addr) (tagOf x.1.addr)).map fun w => (setOf x.1.addr, w)

def loadsStep (s : State) : Nat → List (Ld × Bool) → List LdResp × List MReq × Nat
  | free, [] => ([], [], free)
  | free, x :: xs =>
    let (r, q, free1) := loadStep s free x
    let (rs, qs, free2) := loadsStep s free1 xs
    (r :: rs, q.toList ++ qs, free2)

/-- Effect of a store in stage 2. -/
inductive StEff
  /-- into the fill that is written to the arrays in this cycle -/
  | fillOut (r : St)
  /-- into the fill that stays in (or enters) stage 2: `fill_req_merge_wires` -/
  | fillReg (r : St)
  /-- `pendingwrite` -/
  | array (set : BitVec 8) (way : Nat) (r : St)
  | mshr (r : St)

/-- Is the line the one of the fill request?  RealDcache.cpp:504. -/
def State.fillHits (s : State) (a : BitVec 32) : Bool :=
  match s.m.fillReq with
  | some q => lineMatch a q.addr
  | none => false

/-- `fill_req_already_in_s2`, RealDcache.cpp:505-509. -/
def State.inS2 (s : State) : Bool :=
  match s.m.fillReq, s.fill with
  | some q, some f => decide (f.set = setOf q.addr ∧ f.tag = tagOf q.addr)
  | _, _ => false

/-- Does a hit in way `k` of the set collide with the fill in stage 2?  RealDcache.cpp:535. -/
def State.clash (s : State) (fo : Option FillOut) (set : BitVec 8) (k : Nat) : Bool :=
  (match s.fill with | some f => decide (f.set = set) | none => false) && decide ((match fo with | some o => o.way | none => 0) = k)

/-- A store in stage 2, RealDcache.cpp:484-616.  `mg` is the answer of the write buffer, `fo` the array write
of the fill. -/
def storeStep (s : State) (fo : Option FillOut) (free : Nat) (x : St × Bool) (mg : Merge) : StResp × Option StEff × Nat :=
  let (r, replayed) := x
  if replayed then ({ req := r, replay := .conflict }, none, free)
  else if s.fillHits r.addr then
    if s.inS2 = true ∧ fo.isSome = true then ({ req := r, replay := .hit }, some (.fillOut r), free)
    else ({ req := r, replay := .hit }, some (.fillReg r), free)
  else
    match hitWay s.arr (setOf r.addr) (tagOf r.addr) with
    | some w =>
      if s.clash fo (setOf r.addr) w then ({ req := r, replay := .conflict }, none, free)
      else ({ req := r, replay := .hit }, some (.array (setOf r.addr) w r), free)
    | none =>
      match mg with
      | .done => ({ req := r, replay := .hit }, none, free)
      | .busy => ({ req := r, replay := .conflict }, none, free)
      | .no =>
        if (s.m.find (lineOf r.addr)).isSome then ({ req := r, replay := .hit }, some (.mshr r), free)
        else if free = 0 then ({ req := r, replay := .mshrFull }, none, free)
        else ({ req := r, replay := .hit }, some (.mshr r), free - 1)

def storesStep (s : State) (fo : Option FillOut) : Nat → List ((St × Bool) × Merge) → List StResp × List StEff
  | _, [] => ([], [])
  | free, (x, mg) :: xs =>
    let (r, e, free1) := storeStep s fo free x mg
    let (rs, es) := storesStep s fo free1 xs
    (r :: rs, e.toList ++ es)

/-- Merge requests of the stores in stage 2, in port order, WriteBuffer.cpp:68-92. -/
def mergeAll (b : Wb) : List (St × Bool) → Wb × List Merge
  | [] => (b, [])
  | (r, replayed) :: xs =>
    let (b1, mg) := if replayed then (b, Merge.no) else b.merge r
    let (b2, mgs) := mergeAll b1 xs
    (b2, mg :: mgs)

/-! ## Array writes, `Dcache_Write`, DcacheConfig.cpp:139-168 -/

def Arr.put (a : Arr) (s : BitVec 8) (w : Nat) (r : St) : Arr :=
  { a with data := upd2 a.data s w ((a.data s w).put r), dirty := upd2 a.dirty s w true }

/-- `pendingwrite` and the store's `lru_updates` entry. -/
def applyEff (a : Arr) : StEff → Arr
  | .array s w r => touch (a.put s w r) s w
  | _ => a

/-- `write_dcache_line` and the dirty bit, DcacheConfig.cpp:96-117,152-165. -/
def Arr.install (a : Arr) (o : FillOut) : Arr :=
  let w := (hitWay a o.set o.tag).getD o.way
  let a1 : Arr :=
    { a with
      valid := upd2 a.valid o.set w true
      dirty := upd2 a.dirty o.set w o.dirty
      tag := upd2 a.tag o.set w o.tag
      data := upd2 a.data o.set w o.data }
  touch a1 o.set w

/-! ## Forwarding from the fill, MemSubsystem.cpp:882-925 -/

/-- `replay_waits_for_mshr_fill`. -/
def Replay.waits : Replay → Bool
  | .mshrHit | .mshrFull => true
  | _ => false

/-- A load answer waiting for the line is answered from the fill. -/
def fwdLoad (q : Option FillReq) (touched : Bool) (r : LdResp) : LdResp :=
  match q with
  | some q =>
    if r.replay.waits && lineMatch r.req.addr q.addr then { r with data := q.data (wordOf r.req.addr), replay := .hit, late := touched }
    else r
  | none => r

/-- Is the store answer turned into a hit? -/
def fwdTakes (q : FillReq) (r : StResp) : Bool := r.replay.waits && lineMatch r.req.addr q.addr

def fwdStore (q : Option FillReq) (r : StResp) : StResp :=
  match q with
  | some q => if fwdTakes q r then { r with replay := .hit } else r
  | none => r

/-- The fill request with the forwarded stores in it. -/
def fwdFill (q : FillReq) (rs : List StResp) : FillReq :=
  rs.foldl (fun q r => if fwdTakes q r then { q with data := q.data.put r.req, dirty := true } else q) q

/-! ## Stage 1 -/

/-- `try_grant_bank`, RealDcache.cpp:160-176; `g` is the line granted per bank. -/
def grant (g : BitVec 4 → Option (BitVec 32)) (a : BitVec 32) : (BitVec 4 → Option (BitVec 32)) × Bool :=
  let b := (setOf a).setWidth 4
  match g b with
  | none => (fun b' => if b' = b then some (a >>> 6) else g b', true)
  | some l => (g, decide (l = a >>> 6))

def grantAll (g : BitVec 4 → Option (BitVec 32)) : List (BitVec 32) → (BitVec 4 → Option (BitVec 32)) × List Bool
  | [] => (g, [])
  | a :: as =>
    let (g1, ok) := grant g a
    let (g2, oks) := grantAll g1 as
    (g2, (!ok) :: oks)

/-- Does the fill request name the line that is in stage 2?  RealDcache.cpp:134-139. -/
def sameInS2 (q : FillReq) (f : Option FillW) : Bool :=
  match f with
  | some f => decide (f.set = setOf q.addr ∧ f.tag = tagOf q.addr)
  | none => false

/-- The fill register after this cycle, RealDcache.cpp:134-213.  `q`: fill request, `f`: register,
`written`: the register's line is written to the arrays in this cycle, `ms`: `fill_req_merge_wires`,
`fwd`: stores were merged into the request (bookkeeping). -/
def nextFill (q : Option FillReq) (f : Option FillW) (written : Bool) (ms : List St) (fwd : Bool) : Option FillW :=
  match q with
  | none => none
  | some q =>
    let base : Option FillW :=
      if sameInS2 q f = true then (if written then none else f)
      else some { id := q.id, dirty := q.dirty, set := setOf q.addr, tag := tagOf q.addr, data := q.data, touched := fwd }
    base.map fun b => ms.foldl (fun b r => { b with data := b.data.put r, dirty := true, touched := true }) b

/-! ## One cycle of the cache -/

structure Input where
  wbAccepted : Bool := false
  wbResp : Bool := false
  rdAccepted : Option Nat := none
  rdResp : Option (Nat × Line) := none
  /-- a processor cycle: answers are handed out and new requests taken; otherwise a cycle of the fast
  domain (`dcache_fast_comb(false)`) -/
  slow : Bool := true
  loads : List Ld := []
  stores : List St := []

/-- What the processor sees, and whether the read response was taken. -/
structure Output where
  loads : List LdResp := []
  stores : List StResp := []
  rdTaken : Bool := false

def StEff.reg? : StEff → Option St
  | .fillReg r => some r
  | _ => none
def StEff.out? : StEff → Option St
  | .fillOut r => some r
  | _ => none
def StEff.mshr? : StEff → Option MReq
  | .mshr r => some (.store r)
  | _ => none

/-- The state after the inputs from the interconnect (MemSubsystem.cpp:803-804). -/
def axiStep (s : State) (i : Input) : Option (State × Bool) :=
  match s.wb.axi i.wbAccepted i.wbResp, s.m.accepted i.rdAccepted with
  | some b, some m =>
    let (m1, taken) := m.response i.rdResp
    some ({ s with wb := b, m := m1 }, taken)
  | _, _ => none

/-- Stage 2 and everything it feeds, MemSubsystem.cpp:806-817,846-925: the new arrays, the answers (pending
ones included), the stores merged into the fill register, the MSHR requests, the fill written and the line
evicted. -/
structure Mid where
  arr : Arr
  wb : Wb
  rs : List LdResp
  ss : List StResp
  fill : Option FillW
  reqs : List MReq
  fin : Option Nat
  evict : Option (BitVec 32 × Line)

/-- `none`: assertion "DCache load/store response latch overflow" (per port in the code, for all ports here). -/
def midStep (s : State) : Option Mid :=
  -- WriteBuffer::comb_outputs_dcache: loads see the entries before this cycle's merges
  let (b1, mgs) := mergeAll s.wb s.stores
  let free := mshrN - s.m.count
  let fs := fillStep s.arr (wbN - s.wb.count) s.fill
  let ls := loadsStep s free s.loads
  let st := storesStep s fs.1 ls.2.2 (s.stores.zip mgs)
  let fo : Option FillOut := fs.1.map fun o => (st.2.filterMap StEff.out?).foldl (fun o r => { o with data := o.data.put r, dirty := true }) o
  let touches := s.loads.filterMap (loadTouch s)
  let a1 := touches.foldl (fun a t => touch a t.1 t.2) s.arr
  let a2 := st.2.foldl applyEff a1
  let a3 := match fo with | some o => a2.install o | none => a2
  if (s.pendLd ≠ [] ∧ ls.1 ≠ []) ∨ (s.pendSt ≠ [] ∧ st.1 ≠ []) then none
  else
    let q := s.m.fillReq
    let touched := match s.fill with | some f => f.touched | none => false
    let pl := s.pendLd ++ ls.1
    let ps := s.pendSt ++ st.1
    let q1 := q.map fun q => fwdFill q ps
    some
      { arr := a3, wb := b1
        rs := pl.map (fwdLoad q touched)
        ss := ps.map (fwdStore q)
        fill := nextFill q1 s.fill fo.isSome (st.2.filterMap StEff.reg?) ((ps.any fun r => match q with | some q => fwdTakes q r | none => false))
        reqs := ls.2.1 ++ st.2.filterMap StEff.mshr?
        fin := fo.map (·.id)
        evict := fs.2 }

/-- Bank arbitration, RealDcache.cpp:140-176,221-316: which loads and stores get no bank.  `written`: the fill
in stage 2 is written to the arrays in this cycle. -/
def banks (s : State) (written : Bool) (loads : List Ld) (stores : List St) : List Bool × List Bool :=
  let snap := match s.m.fillReq with
    | some q => !(sameInS2 q s.fill && written)
    | none => false
  let g0 : BitVec 4 → Option (BitVec 32) := fun b =>
    match s.m.fillReq with
    | some q => if snap = true ∧ b = (setOf q.addr).setWidth 4 then some (q.addr >>> 6) else none
    | none => none
  let gl := grantAll g0 (loads.map (·.addr))
  (gl.2, (grantAll gl.1 (stores.map (·.addr))).2)

/-- Stage 1 and the updates of MSHR and write buffer, MemSubsystem.cpp:806-957. -/
def coreStep (s : State) (slow : Bool) (loads : List Ld) (stores : List St) : Option (State × Output) :=
  match midStep s with
  | none => none
  | some d =>
    let ldIn := if slow then loads else []
    let stIn := if slow then stores else []
    let bk := banks s d.fin.isSome ldIn stIn
    -- MSHR::comb_inputs_dcache, WriteBuffer::comb_inputs_dcache
    match d.wb.push d.evict with
    | none => none
    | some b =>
      some
        ({ arr := d.arr, m := d.reqs.foldl Mshr.request (s.m.finish d.fin), wb := b,
           loads := ldIn.zip bk.1, stores := stIn.zip bk.2, fill := d.fill,
           pendLd := if slow then [] else d.rs, pendSt := if slow then [] else d.ss },
         { loads := if slow then d.rs else [], stores := if slow then d.ss else [] })

/-- One cycle of the data cache, MemSubsystem.cpp:799-975. -/
def tick (s : State) (i : Input) : Option (State × Output) :=
  match axiStep s i with
  | none => none
  | some (s1, taken) => (coreStep s1 i.slow i.loads i.stores).map fun (s2, o) => (s2, { o with rdTaken := taken })

end Verif.Dcache

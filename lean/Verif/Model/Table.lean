/-
The storage tables of front-end/icache/GenericTable.h (`DynamicGenericTable`, with the register-file and the SRAM policy) and the tables of the
last-level cache built from them, `AxiLlcTableRuntime` (MemSubSystem/MemSubsystem.cpp:43-239).

`uint32_t` arithmetic wraps (`u32`); `size_t` arithmetic does not wrap for the sizes that occur (products of two `uint32_t`).  A `memcpy` outside
one of its buffers is undefined and gives `none`; so is a failing `assert`.

Simplifications: payloads and enable vectors are lists; the four tables of the last-level cache are never given a read request
(`data.seq({}, …)`, MemSubsystem.cpp:187-190), so of them only the storage is kept; the cache is enabled
(`enabled`, without it `comb_outputs` and `seq` do nothing, MemSubsystem.cpp:133,159).
-/
namespace Verif.Table

abbrev Byte := BitVec 8

def u32 (x : Nat) : Nat := x % 2 ^ 32

/-- `DynamicTableConfig`, GenericTable.h:22-27. -/
structure Cfg where
  rows : Nat
  chunks : Nat
  chunkBits : Nat

/-- `chunk_bytes`, `row_bytes`, `total_storage_bytes`, GenericTable.h:77-81. -/
def chunkBytes (c : Cfg) : Nat := u32 (c.chunkBits + 7) / 8
def rowBytes (c : Cfg) : Nat := u32 (c.chunks * chunkBytes c)
def total (c : Cfg) : Nat := c.rows * rowBytes c

/-- `memcpy(dst + d, src + s, n)`. -/
def memcpy (dst : List Byte) (d : Nat) (src : List Byte) (s n : Nat) : Option (List Byte) :=
  if d + n ≤ dst.length ∧ s + n ≤ src.length then some (dst.take d ++ (src.drop s).take n ++ dst.drop (d + n)) else none

/-- `reset_contents`, GenericTable.h:74; `configure` leaves the same, 69-72. -/
def blank (c : Cfg) : List Byte := List.replicate (total c) 0#8

/-- `copy_row_to_payload`, GenericTable.h:86-92. -/
def copyRow (c : Cfg) (st : List Byte) (a : Nat) : Option (List Byte) :=
  if a < c.rows ∧ rowBytes c ≠ 0 then memcpy (List.replicate (rowBytes c) 0#8) 0 st (a * rowBytes c) (rowBytes c)
  else some (List.replicate (rowBytes c) 0#8)

/-- `DynamicTableWriteReq`, GenericTable.h:49-54. -/
structure Write where
  enable : Bool := false
  address : Nat := 0
  payload : List Byte := []
  chunkEnable : List Bool := []

/-- The loop of `write_chunks`, GenericTable.h:110-116; `fuel` chunks from number `i` on. -/
def writeLoop (c : Cfg) (w : Write) : Nat → Nat → List Byte → Option (List Byte)
  | 0, _, st => some st
  | fuel + 1, i, st =>
    if w.chunkEnable.getD i false then
      (memcpy st (w.address * rowBytes c + i * chunkBytes c) w.payload (i * chunkBytes c) (chunkBytes c)).bind (writeLoop c w fuel (i + 1))
    else writeLoop c w fuel (i + 1) st

/-- `write_chunks`, GenericTable.h:94-117. -/
def writeChunks (c : Cfg) (st : List Byte) (w : Write) : Option (List Byte) :=
  if !w.enable || !decide (w.address < c.rows) then some st
  else if chunkBytes c = 0 ∨ c.chunks = 0 then some st
  else if w.payload.length < rowBytes c then some st
  else if w.chunkEnable.length < c.chunks then some st
  else writeLoop c w c.chunks 0 st

/-- `DynamicTableReadReq`, GenericTable.h:39-42. -/
structure Read where
  enable : Bool := false
  address : Nat := 0

/-- `DynamicGenericTable<RegfileTablePolicy>::comb`, GenericTable.h:146-154, and `debug_read_row`, 160-167: `none` inside is `valid == false`. -/
def regComb (c : Cfg) (st : List Byte) (r : Read) : Option (Option (List Byte)) :=
  if !r.enable || !decide (r.address < c.rows) then some none else (copyRow c st r.address).map some

/-! ### The SRAM policy -/

/-- `GenericTableTimingConfig`, GenericTable.h:15-20. -/
structure Timing where
  fixed : Nat := 1
  random : Bool := false
  min : Nat := 1
  max : Nat := 1

/-- `clamp_latency`, GenericTable.h:58. -/
def clamp (x : Nat) : Nat := if x < 1 then 1 else x

/-- `advance_seed`, GenericTable.h:60-65. -/
def advance (x : BitVec 32) : BitVec 32 :=
  let x := x ^^^ (x <<< 13)
  let x := x ^^^ (x >>> 17)
  x ^^^ (x <<< 5)

/-- `choose_latency`, GenericTable.h:244-256: the latency and the new seed. -/
def chooseLatency (t : Timing) (seed : BitVec 32) : Nat × BitVec 32 :=
  if t.random then
    let lo := clamp t.min
    let hi := if t.max < lo then lo else t.max
    let seed := advance seed
    (clamp (u32 (lo + seed.toNat % u32 (hi - lo + 1))), seed)
  else (clamp (clamp t.fixed), seed)

/-- The registers of `DynamicGenericTable<SramTablePolicy>`, GenericTable.h:258-263. -/
structure Sram where
  st : List Byte
  pend : Bool := false
  addr : Nat := 0
  delay : Nat := 0
  seed : BitVec 32 := 1#32

/-- `reset`, GenericTable.h:192-198. -/
def Sram.init (c : Cfg) : Sram := { st := blank c }

/-- `comb`, GenericTable.h:200-209 (the request is not looked at). -/
def Sram.comb (c : Cfg) (s : Sram) : Option (Option (List Byte)) :=
  if !s.pend || decide (s.delay ≠ 0) || !decide (s.addr < c.rows) then some none else (copyRow c s.st s.addr).map some

/-- `seq`, GenericTable.h:211-227. -/
def Sram.seq (c : Cfg) (t : Timing) (s : Sram) (r : Read) (w : Write) : Option Sram :=
  (writeChunks c s.st w).map fun st =>
    if r.enable && !s.pend && decide (r.address < c.rows) then
      { st, pend := true, addr := r.address, delay := (chooseLatency t s.seed).1 - 1, seed := (chooseLatency t s.seed).2 }
    else if !r.enable && s.pend && decide (s.delay = 0) then { st, pend := false, addr := 0, delay := 0, seed := s.seed }
    else if s.pend && decide (0 < s.delay) then { s with st, delay := s.delay - 1 }
    else { s with st }

/-! ### The tables of the last-level cache -/

/-- `AXI_LLC_TableReq_t` as used at MemSubsystem.cpp:68-100. -/
structure Req where
  enable : Bool := false
  write : Bool := false
  index : Nat := 0
  way : Nat := 0
  payload : List Byte := []
  byteEnable : List Bool := []

/-- `make_table_config`, MemSubsystem.cpp:57-66. -/
def llcCfg (rows rowBytes : Nat) : Cfg := ⟨rows, rowBytes, 8⟩

/-- `make_write_req`, MemSubsystem.cpp:76-100; the copies stay inside the row by the choice of `copy_bytes`. -/
def makeWrite (q : Req) (rowBytes unit : Nat) : Write :=
  let base := if unit = 0 then 0 else q.way * unit
  let n := min q.payload.length (if base < rowBytes then rowBytes - base else 0)
  let on := q.enable && q.write
  if !on || decide (n = 0) then ⟨on, q.index, List.replicate rowBytes 0#8, List.replicate rowBytes false⟩
  else ⟨on, q.index, List.replicate base 0#8 ++ q.payload.take n ++ List.replicate (rowBytes - base - n) 0#8,
    List.replicate base false ++ (q.byteEnable.take n) ++ List.replicate (rowBytes - base - min q.byteEnable.length n) false⟩

/-- Which table: `data`, `meta`, `valid`, `repl`, MemSubsystem.cpp:44-47. -/
inductive Tab | data | tags | valid | repl
  deriving DecidableEq

/-- The parts of `AXI_LLCConfig` that are used: `set_count`, `lookup_latency`, and for each table the bytes of a row and of a way's part of it (0: the
row is not divided), MemSubsystem.cpp:113-125,171-185. -/
structure LlcCfg where
  sets : Nat
  latency : Nat
  row : Tab → Nat
  unit : Tab → Nat

/-- The registers of `AxiLlcTableRuntime`, MemSubsystem.cpp:44-55. -/
structure Llc where
  tab : Tab → List Byte
  pend : Bool := false
  idx : Nat := 0
  delay : Nat := 0
  queued : Bool := false
  qidx : Nat := 0

/-- `AXI_LLC_TableOut_t`. -/
structure Out where
  invalidate : Bool := false
  req : Tab → Req := fun _ => {}

def Llc.init (k : LlcCfg) : Llc := { tab := fun b => blank (llcCfg k.sets (k.row b)) }

/-- `comb_outputs`, MemSubsystem.cpp:131-156: nothing, or for each table the row (`none`: not valid). -/
def Llc.comb (k : LlcCfg) (s : Llc) : Option (Tab → Option (Option (List Byte))) :=
  if !s.pend || decide (s.delay ≠ 0) then none
  else some fun b => regComb (llcCfg k.sets (k.row b)) (s.tab b) ⟨true, s.idx⟩

def rd (q : Req) : Bool := q.enable && !q.write

/-- A request to look a set up, MemSubsystem.cpp:192-197. -/
def Out.any (o : Out) : Bool := rd (o.req .data) || rd (o.req .tags) || rd (o.req .valid) || rd (o.req .repl)

/-- The assertions, MemSubsystem.cpp:198-203. -/
def Out.ok (o : Out) : Bool :=
  !o.any || (rd (o.req .data) && rd (o.req .tags) && rd (o.req .valid) && rd (o.req .repl) &&
    decide ((o.req .data).index = (o.req .tags).index) && decide ((o.req .data).index = (o.req .valid).index) &&
    decide ((o.req .data).index = (o.req .repl).index))

/-- `lookup_delay_left` of a new lookup, MemSubsystem.cpp:219,224,236. -/
def LlcCfg.first (k : LlcCfg) : Nat := if k.latency = 0 then 0 else k.latency - 1

/-- The lookups of `seq`, MemSubsystem.cpp:205-238. -/
def Llc.advance (k : LlcCfg) (s : Llc) (o : Out) : Llc :=
  let s := if s.pend then if 0 < s.delay then { s with delay := s.delay - 1 } else { s with pend := false, idx := 0 } else s
  if o.any then
    let i := (o.req .data).index
    if !s.pend && !s.queued then { s with pend := true, idx := i, delay := k.first }
    else if !s.pend then { s with pend := true, idx := s.qidx, delay := k.first, queued := true, qidx := i }
    else if s.idx ≠ i then { s with queued := true, qidx := i }
    else s
  else if !s.pend && s.queued then { s with pend := true, idx := s.qidx, delay := k.first, queued := false, qidx := 0 }
  else s

/-- `seq`, MemSubsystem.cpp:158-239. -/
def Llc.seq (k : LlcCfg) (s : Llc) (o : Out) : Option Llc :=
  if o.invalidate then some (Llc.init k)
  else
    let w b := writeChunks (llcCfg k.sets (k.row b)) (s.tab b) (makeWrite (o.req b) (k.row b) (k.unit b))
    (w .data).bind fun d => (w .tags).bind fun m => (w .valid).bind fun v => (w .repl).bind fun r =>
      if o.ok then some (Llc.advance k { s with tab := fun | .data => d | .tags => m | .valid => v | .repl => r } o) else none

end Verif.Table

/-
The trace buffers that are dumped on a deadlock or a difference: include/DeadlockReplayTrace.h, include/DiffMemTrace.h, include/DebugPtwTrace.h (twice).
All four have the same text up to the type of the events, so there is one model with the type as a parameter.

`std::array` access out of bounds is undefined; here the element read is an `Option`, `none` out of bounds, and a write out of bounds gives `none`.
`% size` with size 0 is undefined; `size` is a parameter of the build, and everything is stated for `0 < size`.
Not modelled: the texts printed.
-/
namespace Verif.TraceRing

/-- `g_events`, `g_next`, `g_wrapped`, DeadlockReplayTrace.h:37-41, DiffMemTrace.h:53-56, DebugPtwTrace.h:48-56. -/
structure Ring (α : Type) where
  events : List α
  next : Nat := 0
  wrapped : Bool := false

/-- The start of the program: all events default. -/
def init {α : Type} (size : Nat) (d : α) : Ring α := { events := List.replicate size d }

/-- `record`, DeadlockReplayTrace.h:80-101, DiffMemTrace.h:101-124, `record_satp_write` and `record_ptw_walk_resp_detail`, DebugPtwTrace.h:58-92. -/
def record {α : Type} (r : Ring α) (e : α) : Option (Ring α) :=
  if r.next < r.events.length then
    let next := (r.next + 1) % r.events.length
    some ⟨r.events.set r.next e, next, if next = 0 then true else r.wrapped⟩
  else none

/-- What a dump shows: the two numbers of the header, and the events in the order printed. -/
structure Dump (α : Type) where
  recent : Nat
  buffered : Nat
  lines : List (Option α)

/-- `dump_recent`, DeadlockReplayTrace.h:103-137, DiffMemTrace.h:126-157, `dump_recent_satp_writes`, `dump_recent_ptw_walk_resps`,
DebugPtwTrace.h:94-164; `none` when nothing has been recorded. -/
def dump {α : Type} (r : Ring α) (dumpCount : Nat) : Option (Dump α) :=
  let count := if r.wrapped then r.events.length else r.next
  if count = 0 then none
  else
    let recent := if dumpCount < count then dumpCount else count
    let start := if r.wrapped then (r.next + r.events.length - recent) % r.events.length else count - recent
    some ⟨recent, count, (List.range recent).map fun n => r.events[(start + n) % r.events.length]?⟩

/-- `DebugPtwWalkRespEvent`, DebugPtwTrace.h:36-44. -/
structure Walk where
  req : BitVec 32
  line : BitVec 32
  pte : BitVec 32
  off : Nat
  backing : Option (List (BitVec 32))

/-- The event `record_ptw_walk_resp_detail` puts together, DebugPtwTrace.h:72-87; a line has `2 ^ k` bytes (`DCACHE_LINE_SIZE`) and `2 ^ k / 4` words
(`DCACHE_WORD_NUM`); `read` is `pmem_read`, `some` when memory is not null. -/
def walk (k : Nat) (read : Option (BitVec 32 → BitVec 32)) (req pte : BitVec 32) : Walk :=
  let mask := BitVec.ofNat 32 (2 ^ k) - 1#32
  let line := req &&& ~~~mask
  ⟨req, line, pte, (((req &&& mask) >>> 2).setWidth 8).toNat,
    read.map fun f => (List.range (2 ^ k / 4)).map fun w => f (line + BitVec.ofNat 32 (w * 4))⟩

end Verif.TraceRing

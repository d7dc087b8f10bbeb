import Verif.Model.Ring
/-
The queues in front of decode: `InstructionBuffer` (back-end/InstructionBuffer.cpp) and the
fetch-target queue of `PreIduQueue` (back-end/PreIduQueue.cpp).  Parametric in the buffer size
`M` (`IDU_INST_BUFFER_SIZE`) and the queue size `N` (`FTQ_SIZE`).  A failing assertion is `none`.
-/
namespace Verif.PreIdu
open Verif.Ring

/-! ### Instruction buffer -/

/-- `InstructionBuffer`, InstructionBuffer.h:24-45; an empty entry is `none`. -/
structure IBuf (α : Type) where
  ent : Nat → Option α
  head : Nat
  tail : Nat
  count : Nat

/-- `InstructionBuffer::clear` (also `init`), InstructionBuffer.cpp:4,32-39. -/
def IBuf.clear (α : Type) : IBuf α := ⟨fun _ => none, 0, 0, 0⟩

/-- `can_accept`, InstructionBuffer.h:31-33. -/
def IBuf.canAccept {α : Type} (M : Nat) (b : IBuf α) (n : Nat) : Bool := decide ((n : Int) ≤ (M : Int) - b.count)

/-- `peek`, InstructionBuffer.cpp:6-11; `none` when the assertion fails. -/
def IBuf.peek {α : Type} (M : Nat) (b : IBuf α) (k : Nat) : Option (Option α) :=
  if k < b.count then some (b.ent ((b.head + k) % M)) else none

/-- The loop of `pop_front`, InstructionBuffer.cpp:18-21. -/
def IBuf.popLoop {α : Type} (M : Nat) : Nat → IBuf α → IBuf α
  | 0, b => b
  | n + 1, b => popLoop M n { b with ent := upd b.ent b.head none, head := (b.head + 1) % M }

/-- `pop_front`, InstructionBuffer.cpp:13-23. -/
def IBuf.pop {α : Type} (M n : Nat) (b : IBuf α) : IBuf α :=
  let actual := if n > b.count then b.count else n
  let b' := popLoop M actual b
  { b' with count := b.count - actual }

/-- `push_back`, InstructionBuffer.cpp:25-30; `none` when the assertion fails. -/
def IBuf.push {α : Type} (M : Nat) (e : α) (b : IBuf α) : Option (IBuf α) :=
  if b.count < M then
    some ⟨upd b.ent b.tail (some e), b.head, (b.tail + 1) % M, b.count + 1⟩
  else none

/-- The push loop of `comb_fire`, PreIduQueue.cpp:245-247. -/
def IBuf.pushAll {α : Type} (M : Nat) : List α → IBuf α → Option (IBuf α)
  | [], b => some b
  | e :: es, b => (b.push M e).bind (pushAll M es)

/-! ### Fetch-target queue -/

/-- `FTQEntry` and `FTQTrainMetaEntry`, FTQ.h:6-62 (training data as one opaque value). -/
structure Block where
  slotPc : Nat → BitVec 32
  taken : Nat → Bool
  nextPc : BitVec 32
  train : Nat

structure Ftq where
  ent : Nat → Block
  valid : Nat → Bool
  head : Nat
  tail : Nat
  count : Nat

/-- `ftq_alloc` followed by the writes of `comb_accept_front`, PreIduQueue.cpp:23-31,164-171. -/
def Ftq.alloc (N : Nat) (q : Ftq) (b : Block) : Option (Nat × Ftq) :=
  if q.count ≥ N then none
  else some (q.tail, { q with ent := upd q.ent q.tail b, valid := upd q.valid q.tail true
                              tail := (q.tail + 1) % N, count := q.count + 1 })

/-- `ftq_pop`, PreIduQueue.cpp:33-45. -/
def Ftq.pop (N : Nat) : Nat → Ftq → Ftq
  | 0, q => q
  | n + 1, q =>
    if q.count = 0 then q
    else pop N n { q with valid := upd q.valid q.head false, head := (q.head + 1) % N
                          count := q.count - 1 }

/-- The invalidation loop of `ftq_recover`, PreIduQueue.cpp:50-53. -/
def Ftq.inval (N from_ : Nat) : Nat → (Nat → Bool) → (Nat → Bool)
  | 0, v => v
  | n + 1, v => upd (inval N from_ n v) ((from_ + n) % N) false

/-- `ftq_recover`, PreIduQueue.cpp:47-56 (`new_tail` is never negative). -/
def Ftq.recover (N : Nat) (q : Ftq) (newTail : Nat) : Ftq :=
  let t := (newTail % N + N) % N
  let discarded := (q.tail + N - t) % N
  { q with valid := inval N t discarded q.valid, tail := t, count := q.count - discarded }

/-- `ftq_flush`, PreIduQueue.cpp:58-65. -/
def Ftq.flush (q : Ftq) : Ftq := { q with valid := fun _ => false, head := 0, tail := 0, count := 0 }

/-! ### One cycle -/

/-- `InstructionBufferEntry`, InstructionBuffer.h:6-22. -/
structure Entry where
  inst : BitVec 32
  pc : BitVec 32
  pageFault : Bool
  ftqIdx : Nat
  offset : Nat
  isLast : Bool

structure State where
  ibuf : IBuf Entry
  ftq : Ftq

/-- `PreIduQueue::init`, PreIduQueue.cpp:67-81. -/
def init : State :=
  ⟨IBuf.clear Entry, ⟨fun _ => ⟨fun _ => 0, fun _ => false, 0, 0⟩, fun _ => false, 0, 0, 0⟩⟩

/-- The slots of one fetch group: instruction word and page-fault flag of each valid slot, `none`
for an invalid slot. -/
abbrev Group := List (Option (BitVec 32 × Bool))

/-- The entry loop of `comb_accept_front`, PreIduQueue.cpp:177-196; `k` is the slot number. -/
def entries (idx : Nat) (b : Block) : Nat → Group → List Entry
  | _, [] => []
  | k, none :: g => entries idx b (k + 1) g
  | k, some (w, pf) :: g =>
    ⟨w, b.slotPc k, pf, idx, k, !g.any Option.isSome⟩ :: entries idx b (k + 1) g

/-- `pre2front->ready`, PreIduQueue.cpp:113-126; `blocked` is `idu_br_latch->mispred` or the
`rob_bcast->flush` value visible at that point of the cycle. -/
def ready (M N : Nat) (s : State) (blocked : Bool) (g : Group) : Bool :=
  !blocked && decide (s.ftq.count < N) && s.ibuf.canAccept M (g.countP Option.isSome)

/-- `comb_accept_front`, PreIduQueue.cpp:113-202: the queue and the entries to push. -/
def accept (M N : Nat) (s : State) (blocked : Bool) (g : Group) (b : Block) : Ftq × List Entry :=
  if !ready M N s blocked g || g.countP Option.isSome == 0 then (s.ftq, [])
  else match s.ftq.alloc N b with
    | none => (s.ftq, [])
    | some (idx, q) => (q, entries idx b 0 g)

structure Input where
  group : Group
  block : Block
  /-- the flush signal as `comb_accept_front` sees it -/
  sawFlush : Bool
  flush : Bool
  /-- `idu_br_latch`: index of the redirecting branch's fetch block -/
  mispred : Option Nat
  /-- leading slots consumed by decode -/
  popCount : Nat
  /-- `ftq_is_last` of the instructions committed this cycle -/
  commits : List Bool

/-- `comb_accept_front`, `comb_fire` and `seq`; `none` when an assertion fails. -/
def step (M N : Nat) (s : State) (i : Input) : Option State :=
  let (q, es) := accept M N s (i.mispred.isSome || i.sawFlush) i.group i.block
  if i.flush then some ⟨IBuf.clear Entry, q.flush⟩
  else match i.mispred with
    | some idx => some ⟨IBuf.clear Entry, q.recover N ((idx + 1) % N)⟩
    | none =>
      ((s.ibuf.pop M i.popCount).pushAll M es).map fun b =>
        ⟨b, q.pop N (i.commits.countP id)⟩

/-- The decode slots offered by `comb_begin`, PreIduQueue.cpp:95-98. -/
def offered (M D : Nat) (s : State) : List (Option (Option Entry)) :=
  (List.range (if s.ibuf.count < D then s.ibuf.count else D)).map (s.ibuf.peek M)

/-- A lookup by index, PreIduQueue.cpp:9-21,264-286: valid flag, pc, predicted direction, predicted
target. -/
def lookup (s : State) (idx offset : Nat) : Bool × BitVec 32 × Bool × BitVec 32 :=
  (s.ftq.valid idx, (s.ftq.ent idx).slotPc offset, (s.ftq.ent idx).taken offset, (s.ftq.ent idx).nextPc)

/-- The cursor loop of `comb_commit_info`, PreIduQueue.cpp:288-339, on the valid commit entries
`(ftq_idx, ftq_is_last)`: the training data handed out for each of them (`none`: no live block),
or `none` when the assertion `ftq_idx == train_meta_cursor` fails. -/
def commitInfo (N : Nat) (q : Ftq) : Nat → Bool → List (Nat × Bool) → Option (List (Option Nat))
  | _, _, [] => some []
  | cur, false, _ :: cs => (commitInfo N q cur false cs).map (none :: ·)
  | cur, true, (idx, last) :: cs =>
    if idx ≠ cur then none
    else
      let next := (cur + 1) % N
      let r := if last then
          (if next = q.tail then commitInfo N q cur false cs else commitInfo N q next true cs)
        else commitInfo N q cur true cs
      r.map (some (q.ent cur).train :: ·)

end Verif.PreIdu

/-
Branch-tag state machine of the decode stage: `Idu`, back-end/Idu.cpp:15-287
(`CONFIG_BPU` defined, as in include/config.h).  Parametric in the number of tags
`n` (`MAX_BR_NUM = BR_MASK_WIDTH`), in the decode width (length of the entry
list) and in `max_br_per_cycle`.  Instruction words are abstracted to "is it a
branch" (`is_branch(type)`); decoding itself is in `Verif.Model.Decode`.
-/
namespace Verif.Idu

/-- The fields of `ExuIdIO` (back-end/include/IO.h) that the tag logic uses. -/
structure Latch (n : Nat) where
  mispred : Bool
  brId : Nat
  clear : BitVec n

/-- An idle latch (`br_latch = {}`). -/
def Latch.none (n : Nat) : Latch n := ⟨false, 0, 0#n⟩

/-- Registers of `Idu` (back-end/include/Idu.h:41-45). -/
structure State (n : Nat) where
  tagFree : Nat → Bool
  now : BitVec n
  cp : Nat → BitVec n
  latch : Latch n

/-- `Idu::init`, Idu.cpp:15-28. -/
def init (n : Nat) : State n :=
  { tagFree := fun i => decide (0 < i ∧ i < n), now := 0#n, cp := fun _ => 0#n
    latch := Latch.none n }

/-- `wire(1) << tag` -/
def bit (n tag : Nat) : BitVec n := BitVec.twoPow n tag

/-- Tag preallocation, Idu.cpp:91-102: the lowest `maxBr` free tags. -/
def allocTags {n : Nat} (s : State n) (maxBr : Nat) : List Nat :=
  ((List.range n).filter s.tagFree).take maxBr

/-- One decoded slot: `out.dec2ren->valid[i]`, type, `br_id`, `br_mask`. -/
structure Slot (n : Nat) where
  valid : Bool
  isBr : Bool
  brId : Nat
  brMask : BitVec n

/-- The slot loop of `comb_decode`, Idu.cpp:131-177.  An entry is `none` when the
instruction-buffer slot is invalid and `some isBranch` otherwise; `tags` are the
remaining preallocated tags. -/
def decodeLoop {n : Nat} : List (Option Bool) → List Nat → BitVec n → List (Slot n)
  | [], _, _ => []
  | none :: es, tags, running => ⟨false, false, 0, running⟩ :: decodeLoop es tags running
  | some false :: es, tags, running => ⟨true, false, 0, running⟩ :: decodeLoop es tags running
  | some true :: es, t :: tags, running =>
    ⟨true, true, t, running⟩ :: decodeLoop es tags (running ||| bit n t)
  | some true :: es, [], _ =>
    -- stall: this and all later slots are invalidated (Idu.cpp:171-177)
    ⟨false, true, 0, 0#n⟩ :: es.map (fun e => ⟨false, e.getD false, 0, 0#n⟩)

/-- `Idu::comb_decode`, Idu.cpp:53-179. -/
def combDecode {n : Nat} (s : State n) (maxBr : Nat) (entries : List (Option Bool)) :
    List (Slot n) :=
  decodeLoop entries (allocTags s maxBr) (s.now &&& ~~~s.latch.clear)

/-- `DecBroadcastIO`, driven by `Idu::comb_branch`, Idu.cpp:188-206. -/
structure Bcast (n : Nat) where
  mispred : Bool
  brId : Nat
  brMask : BitVec n
  clear : BitVec n

/-- `Idu::comb_branch`, Idu.cpp:188-206. -/
def combBranch {n : Nat} (s : State n) : Bcast n :=
  if s.latch.mispred then ⟨true, s.latch.brId, bit n s.latch.brId, s.latch.clear⟩
  else ⟨false, 0, 0#n, s.latch.clear⟩

/-- The firing loop, Idu.cpp:258-276, for `ready = true`. -/
def fireLoop {n : Nat} : List (Slot n) → List Nat → State n → State n
  | [], _, s => s
  | sl :: sls, tags, s =>
    if sl.valid && sl.isBr then
      let t := tags.headD 0
      let now := s.now ||| bit n t
      fireLoop sls tags.tail
        { s with tagFree := fun i => if i = t then false else s.tagFree i
                 now := now
                 cp := fun i => if i = t then now else s.cp i }
    else fireLoop sls tags s

/-- Steps 1 and 2 of `comb_fire`, Idu.cpp:234-248: release resolved tags and scrub
them from the checkpoints (both loops start at tag 1). -/
def applyClear {n : Nat} (s : State n) : State n :=
  { s with tagFree := fun i => if 0 < i ∧ i < n ∧ s.latch.clear.getLsbD i then true else s.tagFree i
           now := s.now &&& ~~~(s.latch.clear &&& ~~~(bit n 0))
           cp := fun i => if 0 < i ∧ i < n then s.cp i &&& ~~~s.latch.clear else s.cp i }

/-- `Idu::comb_fire` + `seq`, Idu.cpp:215-287: the next state.  `slots` is the
result of `comb_decode` of the same cycle. -/
def combFire {n : Nat} (s : State n) (maxBr : Nat) (slots : List (Slot n)) (ready flush : Bool)
    (exu2id : Latch n) : State n :=
  if flush then
    { s with tagFree := fun i => decide (0 < i ∧ i < n), now := 0#n, latch := Latch.none n }
  else
    let s1 := applyClear s
    if s.latch.mispred then
      let toFree := s.now &&& ~~~(s.cp s.latch.brId)
      { s1 with
        now := s1.now &&& ~~~toFree
        tagFree := fun i => if 0 < i ∧ i < n ∧ toFree.getLsbD i then true else s1.tagFree i
        latch := exu2id }
    else
      let s2 := if ready then fireLoop slots (allocTags s maxBr) s1 else s1
      { s2 with latch := exu2id }

/-- `idu_consume->fire`, Idu.cpp:216-218, 262: the slots handed to the next stage. -/
def fired {n : Nat} (s : State n) (slots : List (Slot n)) (ready flush : Bool) : List (Slot n) :=
  if flush || s.latch.mispred || !ready then [] else slots.filter (·.valid)

end Verif.Idu

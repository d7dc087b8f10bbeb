/-
The issue queue: class `IssueQueue`, back-end/include/IssueQueue.h:147-495, and
the way `Isu` drives one queue each cycle (back-end/Isu.cpp:14-27, 94-109,
159-213, 448-454, 464-476).  Parametric in the number of slots, ports, physical
registers and branch tags.

Simplifications: the two sources of a uop are indexed by `Bool` (`false` = src1,
`true` = src2) instead of being written out twice; a wake-up matrix is a function
register → slot → bit instead of 64-bit words (the word addressing is
`wordOf`/`bitOf` below, shown injective in `Verif.Props.IssueQueue`); the payload that
the queue only carries (immediate, functs, pc index, …) is the field `id`; a slot
is `none` when its `valid` bit is clear.
-/
namespace Verif.IssueQueue

/-- `srcK_en, srcK_busy, srcK_preg` of `IqStoredUop`, IssueQueue.h:30-122. -/
structure Src where
  en : Bool
  busy : Bool
  preg : Nat
  deriving DecidableEq, Repr

/-- `IqStoredUop`, IssueQueue.h:30-122. -/
structure Uop (n : Nat) where
  id : Nat
  src : Bool → Src
  op : Nat
  brMask : BitVec n
  robIdx : Nat
  robFlag : Bool

/-- Registers of the queue (`entry`, `count`, `wake_matrix_src1/2`), IssueQueue.h:152-168. -/
structure State (n : Nat) where
  ent : List (Option (Uop n))
  count : Nat
  mat : Bool → Nat → Nat → Bool

/-- The constructor, IssueQueue.h:172-190: `size` empty slots. -/
def init (n size : Nat) : State n :=
  { ent := List.replicate size none, count := 0, mat := fun _ _ _ => false }

/-- `is_ready`, IssueQueue.h:489-494. -/
def isReady {n : Nat} (u : Uop n) : Bool :=
  (!(u.src false).en || !(u.src false).busy) && (!(u.src true).en || !(u.src true).busy)

/-- An issue port: `port_idx` and `capability_mask` (bit per operation), IssueQueue.h:17-20. -/
structure Port where
  idx : Nat
  cap : Nat → Bool

/-- The gathering loop of `schedule`, IssueQueue.h:382-396: stops once `count`
occupied slots have been seen. -/
def gather {n : Nat} (count : Nat) : List (Option (Uop n)) → Nat → Nat → List Nat
  | [], _, _ => []
  | none :: es, i, seen => gather count es (i + 1) seen
  | some u :: es, i, seen =>
    let here := if isReady u then [i] else []
    if count ≤ seen + 1 then here else here ++ gather count es (i + 1) (seen + 1)

/-- `older_than`, IssueQueue.h:400-413, on the uops in slots `l` and `r`. -/
def olderThan {n : Nat} (l : Nat) (a : Uop n) (r : Nat) (b : Uop n) : Bool :=
  if a.robFlag = b.robFlag then
    if a.robIdx ≠ b.robIdx then decide (a.robIdx < b.robIdx) else decide (l < r)
  else
    if a.robIdx ≠ b.robIdx then decide (b.robIdx < a.robIdx) else decide (l < r)

/-- `older_than` on slot numbers (only ever applied to occupied slots). -/
def older {n : Nat} (ent : List (Option (Uop n))) (l r : Nat) : Bool :=
  match ent[l]?.join, ent[r]?.join with
  | some a, some b => olderThan l a r b
  | _, _ => decide (l < r)

/-- Insertion into a sorted list. -/
def insertBy (lt : Nat → Nat → Bool) (x : Nat) : List Nat → List Nat
  | [] => [x]
  | y :: ys => if lt y x then y :: insertBy lt x ys else x :: y :: ys

/-- `std::sort` as insertion sort.  The result of `std::sort` is determined by its specification
when the comparison is a strict total order on the elements, which `Verif.Props.C23_older_iff`
shows for the uops of instructions in the reorder buffer. -/
def sortBy (lt : Nat → Nat → Bool) : List Nat → List Nat
  | [] => []
  | x :: xs => insertBy lt x (sortBy lt xs)

/-- The sort of `schedule`, IssueQueue.h:398-415 (`policy = false` is `IQ_SLOT_PRIORITY`, no
sort). -/
def sorted {n : Nat} (policy : Bool) (ent : List (Option (Uop n))) (l : List Nat) : List Nat :=
  if policy then sortBy (older ent) l else l

/-- The operation in slot `i`. -/
def opAt {n : Nat} (ent : List (Option (Uop n))) (i : Nat) : Nat :=
  ((ent[i]?.join).map (·.op)).getD 0

/-- The port loop of `schedule`, IssueQueue.h:418-436; `issued` is `inst_issued`. -/
def assign {n : Nat} (ent : List (Option (Uop n))) (ready : List Nat) :
    List Port → List Nat → List (Nat × Port)
  | [], _ => []
  | p :: ps, issued =>
    match ready.find? (fun i => !issued.contains i && p.cap (opAt ent i)) with
    | some i => (i, p) :: assign ent ready ps (i :: issued)
    | none => assign ent ready ps issued

/-- `schedule`, IssueQueue.h:376-439: (slot, port) pairs. -/
def schedule {n : Nat} (policy : Bool) (ports : List Port) (s : State n) : List (Nat × Port) :=
  assign s.ent (sorted policy s.ent (gather s.count s.ent 0 0)) ports []

/-- The pairs that pass the functional-unit check of `comb_issue`, IssueQueue.h:275-284. -/
def granted {n : Nat} (policy : Bool) (ports : List Port) (s : State n)
    (fuReady : Nat → Nat → Bool) (block : Bool) : List (Nat × Port) :=
  (schedule policy ports s).filter
    (fun p => fuReady p.2.idx (opAt s.ent p.1) && !block)

/-- `clear_dep_bits_for_slot`, IssueQueue.h:470-487. -/
def clearDep {n : Nat} (P : Nat) (u : Uop n) (i : Nat) (m : Bool → Nat → Nat → Bool) :
    Bool → Nat → Nat → Bool := fun k p j =>
  if (u.src k).en = true ∧ (u.src k).preg < P ∧ p = (u.src k).preg ∧ j = i then false else m k p j

/-- `set_dep_bits_for_slot`, IssueQueue.h:452-468. -/
def setDep {n : Nat} (P : Nat) (u : Uop n) (i : Nat) (m : Bool → Nat → Nat → Bool) :
    Bool → Nat → Nat → Bool := fun k p j =>
  if (u.src k).en = true ∧ (u.src k).busy = true ∧ (u.src k).preg < P ∧ p = (u.src k).preg ∧ j = i
  then true else m k p j

/-- Removing the uop in slot `i` (the loop bodies of `commit_issue`, IssueQueue.h:357-365,
and `flush_br`, IssueQueue.h:322-334). -/
def remove {n : Nat} (P : Nat) (s : State n) (i : Nat) : State n :=
  match s.ent[i]?.join with
  | none => s
  | some u => { ent := s.ent.set i none, count := s.count - 1, mat := clearDep P u i s.mat }

/-- `comb_issue`, IssueQueue.h:267-289: the next-state part (`commit_issue`). -/
def combIssue {n : Nat} (P : Nat) (policy : Bool) (ports : List Port) (s : State n)
    (fuReady : Nat → Nat → Bool) (block : Bool) : State n :=
  ((granted policy ports s fuReady block).map (·.1)).foldl (remove P) s

/-- One valid wake-up port of `comb_wakeup`, IssueQueue.h:229-263, for both sources: every
slot whose bit is set in the register's row is examined, then the row is cleared. -/
def wakeOne {n : Nat} (P : Nat) (s : State n) (preg : Nat) : State n :=
  if P ≤ preg then s else
    { s with
      ent := s.ent.mapIdx (fun i e => e.map (fun u =>
        { u with src := fun k =>
            if s.mat k preg i && (u.src k).en && (u.src k).busy && decide ((u.src k).preg = preg)
            then { u.src k with busy := false } else u.src k }))
      mat := fun k p j => if p = preg then false else s.mat k p j }

/-- `comb_wakeup`, IssueQueue.h:228-265; `wakes` are the registers on the valid ports. -/
def combWakeup {n : Nat} (P : Nat) (s : State n) (wakes : List Nat) : State n :=
  wakes.foldl (wakeOne P) s

/-- `Isu::apply_wakeup_to_uop`, Isu.cpp:14-27: this cycle's wake-ups applied to a uop
about to be enqueued. -/
def applyWake {n : Nat} (wakes : List Nat) (u : Uop n) : Uop n :=
  { u with src := fun k =>
      if (u.src k).en && wakes.contains (u.src k).preg then { u.src k with busy := false }
      else u.src k }

/-- `enqueue`, IssueQueue.h:305-319: `none` when it reports failure (the caller asserts). -/
def enqueue {n : Nat} (P size : Nat) (s : State n) (u : Uop n) : Option (State n) :=
  if size ≤ s.count then none
  else match s.ent.findIdx? (·.isNone) with
    | none => none
    | some i => some { ent := s.ent.set i (some u), count := s.count + 1, mat := setDep P u i s.mat }

/-- `comb_enq`, IssueQueue.h:217-226: `none` when an `Assert` fires. -/
def combEnq {n : Nat} (P size : Nat) (s : State n) : List (Uop n) → Option (State n)
  | [] => some s
  | u :: us => (enqueue P size s u).bind (fun s' => combEnq P size s' us)

/-- `flush_br`, IssueQueue.h:322-334: slots in order, matching ones removed. -/
def flushBr {n : Nat} (P : Nat) (s : State n) (mask : BitVec n) : State n :=
  (List.range s.ent.length).foldl (fun s i =>
    match s.ent[i]?.join with
    | none => s
    | some u => if u.brMask &&& mask ≠ 0#n then remove P s i else s) s

/-- `clear_br`, IssueQueue.h:337-344. -/
def clearBr {n : Nat} (s : State n) (mask : BitVec n) : State n :=
  { s with ent := s.ent.map (fun e => e.map (fun u => { u with brMask := u.brMask &&& ~~~mask })) }

/-- `flush_all`, IssueQueue.h:346-354. -/
def flushAll {n : Nat} (s : State n) : State n :=
  { ent := s.ent.map (fun _ => none), count := 0, mat := fun _ _ _ => false }

/-- `comb_flush`, IssueQueue.h:291-301. -/
def combFlush {n : Nat} (P : Nat) (s : State n) (all br : Bool) (brMask clear : BitVec n) : State n :=
  let s1 := if all then flushAll s else if br then flushBr P s brMask else s
  if clear ≠ 0#n then clearBr s1 clear else s1

/-- Everything the queue receives in one cycle. -/
structure Input (n : Nat) where
  fuReady : Nat → Nat → Bool
  block : Bool
  wakes : List Nat
  enq : List (Uop n)
  all : Bool
  br : Bool
  brMask : BitVec n
  clear : BitVec n

/-- One clock cycle: issue, wake-up, enqueue, flush, `seq` (the order in which
BackTop.cpp:269-394 calls the `Isu` functions).  `none`: an assertion fired. -/
def step {n : Nat} (P size : Nat) (policy : Bool) (ports : List Port) (s : State n) (i : Input n) :
    Option (State n) :=
  (combEnq P size (combWakeup P (combIssue P policy ports s i.fuReady i.block) i.wakes)
    (i.enq.map (applyWake i.wakes))).map (fun t => combFlush P t i.all i.br i.brMask i.clear)

/-- `out.free_slots` at the start of the cycle, as the dispatcher sees it
(`comb_begin`, IssueQueue.h:192-197, `Isu::comb_ready`, Isu.cpp:146-150). -/
def freeSlots {n : Nat} (size : Nat) (s : State n) : Nat := size - s.count

/-- `matrix_row_base(preg) + slot_word(slot)`, IssueQueue.h:440-451; `words` is
`wake_words_per_row = (size + 63) / 64`. -/
def wordOf (words preg slot : Nat) : Nat := preg * words + slot / 64

/-- The bit position in the word: `slot & 63`, IssueQueue.h:444-446. -/
def bitOf (slot : Nat) : Nat := slot % 64

end Verif.IssueQueue

import Verif.Model.Lsu
import Verif.Spec.MemOrder

/-
The load/store unit of Verif/Model/Lsu.lean together with what surrounds it: dispatch and the reorder
buffer (program order), the functional units, the TLB, and a data cache.

The data cache is an interface here: a store request takes effect, or a load request samples the memory
word, at any one moment between request and answer; a store that is answered with a replay had no effect.
-/
namespace Verif.Lsu

open Verif.Ring Verif.Lane Verif.Spec.ByteMem Verif.Spec.MemOrder

/-- The unit, the memory behind it, and bookkeeping: `prog` is the program order; `retired` stores have
left the queue and `old` remembers them; `pend` holds the store requests the cache has not answered, with
"has taken effect"; `samp` the word a load request has sampled; `badFwd`: the load took its value from a
queue entry that is an undecided store-conditional or has no effect. -/
structure Sys where
  lsu : State
  prog : Prog
  mem : Mem
  retired : Nat
  old : Nat → StqEntry
  pend : Nat → Option (StoreReq × Bool)
  samp : Nat → Option (BitVec 32)
  badFwd : Nat → Bool

def Sys.init (m : Mem) : Sys :=
  { lsu := Lsu.init, prog := { slots := fun _ => { size := .byte, isSc := false }, len := 0, committed := 0, loads := fun _ => {} },
    mem := m, retired := 0, old := fun _ => {}, pend := fun _ => none, samp := fun _ => none, badFwd := fun _ => false }

/-- A store request applied to memory: the lanes selected by the strobe of the addressed word. -/
def writeReq (m : Mem) (r : StoreReq) : Mem := fun a =>
  if a.toNat / 4 = r.addr.toNat / 4 ∧ r.strb.getLsbD (a.toNat % 4) = true then byteOf r.data (a.toNat % 4) else m a

/-- Entry of the `k`-th store of the program. -/
def Sys.ent (n : Nat) (s : Sys) (k : Nat) : StqEntry := if k < s.retired then s.old k else s.lsu.stq (k % n)

/-- Events.  `k` counts the stores of the program, `i` is a load queue slot, `idx` a store queue slot. -/
inductive Ev
  /-- dispatch of a store -/
  | allocSt (sz : Size) (sc : Bool) (mask : BitVec 16)
  /-- dispatch of a load -/
  | allocLd (i : Nat) (sz : Size) (sg lr : Bool) (mask : BitVec 16)
  /-- the data of a store arrives -/
  | stData (k : Nat) (v : BitVec 32)
  /-- the address of a store arrives -/
  | stAddr (k : Nat)
  | stTlb (k : Nat) (r : Tlb)
  | stWin (k : Nat)
  /-- a store reports completion -/
  | stWb (k : Nat)
  | ldReq (i : Nat) (f3 : BitVec 3)
  | ldTlb (i : Nat) (r : Tlb)
  | ldWin (i : Nat)
  | ldStlf (i : Nat) (oldest : Bool)
  | ldIssue (i : Nat)
  /-- the cache reads the word of an outstanding load request -/
  | ldSample (i : Nat)
  | ldResp (i : Nat) (hit : Bool)
  | ldWb (i : Nat)
  /-- the oldest uncommitted store commits -/
  | commit
  /-- a trap is taken at the oldest uncommitted store -/
  | trapStore
  /-- any other flush of the pipeline -/
  | flush
  /-- branch misprediction; `cut` stores precede the branch -/
  | mispred (m : BitVec 16) (cut : Nat)
  | clear (m : BitVec 16)
  /-- the `d`-th store of the queue is considered for issue -/
  | stIssue (d : Nat)
  /-- the cache carries out an outstanding store request -/
  | stPerform (idx : Nat)
  | stResp (idx : Nat) (hit : Bool)
  | retire
  | mmioResp (v : BitVec 32)

/-- Queue index and generation flag dispatch attaches to position `k` of the program
(`Dispatch.cpp`, see property C40). -/
def tagIdx (n k : Nat) : Nat := k % n
def tagFlag (n k : Nat) : Bool := k / n % 2 == 1

def setSlot (p : Prog) (k : Nat) (f : Slot → Slot) : Prog := { p with slots := upd p.slots k (f (p.slots k)) }

/-- Has the store reported? -/
def StqEntry.decided (e : StqEntry) : Bool :=
  match e.st with
  | .waitCommit | .committed | .waitDcacheResp | .waitMmioResp | .done => true
  | _ => false

/-- Does the forwarding scan of slot `i` hand over data of an undecided store-conditional or of a store that
has no effect? -/
def badScan (n : Nat) (s : State) (i : Nat) : Bool :=
  let e := s.ldq i
  match scan (at' n s) e.paddr e.func3 (distance n s.head s.headFlag e.snapIdx e.snapFlag) with
  | .forward j _ => ((at' n s j).lrsc && !(at' n s j).decided) || (at' n s j).suppress
  | _ => false

/-- One event.  `none`: an assertion of the unit fails. -/
def Sys.step (n : Nat) (s : Sys) : Ev → Option Sys
  | .allocSt sz sc mask =>
    (allocStq n s.lsu mask sz.code (tagFlag n s.prog.len)).map fun l =>
      { s with lsu := l, prog := { s.prog with slots := upd s.prog.slots s.prog.len { size := sz, isSc := sc }, len := s.prog.len + 1 } }
  | .allocLd i sz sg lr mask =>
    (allocLdq s.lsu mask i).map fun l =>
      let rec' : LoadRec := { older := s.prog.len, size := sz, signed := sg, lr := lr }
      { s with lsu := l, prog := { s.prog with loads := upd s.prog.loads i rec' } }
  | .stData k v =>
    some { s with lsu := storeData s.lsu (tagIdx n k) v, prog := setSlot s.prog k fun sl => { sl with data := some v } }
  | .stAddr k =>
    some { s with
      lsu := storeAddr s.lsu (tagIdx n k) (s.prog.slots k).size.code (s.prog.slots k).isSc
      prog := setSlot s.prog k fun sl => { sl with sta := true } }
  | .stTlb k r =>
    some { s with
      lsu := tlbStore s.lsu (tagIdx n k) r
      prog := match r with
        | .hit pa => setSlot s.prog k fun sl => { sl with addr := some pa }
        | .fault => setSlot s.prog k fun sl => { sl with fault := true }
        | .miss => s.prog }
  | .stWin k => some { s with lsu := windowStore s.lsu (tagIdx n k) }
  | .stWb k =>
    let e := s.lsu.stq (tagIdx n k)
    some { s with
      lsu := wbStore s.lsu (tagIdx n k)
      prog := if e.st = .ready ∨ e.st = .pageFault then
          setSlot s.prog k fun sl =>
            { sl with reported := true, dead := e.lrsc && !e.fault && !scPass s.lsu (tagIdx n k) }
        else s.prog }
  | .ldReq i f3 =>
    let l := s.prog.loads i
    some { s with lsu := loadReq s.lsu i f3 (tagIdx n l.older) (tagFlag n l.older) l.lr }
  | .ldTlb i r => some { s with lsu := tlbLoad s.lsu i r }
  | .ldWin i => some { s with lsu := windowLoad s.lsu i }
  | .ldStlf i oldest =>
    (stlf n s.lsu i oldest).map fun l => { s with lsu := l, badFwd := upd s.badFwd i (badScan n s.lsu i) }
  | .ldIssue i => some { s with lsu := issueLoad s.lsu i, samp := upd s.samp i none }
  | .ldSample i => some { s with samp := upd s.samp i (some (word s.mem (s.lsu.ldq i).paddr)) }
  | .ldResp i hit => some { s with lsu := respLoad s.lsu i (if hit then s.samp i else none) }
  | .ldWb i => some { s with lsu := wbLoad s.lsu i }
  | .commit =>
    (commitStore n s.lsu (tagIdx n s.prog.committed) false).map fun l =>
      { s with lsu := l, prog := { s.prog with committed := s.prog.committed + 1 } }
  | .trapStore =>
    (commitStore n s.lsu (tagIdx n s.prog.committed) true).map fun l =>
      let c := s.prog.committed
      let p := setSlot s.prog c fun sl => { sl with dead := true }
      { s with lsu := Lsu.flush n l, prog := { p with committed := c + 1, len := c + 1 } }
  | .flush => some { s with lsu := Lsu.flush n s.lsu, prog := { s.prog with len := s.prog.committed } }
  | .mispred m cut => some { s with lsu := Lsu.mispred n s.lsu m, prog := { s.prog with len := cut } }
  | .clear m => some { s with lsu := clearMask s.lsu m }
  | .stIssue d =>
    let r := issueStore n s.lsu d
    some { s with
      lsu := r.1
      pend := match r.2 with
        | some q => upd s.pend q.idx (some (q, false))
        | none => s.pend }
  | .stPerform idx =>
    match s.pend idx with
    | some (q, _) => some { s with mem := writeReq s.mem q, pend := upd s.pend idx (some (q, true)) }
    | none => some s
  | .stResp idx hit => some { s with lsu := respStore s.lsu idx hit, pend := upd s.pend idx none }
  | .retire =>
    let l := Lsu.retire n s.lsu
    some (if min s.lsu.commitCount s.lsu.count = 0 ∨ (s.lsu.stq s.lsu.head).st ≠ .done then { s with lsu := l }
      else { s with lsu := l, retired := s.retired + 1, old := upd s.old s.retired (s.lsu.stq s.lsu.head) })
  | .mmioResp v => some { s with lsu := Lsu.mmioResp s.lsu v }

/-- Physical addresses handed out by the TLB: naturally aligned, not reaching the end of the address space,
and not inside a timer register that is only recognised by its first byte. -/
def okAddr (sz : Size) (pa : BitVec 32) : Prop :=
  aligned sz pa ∧ pa.toNat + sz.bytes < 2 ^ 32 ∧ mmioAddr pa = mmioAddr (pa &&& ~~~3#32)

instance (sz pa) : Decidable (okAddr sz pa) := inferInstanceAs (Decidable (_ ∧ _ ∧ _))

def okTlb (sz : Size) : Tlb → Prop
  | .hit pa => okAddr sz pa
  | _ => True

instance (sz r) : Decidable (okTlb sz r) := by cases r <;> (simp only [okTlb]; infer_instance)

/-- Is `k` a store that is in flight and not committed? -/
def Sys.live (s : Sys) (k : Nat) : Prop := s.prog.committed ≤ k ∧ k < s.prog.len

/-- What the surroundings guarantee. -/
def Sys.Valid (n : Nat) (s : Sys) : Ev → Prop
  | .allocSt .. => s.lsu.count < n
  | .allocLd i sz sg _ _ => (s.lsu.ldq i).st = .empty ∧ loadCode sz sg ≠ none
  | .stData k _ => s.live k ∧ (s.prog.slots k).data = none
  | .stAddr k => s.live k ∧ (s.prog.slots k).sta = false
  | .stTlb k r => s.live k ∧ (s.lsu.stq (tagIdx n k)).st = .waitTlb ∧ okTlb (s.prog.slots k).size r
  | .stWin k => s.live k
  | .stWb k => s.live k
  | .ldReq i f3 => (s.lsu.ldq i).st = .allocated ∧ loadCode (s.prog.loads i).size (s.prog.loads i).signed = some f3
  | .ldTlb i r => (s.lsu.ldq i).st = .waitTlb ∧ okTlb (s.prog.loads i).size r
  | .ldStlf i _ => (s.lsu.ldq i).st = .checkStlf
  | .ldSample i => (s.lsu.ldq i).st = .waitDcacheResp
  | .ldResp i hit => (s.lsu.ldq i).st = .waitDcacheResp ∧ (hit = true → s.samp i ≠ none)
  | .commit =>
    s.prog.committed < s.prog.len ∧ (s.prog.slots s.prog.committed).reported = true ∧
      (s.prog.slots s.prog.committed).fault = false ∧
      ∀ i, (s.lsu.ldq i).st ≠ .empty → s.prog.committed < (s.prog.loads i).older
  | .trapStore => s.prog.committed < s.prog.len ∧ (s.prog.slots s.prog.committed).reported = true
  | .mispred m cut =>
    s.prog.committed ≤ cut ∧ cut ≤ s.prog.len ∧
      (∀ k, s.retired ≤ k → k < s.prog.len → ((s.ent n k).brMask &&& m ≠ 0#16 ↔ cut ≤ k)) ∧
      ∀ i, (s.lsu.ldq i).st ≠ .empty → (s.lsu.ldq i).brMask &&& m = 0#16 → (s.prog.loads i).older ≤ cut
  | .stPerform idx => ∃ q, s.pend idx = some (q, false)
  | .stResp idx hit => ∃ q, s.pend idx = some (q, hit)
  | _ => True

/-- Reachable states. -/
inductive Sys.Reach (n : Nat) (m : Mem) : Sys → Prop
  | init : Reach n m (Sys.init m)
  | step {s s' : Sys} (e : Ev) : Reach n m s → s.Valid n e → s.step n e = some s' → Reach n m s'

end Verif.Lsu

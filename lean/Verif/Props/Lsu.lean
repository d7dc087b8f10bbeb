import Verif.Proofs.LsuRun
import Verif.Props.RefMem
import Verif.Spec.DeviceMap

/-! # C51–C56: the load/store unit -/
namespace Verif.Props
open Verif.Lsu Verif.Ring Verif.Lane Verif.Spec.ByteMem Verif.Spec.MemOrder

/-! ## C51: the forwarding decision -/

/-- Byte addresses of an access. -/
def Touches (p : BitVec 32) (sz : Size) (a : Nat) : Prop := p.toNat ≤ a ∧ a < p.toNat + sz.bytes

theorem apart_iff (p q : BitVec 32) (a b : Size) : Apart p a.bytes q b.bytes ↔ ∀ x, ¬ (Touches p a x ∧ Touches q b x) := by
  have h1 := bytes_pos a
  have h2 := bytes_pos b
  unfold Apart Touches
  constructor
  · intro h x; omega
  · intro h
    have e1 := h p.toNat
    have e2 := h q.toNat
    omega

/-- **C51 (to the cache).**  Whatever the store queue holds, a load is sent to the data cache exactly if
every older store in the queue has a known address and none of them touches a byte of the load. -/
theorem C51_cache_iff (q : Nat → StqEntry) (older : Nat) (l : BitVec 32) (lsz : Size) (sg : Bool) (lf : BitVec 3)
    (hlf : loadCode lsz sg = some lf) (hl : l.toNat + lsz.bytes < 2 ^ 32) (sz : Nat → Size)
    (hsz : ∀ j < older, (q j).func3 = (sz j).code) (hs : ∀ j < older, (q j).paddr.toNat + (sz j).bytes < 2 ^ 32) :
    scan q l lf older = .cache ↔ ∀ j < older, (q j).st ≠ .allocated ∧ (q j).paddrValid = true ∧
      ∀ a, ¬ (Touches l lsz a ∧ Touches (q j).paddr (sz j) a) := by
  induction older with
  | zero => exact ⟨fun _ j hj => absurd hj (by omega), fun _ => rfl⟩
  | succ o ih =>
    have ih := ih (fun j hj => hsz j (by omega)) (fun j hj => hs j (by omega))
    have hd : checkStlf l lf (q o).paddr (q o).func3 = .disjoint ↔ ∀ a, ¬ (Touches l lsz a ∧ Touches (q o).paddr (sz o) a) := by
      rw [hsz o (by omega), checkStlf_disjoint (width_load hlf) (width_store _) (hs o (by omega)) hl]
      exact apart_iff _ _ _ _
    have split : (∀ j < o + 1, (q j).st ≠ .allocated ∧ (q j).paddrValid = true ∧
        ∀ a, ¬ (Touches l lsz a ∧ Touches (q j).paddr (sz j) a)) ↔
        ((q o).st ≠ .allocated ∧ (q o).paddrValid = true ∧ ∀ a, ¬ (Touches l lsz a ∧ Touches (q o).paddr (sz o) a)) ∧
        (∀ j < o, (q j).st ≠ .allocated ∧ (q j).paddrValid = true ∧
          ∀ a, ¬ (Touches l lsz a ∧ Touches (q j).paddr (sz j) a)) := by
      constructor
      · intro h; exact ⟨h o (by omega), fun j hj => h j (by omega)⟩
      · intro h j hj
        by_cases e : j = o
        · rw [e]; exact h.1
        · exact h.2 j (by omega)
    rw [split, ← ih, ← hd]
    rw [show scan q l lf (o + 1) = (if (q o).st = .allocated then .retry else if (q o).paddrValid = false then .retry
        else match checkStlf l lf (q o).paddr (q o).func3 with
          | .overlap => if (q o).dataValid = false then .retry else .forward o (extractData (q o).data (l - (q o).paddr) lf)
          | .retry => .retry
          | .disjoint => scan q l lf o) from rfl]
    split
    · next h1 => simp [h1]
    · next h1 =>
      split
      · next h2 => simp [h2]
      · next h2 =>
        have h2' : (q o).paddrValid = true := by simpa using h2
        split
        · next h3 =>
          refine ⟨fun e => ?_, fun e => ?_⟩
          · split at e <;> cases e
          · rw [h3] at e; cases e.1.2.2
        · next h3 =>
          refine ⟨fun e => ?_, fun e => ?_⟩
          · cases e
          · rw [h3] at e; cases e.1.2.2
        · next h3 => exact ⟨fun e => ⟨⟨h1, h2', h3⟩, e⟩, fun e => e.2⟩

/-- **C51 (forwarded).**  Whatever the store queue holds, a value handed to a load comes from a store that
precedes it, with known address and data, that writes every byte of the load; every store between the two
has a known address and touches no byte of the load; and the value is what the load reads, from any memory,
right after that store. -/
theorem C51_forward (q : Nat → StqEntry) (older : Nat) (l : BitVec 32) (lsz : Size) (sg : Bool) (lf : BitVec 3)
    (hlf : loadCode lsz sg = some lf) (ha : aligned lsz l) (hl : l.toNat + lsz.bytes < 2 ^ 32) (sz : Nat → Size)
    (hsz : ∀ j < older, (q j).func3 = (sz j).code) (hal : ∀ j < older, aligned (sz j) (q j).paddr)
    (hs : ∀ j < older, (q j).paddr.toNat + (sz j).bytes < 2 ^ 32) (j : Nat) (v : BitVec 32)
    (h : scan q l lf older = .forward j v) :
    j < older ∧ (q j).paddrValid = true ∧ (q j).dataValid = true ∧
    (∀ a, Touches l lsz a → Touches (q j).paddr (sz j) a) ∧
    (∀ k, j < k → k < older → (q k).paddrValid = true ∧ ∀ a, ¬ (Touches l lsz a ∧ Touches (q k).paddr (sz k) a)) ∧
    (∀ m : Mem, Spec.ByteMem.load (Spec.ByteMem.store m (sz j) (q j).paddr (q j).data) lsz sg l = v) := by
  obtain ⟨a1, a2, a3, a4, a5, a6, a7⟩ := scan_forward h
  have hlw := width_load hlf
  rw [hsz j a1] at a5
  obtain ⟨c1, c2⟩ := (checkStlf_overlap hlw (width_store _) (hs j a1) hl).mp a5
  refine ⟨a1, a3, a4, ?_, ?_, ?_⟩
  · intro a ht
    unfold Touches at ht ⊢
    omega
  · intro k hk1 hk2
    obtain ⟨b1, b2⟩ := a7 k hk1 hk2
    rw [hsz k hk2] at b2
    exact ⟨b1, (apart_iff _ _ _ _).mp ((checkStlf_disjoint hlw (width_store _) (hs k hk2) hl).mp b2)⟩
  · intro m
    rw [a6]
    exact load_store_cover _ _ _ _ _ hlf _ _ _ (hal j a1) ha (Nat.le_of_lt (hs j a1)) c1 c2

/-- **C51 (finding).**  At the very end of the address space the address comparison wraps: a byte store to
the last byte of a word is judged not to touch that word, so a load of the word is not given its byte. -/
theorem C51_wraps_at_top :
    Touches 0xFFFFFFFC#32 .word 0xFFFFFFFF ∧ Touches 0xFFFFFFFF#32 .byte 0xFFFFFFFF ∧
      checkStlf 0xFFFFFFFC#32 2#3 0xFFFFFFFF#32 0#3 = .disjoint := by
  refine ⟨⟨by decide, by decide⟩, ⟨by decide, by decide⟩, by decide⟩

/-! ## C52: queue positions, no assertion fails -/

/-- **C52 (no abort).**  In every reachable state, every event the surroundings may produce is handled: no
assertion of the unit fails. -/
theorem C52_no_assertion (n : Nat) (hn : 0 < n) (m : Mem) (s : Sys) (h : Sys.Reach n m s) (e : Ev) (hv : s.Valid n e) :
    (s.step n e).isSome :=
  step_some hn (inv_reach hn h) e hv

/-- **C52 (positions).**  The tail announced to dispatch is the position of the next store of the program
with its generation flag, the fill level is the number of stores of the program not yet retired (never more
than the capacity), and the boundary a load computes from the tags it was given counts exactly the older
stores still in the queue. -/
theorem C52_positions (n : Nat) (hn : 0 < n) (m : Mem) (s : Sys) (h : Sys.Reach n m s) :
    tail n s.lsu = (s.prog.len % n, s.prog.len / n % 2 == 1) ∧
    s.lsu.count = s.prog.len - s.retired ∧ s.lsu.count ≤ n ∧
    s.retired ≤ s.prog.committed ∧ s.prog.committed ≤ s.prog.len ∧
    ∀ i, (s.lsu.ldq i).st ≠ .empty → (s.lsu.ldq i).st ≠ .allocated →
      distance n s.lsu.head s.lsu.headFlag (s.lsu.ldq i).snapIdx (s.lsu.ldq i).snapFlag =
        (s.prog.loads i).older - s.retired := by
  have hi := inv_reach hn h
  have hc := hi.ring.count
  have hl := hi.ring.le2
  refine ⟨?_, by omega, by omega, hi.ring.retired_le, hi.ring.le1, fun i h1 h2 => hi.distance hn h1 h2⟩
  unfold tail
  rw [hi.ring.head, hi.ring.headFlag, idxAfter_eq, tailFlag_eq n _ _ hn (by omega), hc]
  rfl

/-- **C52 (finding).**  If a trap is taken at a store that has not reported yet (an interrupt may arrive at
any time), the assertion "Store commit out of order?" fails: in every such state. -/
theorem C52_trap_unreported_aborts (n : Nat) (hn : 0 < n) (m : Mem) (s : Sys) (h : Sys.Reach n m s)
    (hlt : s.prog.committed < s.prog.len) (hrep : (s.prog.slots s.prog.committed).reported = false) :
    s.step n .trapStore = none := by
  have hi := inv_reach hn h
  have hst : (s.ent n s.prog.committed).st ≠ .waitCommit := by
    have := ((hi.slot _ hlt).pend (Nat.le_refl _)).reported
    rw [hrep] at this; simpa using this.symm
  rw [ent_window s hi.ring.retired_le] at hst
  unfold Sys.step
  dsimp only
  unfold commitStore
  dsimp only
  rw [if_neg (fun e => hst e.2)]
  rfl

/-! ## C53: values of loads -/

/-- The full property: a load that is about to write back holds the value left by the stores that precede it
in the program, however the undetermined ones among them turn out. -/
def LoadsInOrder (n : Nat) : Prop :=
  ∀ (m : Mem) (s : Sys) (i : Nat), Sys.Reach n m s → (s.lsu.ldq i).st = .readyToWb → (s.lsu.ldq i).mmio = false →
    Returns mmioAddr m s.prog (s.prog.loads i) (s.lsu.ldq i).paddr (s.lsu.ldq i).result

/-- **C53 (partial).**  `LoadsInOrder` for every load that did not take its value from an undecided
store-conditional or from a queue entry without effect.  Missing: those loads, see `C53_failed_sc` and
`C53_cancelled_store`. -/
theorem C53_load_value_partial (n : Nat) (hn : 0 < n) (m : Mem) (s : Sys) (i : Nat) (h : Sys.Reach n m s)
    (hst : (s.lsu.ldq i).st = .readyToWb) (hm : (s.lsu.ldq i).mmio = false) (hb : s.badFwd i = false) :
    Returns mmioAddr m s.prog (s.prog.loads i) (s.lsu.ldq i).paddr (s.lsu.ldq i).result :=
  ((inv_reach hn h).load i).val hst hm hb

/-- **C53 (plain programs).**  In executions without store-conditionals and without traps taken at stores,
every load returns the value left by the stores that precede it in the program. -/
theorem C53_load_value_plain (n : Nat) (hn : 0 < n) (m : Mem) (s : Sys) (i : Nat) (h : Sys.ReachPlain n m s)
    (hst : (s.lsu.ldq i).st = .readyToWb) (hm : (s.lsu.ldq i).mmio = false) :
    Returns mmioAddr m s.prog (s.prog.loads i) (s.lsu.ldq i).paddr (s.lsu.ldq i).result :=
  C53_load_value_partial n hn m s i h.reach hst hm ((noBad_reach h).bad i)

/-! ## C54: memory -/

theorem allows_outcome {n : Nat} {m : Mem} {s : Sys} (h : Inv n m s) {k : Nat} (hk : k < s.prog.committed) :
    (s.prog.slots k).allows (s.prog.slots k).outcome := by
  have hk' := h.slot k (by have := h.ring.le1; omega)
  have hc := hk'.comm hk
  unfold Slot.outcome
  cases hd : (s.prog.slots k).dead with
  | true => exact Or.inl hd
  | false =>
    rw [if_neg (by decide)]
    have hs : (s.ent n k).suppress = false := by rw [← hc.dead]; exact hd
    obtain ⟨h1, h2⟩ := hc.nosup hs
    have ea : (s.prog.slots k).addr = some (s.ent n k).paddr := by rw [hk'.base.addr, h1]; rfl
    have ed : (s.prog.slots k).data = some (s.ent n k).data := by rw [hk'.base.data, h2]; rfl
    rw [ea, ed]
    refine ⟨hd, rfl, ?_, ?_⟩
    · intro a e; rw [ea] at e; exact Option.some.inj e
    · intro a e; rw [ed] at e; exact Option.some.inj e

theorem memory_of_inv {n : Nat} {m : Mem} {s : Sys} (hi : Inv n m s) :
    ∃ done : Nat → Bool, (∀ k < s.retired, done k = true) ∧
      s.mem = replay mmioAddr m (fun k => if done k then (s.prog.slots k).outcome else none) s.prog.committed := by
  refine ⟨fun k => decide ((s.ent n k).st = .done) || performed n s k, ?_, ?_⟩
  · intro k hk
    have := hi.ring.retired_le
    have := hi.ring.le1
    simp [(hi.slot k (by omega)).ret hk]
  · rw [hi.mem]
    apply replay_congr
    intro k hk x
    have hal := allows_outcome hi hk
    by_cases hd : (s.ent n k).st = .done
    · simp only [hd, decide_true, Bool.true_or, if_true]
      exact perf_done hi hk hd hal x
    · simp only [hd, decide_false, Bool.false_or]
      by_cases hp : performed n s k = true
      · rw [if_pos hp]
        have hk' := hi.slot k (by have := hi.ring.le1; omega)
        have hc := hk'.comm hk
        unfold perf
        rw [if_pos hp]
        unfold performed at hp
        simp only [Bool.and_eq_true, Bool.not_eq_true'] at hp
        obtain ⟨h1, h2⟩ := hc.nosup hp.1.1
        unfold Slot.outcome
        rw [hc.dead, hp.1.1, hk'.base.addr, hk'.base.data, h1, h2]
        rfl
      · unfold perf
        rw [if_neg hp, if_neg hp]

theorem drained_of_inv {n : Nat} {m : Mem} {s : Sys} (hi : Inv n m s) (he : s.lsu.count = 0) :
    s.mem = replay mmioAddr m (fun k => (s.prog.slots k).outcome) s.prog.len := by
  have h1 := hi.ring.count
  have h2 := hi.ring.retired_le
  have h3 := hi.ring.le1
  rw [hi.mem, show s.prog.committed = s.prog.len by omega]
  exact replay_congr _ (fun k hk x => perf_done hi (by omega) ((hi.slot k hk).ret (by omega)) (allows_outcome hi (by omega)) x)

/-- **C54 (at any time).**  Memory is the initial memory with some of the committed stores carried out, in
program order and each at most once; every store that has left the queue is among them; stores that have not
committed, failed store-conditionals and cancelled stores have no effect. -/
theorem C54_memory (n : Nat) (hn : 0 < n) (m : Mem) (s : Sys) (h : Sys.Reach n m s) :
    ∃ done : Nat → Bool, (∀ k < s.retired, done k = true) ∧
      s.mem = replay mmioAddr m (fun k => if done k then (s.prog.slots k).outcome else none) s.prog.committed :=
  memory_of_inv (inv_reach hn h)

/-- **C54 (drained).**  When the queue is empty, memory is the initial memory after all stores of the program
so far, in program order. -/
theorem C54_drained (n : Nat) (hn : 0 < n) (m : Mem) (s : Sys) (h : Sys.Reach n m s) (he : s.lsu.count = 0) :
    s.mem = replay mmioAddr m (fun k => (s.prog.slots k).outcome) s.prog.len :=
  drained_of_inv (inv_reach hn h) he

/-! ## C55: device accesses -/

/-- **C55 (never cached).**  No access to a device address is ever sent to the data cache. -/
theorem C55_never_cached (n : Nat) (hn : 0 < n) (m : Mem) (s : Sys) (h : Sys.Reach n m s) :
    (∀ idx q b, s.pend idx = some (q, b) → mmioAddr q.addr = false) ∧
    (∀ i, (s.lsu.ldq i).st = .waitDcacheResp → mmioAddr (s.lsu.ldq i).paddr = false) := by
  have hi := inv_reach hn h
  constructor
  · intro idx q b hp
    obtain ⟨k, hk1, hk2, _, hst, hq⟩ := hi.pending hp
    have hk' := hi.slot k (by have := hi.ring.le1; omega)
    have hc := hk'.comm hk2
    have hsup : (s.ent n k).suppress = false := by
      cases e : (s.ent n k).suppress with
      | false => rfl
      | true => have := hc.sup e; rw [hst] at this; cases this
    rw [hq]
    show mmioAddr (s.ent n k).paddr = false
    rw [← (hk'.base.ok (hc.nosup hsup).1).2]
    exact hc.dc hst
  · intro i hst
    rw [← ((hi.load i).loc (by rw [hst]; rfl)).2.2]
    exact ((hi.load i).clear (Or.inr hst)).1

/-- **C55 (device loads).**  A device load is started only when it is the oldest unfinished instruction, no
other device access is outstanding, and every older store has left the queue, that is, has been carried out. -/
theorem C55_device_load (n : Nat) (hn : 0 < n) (m : Mem) (s s' : Sys) (h : Sys.Reach n m s) (i : Nat) (o : Bool)
    (hv : s.Valid n (.ldStlf i o)) (hs : s.step n (.ldStlf i o) = some s') (hst : (s'.lsu.ldq i).st = .waitMmioResp) :
    o = true ∧ s.lsu.unc.valid = false ∧ (s.prog.loads i).older ≤ s.retired ∧
      s'.lsu.unc.valid = true ∧ s'.lsu.unc.isLoad = true ∧ s'.lsu.unc.addr = (s.lsu.ldq i).paddr ∧
      s'.lsu.unc.func3 = (s.lsu.ldq i).func3 ∧ s'.lsu.unc.idx = i := by
  have hi := inv_reach hn h
  have hcs : (s.lsu.ldq i).st = .checkStlf := hv
  have hd := hi.distance hn (i := i) (by rw [hcs]; decide) (by rw [hcs]; decide)
  obtain ⟨l, hl, hs⟩ := Option.map_eq_some_iff.mp hs
  subst hs
  unfold stlf at hl
  dsimp only at hl
  rw [hd] at hl
  split at hl
  · cases hl
  · split at hl
    · split at hl
      · next hc =>
        injection hl with hl
        subst hl
        exact ⟨hc.2.1, hc.2.2, by omega, rfl, rfl, rfl, rfl, rfl⟩
      · injection hl with hl
        subst hl
        dsimp only at hst
        rw [hcs] at hst; cases hst
    · split at hl
      · injection hl with hl
        subst hl
        dsimp only at hst
        rw [upd_same] at hst; cases hst
      · injection hl with hl
        subst hl
        dsimp only at hst
        rw [upd_same] at hst; cases hst
      · injection hl with hl
        subst hl
        dsimp only at hst
        rw [hcs] at hst; cases hst

/-- **C55 (device stores).**  Considering a store for issue starts a device access only for the oldest store
of the queue, after it has committed, when no other device access is outstanding; the access carries the
address and data of the store. -/
theorem C55_device_store (n : Nat) (hn : 0 < n) (m : Mem) (s s' : Sys) (h : Sys.Reach n m s) (d : Nat)
    (hs : s.step n (.stIssue d) = some s') (hne : s'.lsu.unc ≠ s.lsu.unc) :
    d = 0 ∧ s.retired < s.prog.committed ∧ s.lsu.unc.valid = false ∧ s'.lsu.unc.valid = true ∧ s'.lsu.unc.isLoad = false ∧
      (s.prog.slots s.retired).addr = some s'.lsu.unc.addr ∧ (s.prog.slots s.retired).data = some s'.lsu.unc.wdata ∧
      (s.prog.slots s.retired).dead = false ∧ mmioAddr s'.lsu.unc.addr = true := by
  have hi := inv_reach hn h
  have hcc := hi.ring.cc
  have hle1 := hi.ring.le1
  injection hs with hs
  subst hs
  unfold issueStore at hne ⊢
  dsimp only at hne ⊢
  split at hne
  · exact absurd rfl hne
  · next hc =>
    rw [if_neg hc]
    split at hne
    · exact absurd rfl hne
    · next hb =>
      rw [if_neg hb]
      split at hne
      · next hm =>
        rw [if_pos hm]
        split at hne
        · next hz =>
          rw [if_pos hz]
          obtain ⟨hz1, hz2⟩ := hz
          subst hz1
          have he : s.lsu.stq ((s.lsu.head + 0) % n) = s.ent n s.retired := hi.ring.at' 0
          rw [he] at hc hm ⊢
          have hpos : 0 < s.lsu.commitCount := by
            apply Classical.byContradiction; intro e; exact hc (Or.inl (by omega))
          have hstc : (s.ent n s.retired).st = .committed := by
            apply Classical.byContradiction; intro e; exact hc (Or.inr e)
          have hk' := hi.slot s.retired (by omega)
          have hC := hk'.comm (by omega)
          have hsup : (s.ent n s.retired).suppress = false := by
            cases e : (s.ent n s.retired).suppress with
            | false => rfl
            | true => have := hC.sup e; rw [hstc] at this; cases this
          obtain ⟨h1, h2⟩ := hC.nosup hsup
          refine ⟨rfl, by omega, hz2, rfl, rfl, ?_, ?_, ?_, ?_⟩
          · rw [hk'.base.addr, h1]; rfl
          · rw [hk'.base.data, h2]; rfl
          · rw [hC.dead]; exact hsup
          · show mmioAddr (s.ent n s.retired).paddr = true
            rw [← (hk'.base.ok h1).2]; exact hm
        · exact absurd rfl hne
      · split at hne <;> exact absurd rfl hne

theorem and_high (p : BitVec 32) (k : Nat) : p &&& (BitVec.allOnes 32 <<< k) = (p >>> k) <<< k := by
  apply BitVec.eq_of_getLsbD_eq
  intro i hi
  simp only [BitVec.getLsbD_and, BitVec.getLsbD_shiftLeft, BitVec.getLsbD_ushiftRight, BitVec.getLsbD_allOnes]
  by_cases h : i < k
  · simp [h]
  · have h2 : decide (i - k < 32) = true := decide_eq_true (by omega)
    rw [show k + (i - k) = i by omega, h2]; simp [Bool.and_comm]

theorem and_high_eq (p c : BitVec 32) (k : Nat) (hk : k < 32) (hc : c.toNat % 2 ^ k = 0) :
    p &&& (BitVec.allOnes 32 <<< k) = c ↔ c.toNat ≤ p.toNat ∧ p.toNat < c.toNat + 2 ^ k := by
  rw [and_high, ← BitVec.toNat_inj, BitVec.toNat_shiftLeft, BitVec.toNat_ushiftRight, Nat.shiftLeft_eq, Nat.shiftRight_eq_div_pow]
  have hd := Nat.div_add_mod p.toNat (2 ^ k)
  have hm := Nat.mod_lt p.toNat (Nat.two_pow_pos k)
  have hd' := Nat.div_add_mod c.toNat (2 ^ k)
  have hp := p.isLt
  rw [Nat.mul_comm] at hd hd'
  rw [Nat.mod_eq_of_lt (by omega)]
  constructor
  · intro h; omega
  · intro ⟨h1, h2⟩
    have : c.toNat / 2 ^ k = p.toNat / 2 ^ k := by
      apply Nat.le_antisymm
      · exact Nat.div_le_div_right h1
      · apply Nat.le_of_lt_succ
        apply Nat.div_lt_of_lt_mul
        rw [Nat.mul_succ, Nat.mul_comm]; omega
    rw [← this]; omega

/-- **C55 (device map).**  The addresses treated as devices are exactly those of the device ranges. -/
theorem C55_device_map (p : BitVec 32) : mmioAddr p = true ↔ Spec.IsDevice p.toNat := by
  have h1 := and_high_eq p 0x10000000#32 4 (by omega) (by decide)
  have h2 := and_high_eq p 0x0c000000#32 26 (by omega) (by decide)
  rw [show BitVec.allOnes 32 <<< 4 = 0xFFFFFFF0#32 by decide] at h1
  rw [show BitVec.allOnes 32 <<< 26 = 0xFC000000#32 by decide] at h2
  have he : ∀ c : BitVec 32, p = c ↔ c.toNat ≤ p.toNat ∧ p.toNat < c.toNat + 1 := fun c => by
    rw [← BitVec.toNat_inj]; omega
  simp only [mmioAddr, Spec.IsDevice, Spec.deviceRanges, List.mem_cons, List.not_mem_nil, or_false, Bool.or_eq_true,
    decide_eq_true_eq, Bool.and_eq_true, h1, h2, he, BitVec.le_def, BitVec.lt_def]
  simp only [BitVec.toNat_ofNat]
  constructor
  · rintro (((((((h | h) | h) | h) | h) | h) | h) | h)
    · exact ⟨(0x10000000, 16), by simp, h⟩
    · exact ⟨(0x0c000000, 0x4000000), by simp, h⟩
    · exact ⟨(0x1fb00000, 0x1000), by simp, h⟩
    · exact ⟨(0x1fd0f000, 0x100), by simp, h⟩
    · exact ⟨(0x1fd0e000, 1), by simp, h⟩
    · exact ⟨(0x1fd0e004, 1), by simp, h⟩
    · exact ⟨(0x1fd0e008, 1), by simp, h⟩
    · exact ⟨(0x1fd0e00c, 1), by simp, h⟩
  · rintro ⟨r, (rfl | rfl | rfl | rfl | rfl | rfl | rfl | rfl), h⟩ <;> simp only [] at h <;> simp <;> omega

example : Spec.IsDevice 0x0c201004 ∧ ¬ Spec.IsDevice 0x80000000 := by
  refine ⟨⟨(0x0c000000, 0x4000000), by decide, by decide, by decide⟩, ?_⟩
  rintro ⟨r, hr, h⟩
  simp only [Spec.deviceRanges, List.mem_cons, List.not_mem_nil, or_false] at hr
  rcases hr with (rfl | rfl | rfl | rfl | rfl | rfl | rfl | rfl) <;> simp only [] at h <;> omega

/-- **C55 (finding).**  The timer registers are recognised as a device only at their first byte: the other
bytes of the same word are treated as memory. -/
theorem C55_timer_bytes : mmioAddr 0x1fd0e000#32 = true ∧ mmioAddr 0x1fd0e001#32 = false ∧ mmioAddr 0x1fd0e002#32 = false := by
  decide

/-! ## C56: store-conditional -/

/-- A load-reserved completes. -/
def Completes (s : Sys) : Ev → Prop
  | .ldWb i => (s.lsu.ldq i).lr = true ∧ (s.lsu.ldq i).fault = false
  | _ => False

/-- Executions from `a` in which no load-reserved completes. -/
inductive NoLr (n : Nat) (a : Sys) : Sys → Prop
  | refl : NoLr n a a
  | step {s s' : Sys} (e : Ev) : NoLr n a s → s.Valid n e → ¬ Completes s e → s.step n e = some s' → NoLr n a s'

/-- **C56 (decision).**  When a store-conditional whose address translates reports, it is given an effect
exactly if a reservation of its physical address is held, and afterwards no reservation is held. -/
theorem C56_sc_decides (n : Nat) (hn : 0 < n) (m : Mem) (s s' : Sys) (h : Sys.Reach n m s) (k : Nat) (hk : s.live k)
    (hsc : (s.prog.slots k).isSc = true) (hst : (s.lsu.stq (tagIdx n k)).st = .ready)
    (hs : s.step n (.stWb k) = some s') :
    ((s'.prog.slots k).dead = false ↔ s.lsu.rsv.valid = true ∧ (s.prog.slots k).addr = some s.lsu.rsv.addr) ∧
    (s'.prog.slots k).reported = true ∧ s'.lsu.rsv.valid = false := by
  have hi := inv_reach hn h
  injection hs with hs
  subst hs
  have hk' := hi.slot k hk.2
  have hP := hk'.pend hk.1
  have hB := hk'.base
  rw [live_ent hi hk] at hP hB
  have hsg := hP.stage
  unfold stage at hsg
  rw [hst] at hsg
  have hsta : (s.prog.slots k).sta = true := by rw [hP.sta, hst]; rfl
  have hlr : (s.lsu.stq (tagIdx n k)).lrsc = true := by rw [hP.lrsc hsta]; exact hsc
  have haddr : (s.prog.slots k).addr = some (s.lsu.stq (tagIdx n k)).paddr := by rw [hB.addr, hsg.2.1]; rfl
  have hwb : (wbStore s.lsu (tagIdx n k)).rsv.valid = false := by
    unfold wbStore
    dsimp only
    rw [if_neg (by rw [hst]; decide), if_pos ⟨hlr, hsg.1⟩]
  dsimp only
  rw [if_pos (Or.inl hst)]
  refine ⟨?_, ?_, hwb⟩
  · show (upd s.prog.slots k _ k).dead = false ↔ _
    rw [upd_same, haddr, hlr, hsg.1]
    unfold scPass
    simp only [Bool.not_false, Bool.and_true, Bool.true_and, Bool.not_eq_false', Bool.and_eq_true, decide_eq_true_eq, Option.some.injEq]
    constructor
    · intro e; exact ⟨e.1, e.2.symm⟩
    · intro e; exact ⟨e.1, e.2.symm⟩
  · show (upd s.prog.slots k _ k).reported = true
    rw [upd_same]

theorem noLr_rsv {n : Nat} {a : Sys} (ha : a.lsu.rsv.valid = false) {s : Sys} (h : NoLr n a s) : s.lsu.rsv.valid = false := by
  induction h with
  | refl => exact ha
  | @step s s' e _ hv hc hs ih =>
    cases e with
    | allocSt =>
      obtain ⟨l, hl, hs⟩ := Option.map_eq_some_iff.mp hs
      subst hs
      unfold allocStq at hl
      split at hl
      · cases hl
      · split at hl
        · cases hl
        · injection hl with hl; subst hl; exact ih
    | allocLd =>
      obtain ⟨l, hl, hs⟩ := Option.map_eq_some_iff.mp hs
      subst hs
      unfold allocLdq at hl
      split at hl
      · cases hl
      · injection hl with hl; subst hl; exact ih
    | stTlb k r =>
      injection hs with hs; subst hs
      unfold tlbStore
      dsimp only
      split
      · exact ih
      · cases r
        · exact ih
        · rfl
        · exact ih
    | stWin k =>
      injection hs with hs; subst hs
      unfold windowStore
      dsimp only
      split <;> exact ih
    | stWb k =>
      injection hs with hs; subst hs
      unfold wbStore
      dsimp only
      split
      · exact ih
      · split
        · rfl
        · exact ih
    | ldTlb i r =>
      injection hs with hs; subst hs
      unfold tlbLoad
      dsimp only
      split
      · exact ih
      · cases r
        · exact ih
        · rfl
        · exact ih
    | ldWin i =>
      injection hs with hs; subst hs
      unfold windowLoad
      dsimp only
      split <;> exact ih
    | ldStlf i o =>
      obtain ⟨l, hl, hs⟩ := Option.map_eq_some_iff.mp hs
      subst hs
      unfold stlf at hl
      dsimp only at hl
      split at hl
      · cases hl
      · split at hl
        · split at hl <;> (injection hl with hl; subst hl; exact ih)
        · split at hl <;> (injection hl with hl; subst hl; exact ih)
    | ldIssue i =>
      injection hs with hs; subst hs
      unfold issueLoad
      dsimp only
      split <;> exact ih
    | ldResp i hit =>
      injection hs with hs; subst hs
      unfold respLoad
      dsimp only
      split
      · exact ih
      · split <;> exact ih
    | ldWb i =>
      injection hs with hs; subst hs
      unfold wbLoad
      dsimp only
      split
      · exact ih
      · next hst =>
        dsimp only
        split
        · next hlr =>
          exact absurd hlr hc
        · exact ih
    | commit =>
      obtain ⟨l, hl, hs⟩ := Option.map_eq_some_iff.mp hs
      subst hs
      unfold commitStore at hl
      dsimp only at hl
      split at hl
      · injection hl with hl; subst hl; exact ih
      · cases hl
    | trapStore =>
      obtain ⟨l, hl, hs⟩ := Option.map_eq_some_iff.mp hs
      subst hs
      unfold commitStore at hl
      dsimp only at hl
      split at hl
      · injection hl with hl; subst hl; exact ih
      · cases hl
    | mispred mk c =>
      injection hs with hs; subst hs
      show (s.lsu.rsv.valid && _) = false
      rw [ih]; rfl
    | stIssue d =>
      injection hs with hs; subst hs
      unfold issueStore
      dsimp only
      split
      · exact ih
      · split
        · exact ih
        · split
          · split <;> exact ih
          · split <;> exact ih
    | stPerform idx =>
      unfold Sys.step at hs
      dsimp only at hs
      split at hs <;> (injection hs with hs; subst hs; exact ih)
    | stResp idx hit =>
      injection hs with hs; subst hs
      unfold respStore
      dsimp only
      split <;> exact ih
    | retire =>
      injection hs with hs; subst hs
      have hr : (Lsu.retire n s.lsu).rsv = s.lsu.rsv := by unfold Lsu.retire; split <;> rfl
      split
      · show (Lsu.retire n s.lsu).rsv.valid = false; rw [hr]; exact ih
      · show (Lsu.retire n s.lsu).rsv.valid = false; rw [hr]; exact ih
    | mmioResp v =>
      injection hs with hs; subst hs
      unfold Lsu.mmioResp
      dsimp only
      split
      · exact ih
      · split <;> exact ih
    | _ => injection hs with hs; subst hs; exact ih

/-- **C56 (needs a load-reserved).**  Once no reservation is held, for example after any store-conditional
reported, every store-conditional fails until a load-reserved completes, whatever else happens. -/
theorem C56_sc_needs_lr (n : Nat) (hn : 0 < n) (m : Mem) (a s s' : Sys) (ha : Sys.Reach n m a) (hr : a.lsu.rsv.valid = false)
    (h : NoLr n a s) (k : Nat) (hk : s.live k) (hsc : (s.prog.slots k).isSc = true)
    (hst : (s.lsu.stq (tagIdx n k)).st = .ready) (hs : s.step n (.stWb k) = some s') : (s'.prog.slots k).dead = true := by
  have hreach : Sys.Reach n m s := by
    clear hk hsc hst hs
    induction h with
    | refl => exact ha
    | step e _ hv _ hs ih => exact .step e ih hv hs
  have := (C56_sc_decides n hn m s s' hreach k hk hsc hst hs).1
  cases hd : (s'.prog.slots k).dead with
  | true => rfl
  | false =>
    have := (this.mp hd).1
    rw [noLr_rsv hr h] at this; cases this

/-! ## Concrete executions -/
namespace LsuRun

def m0 : Mem := fun _ => 0#8

def go (es : List Ev) : Option Sys := runFrom 4 16 (Sys.init m0) es
def at_ (es : List Ev) : Sys := (go es).getD (Sys.init m0)

theorem reach_at {es : List Ev} (h : (go es).isSome = true) : Sys.Reach 16 m0 (at_ es) := by
  unfold at_
  cases e : go es with
  | some s => exact reach_run e
  | none => rw [e] at h; cases h

/-- Store number `k`: dispatch, data, address, translation. -/
def store (k : Nat) (sz : Size) (sc : Bool) (pa v : BitVec 32) : List Ev :=
  [.allocSt sz sc 0#16, .stData k v, .stAddr k, .stTlb k (.hit pa), .stWin k]
/-- A word load in slot `i`, up to the forwarding scan. -/
def load (i : Nat) (lr : Bool) (pa : BitVec 32) : List Ev :=
  [.allocLd i .word true lr 0#16, .ldReq i 2#3, .ldTlb i (.hit pa), .ldWin i, .ldStlf i true]
/-- The load is answered by the cache. -/
def fromCache (i : Nat) : List Ev := [.ldIssue i, .ldSample i, .ldResp i true]
/-- The `d`-th store of the queue, in slot `idx`, is carried out by the cache. -/
def drain (d idx : Nat) : List Ev := [.stIssue d, .stPerform idx, .stResp idx true]

/-- Two stores, then a load of the second one's word before anything is written. -/
def fwd : List Ev := store 0 .word false 0x80000010#32 0x11223344#32 ++ store 1 .word false 0x80000010#32 0x55667788#32 ++
  load 0 false 0x80000010#32
example : (go fwd).isSome = true := by decide +kernel
example : ((at_ fwd).lsu.ldq 0).st = .readyToWb ∧ ((at_ fwd).lsu.ldq 0).mmio = false ∧ (at_ fwd).badFwd 0 = false ∧
    ((at_ fwd).lsu.ldq 0).result = 0x55667788#32 := by decide +kernel
/-- The run meets the hypotheses of `C53_load_value_plain`. -/
example : Sys.ReachPlain 16 m0 (at_ fwd) := by
  have hs : (go fwd).isSome = true := by decide +kernel
  unfold at_
  cases e : go fwd with
  | some s => exact reachPlain_runFrom fwd _ s .init (fun _ _ => rfl) (by decide) e
  | none => rw [e] at hs; cases hs
/-- The load of another word goes to the cache; a half-word store inside the loaded word makes it wait. -/
example : ((at_ (store 0 .word false 0x80000010#32 7#32 ++ load 0 false 0x80000014#32)).lsu.ldq 0).st = .readyToIssue ∧
    ((at_ (store 0 .half false 0x80000012#32 7#32 ++ load 0 false 0x80000010#32)).lsu.ldq 0).st = .checkStlf := by
  decide +kernel
example : scan (at' 16 (at_ fwd).lsu) 0x80000010#32 2#3 2 = .forward 1 0x55667788#32 ∧
    scan (at' 16 (at_ fwd).lsu) 0x80000014#32 2#3 2 = .cache := by decide +kernel

/-- Two stores commit; the younger one, to another word, is carried out first. -/
def overtaking : List Ev := store 0 .word false 0x80000010#32 0x11223344#32 ++ store 1 .half false 0x80000016#32 0x5566#32 ++
  [.stWb 0, .stWb 1, .commit, .commit] ++ drain 1 1
example : (go overtaking).isSome = true ∧ (at_ overtaking).retired = 0 ∧ (at_ overtaking).mem 0x80000016#32 = 0x66#8 ∧
    (at_ overtaking).mem 0x80000010#32 = 0#8 := by decide +kernel
/-- A load of the younger one's word still waits for nothing and is forwarded; after draining, the queue is
empty. -/
example : (go (overtaking ++ drain 0 0 ++ [.retire, .retire])).isSome = true ∧
    (at_ (overtaking ++ drain 0 0 ++ [.retire, .retire])).lsu.count = 0 ∧
    (at_ (overtaking ++ drain 0 0 ++ [.retire, .retire])).mem 0x80000011#32 = 0x33#8 := by decide +kernel
/-- Stores to the same word do not overtake. -/
example : ((at_ (store 0 .word false 0x80000010#32 1#32 ++ store 1 .half false 0x80000012#32 2#32 ++
    [.stWb 0, .stWb 1, .commit, .commit, .stIssue 1])).lsu.stq 1).st = .committed := by decide +kernel
/-- Twenty stores, one after the other, in a queue of sixteen. -/
def twenty : List Ev := (List.range 20).flatMap fun k =>
  store k .word false (0x80000000#32 + BitVec.ofNat 32 (4 * k)) (BitVec.ofNat 32 k) ++ [.stWb k, .commit] ++ drain 0 (k % 16) ++ [.retire]
example : (go twenty).isSome = true ∧ tail 16 (at_ twenty).lsu = (4, true) ∧ (at_ twenty).mem 0x8000004C#32 = 19#8 := by
  decide +kernel
/-- A mispredicted branch removes the younger store. -/
example : (go (store 0 .word false 0x80000010#32 1#32 ++ [.allocSt .word false 4#16, .mispred 4#16 1])).isSome = true ∧
    (at_ (store 0 .word false 0x80000010#32 1#32 ++ [.allocSt .word false 4#16, .mispred 4#16 1])).lsu.count = 1 := by
  decide +kernel

/-- A device load waits for the older store, then starts. -/
def devLoad : List Ev := store 0 .word false 0x80000010#32 1#32 ++ [.stWb 0] ++ load 0 false 0x10000004#32
example : (go devLoad).isSome = true ∧ ((at_ devLoad).lsu.ldq 0).st = .checkStlf := by decide +kernel
def devLoad2 : List Ev := store 0 .word false 0x80000010#32 1#32 ++ [.stWb 0, .commit] ++ drain 0 0 ++ [.retire] ++
  load 0 false 0x10000004#32
example : (go devLoad2).isSome = true ∧ ((at_ devLoad2).lsu.ldq 0).st = .waitMmioResp ∧ (at_ devLoad2).lsu.unc.valid = true := by
  decide +kernel
/-- A device store is sent to the device when it is the oldest. -/
def devStore : List Ev := store 0 .byte false 0x10000000#32 0x41#32 ++ [.stWb 0, .commit]
example : (go (devStore ++ [.stIssue 0])).isSome = true ∧ (at_ devStore).lsu.unc.valid = false ∧
    (at_ (devStore ++ [.stIssue 0])).lsu.unc.addr = 0x10000000#32 ∧ (at_ (devStore ++ [.stIssue 0])).lsu.unc.valid = true := by
  decide +kernel

/-- Load-reserved, then a store-conditional to the same word, ready to report. -/
def lrsc : List Ev := load 0 true 0x80000010#32 ++ fromCache 0 ++ [.ldWb 0] ++ store 0 .word true 0x80000010#32 9#32
example : (go lrsc).isSome = true ∧ ((at_ lrsc).lsu.stq 0).st = .ready ∧ ((at_ lrsc).prog.slots 0).isSc = true ∧
    (at_ lrsc).lsu.rsv.valid = true := by decide +kernel
example : ((at_ (lrsc ++ [.stWb 0])).prog.slots 0).dead = false ∧
    ((at_ (lrsc ++ [.stWb 0] ++ store 1 .word true 0x80000010#32 8#32 ++ [.stWb 1])).prog.slots 1).dead = true := by
  decide +kernel

/-- A store-conditional without reservation, then a load of the same word. -/
def failedSc : List Ev := store 0 .word true 0x80000010#32 0xDEAD#32 ++ [.stWb 0] ++ load 0 false 0x80000010#32

theorem returns_zero {s : Sys} {v : BitVec 32} {pa : BitVec 32} (k : Nat) (ho : (s.prog.loads 0).older = k)
    (hops : ∃ ops : Nat → Option Spec.MemOrder.Op, (∀ j < k, (s.prog.slots j).allows (ops j)) ∧
      Spec.ByteMem.load (replay mmioAddr m0 ops k) (s.prog.loads 0).size (s.prog.loads 0).signed pa ≠ v) :
    ¬ Returns mmioAddr m0 s.prog (s.prog.loads 0) pa v := by
  intro h
  obtain ⟨ops, h1, h2⟩ := hops
  apply h2
  have := h ops (by rw [ho]; exact h1)
  rw [ho] at this
  exact this

theorem allows_dead {sl : Slot} (h : sl.dead = true) : sl.allows none := Or.inl h

end LsuRun

open LsuRun in
/-- **C53 (finding).**  A load that follows a failed store-conditional to the same word is given the data of
the store-conditional, although that store never happens (here: 0xDEAD, where memory holds 0). -/
theorem C53_failed_sc : (go failedSc).isSome = true ∧ ((at_ failedSc).lsu.ldq 0).st = .readyToWb ∧
    ((at_ failedSc).lsu.ldq 0).mmio = false ∧ ((at_ failedSc).prog.slots 0).dead = true ∧
    ((at_ failedSc).lsu.ldq 0).result = 0xDEAD#32 ∧
    ¬ Returns mmioAddr m0 (at_ failedSc).prog ((at_ failedSc).prog.loads 0) ((at_ failedSc).lsu.ldq 0).paddr
      ((at_ failedSc).lsu.ldq 0).result := by
  refine ⟨by decide +kernel, by decide +kernel, by decide +kernel, by decide +kernel, by decide +kernel, ?_⟩
  refine returns_zero 1 (by decide +kernel) ⟨fun _ => none, ?_, by decide +kernel⟩
  intro j hj
  have : j = 0 := by omega
  subst this
  exact allows_dead (by decide +kernel)

namespace LsuRun

/-- An older store is still being written; a trap is taken at the next store; a load in the handler reads
the word of the cancelled store. -/
def cancelled : List Ev := store 0 .word false 0x80000020#32 1#32 ++ store 1 .word false 0x80000010#32 0xBEEF#32 ++
  [.stWb 0, .stWb 1, .commit, .stIssue 0, .trapStore] ++ load 0 false 0x80000010#32

end LsuRun

open LsuRun in
/-- **C53 (finding).**  A load of a trap handler is given the data of the store at which the trap was taken,
although that store was cancelled. -/
theorem C53_cancelled_store : (go cancelled).isSome = true ∧ ((at_ cancelled).lsu.ldq 0).st = .readyToWb ∧
    ((at_ cancelled).lsu.ldq 0).mmio = false ∧ ((at_ cancelled).prog.slots 1).dead = true ∧
    ((at_ cancelled).lsu.ldq 0).result = 0xBEEF#32 ∧
    ¬ Returns mmioAddr m0 (at_ cancelled).prog ((at_ cancelled).prog.loads 0) ((at_ cancelled).lsu.ldq 0).paddr
      ((at_ cancelled).lsu.ldq 0).result := by
  refine ⟨by decide +kernel, by decide +kernel, by decide +kernel, by decide +kernel, by decide +kernel, ?_⟩
  refine returns_zero 2 (by decide +kernel)
    ⟨fun k => if k = 0 then some { addr := 0x80000020#32, size := .word, data := 1#32 } else none, ?_, by decide +kernel⟩
  intro j hj
  have : j = 0 ∨ j = 1 := by omega
  rcases this with e | e <;> subst e
  · have e1 : ((at_ cancelled).prog.slots 0) =
        { size := .word, isSc := false, sta := true, addr := some 0x80000020#32, data := some 1#32, reported := true } := by
      decide +kernel
    rw [e1]
    exact ⟨rfl, rfl, fun a ha => Option.some.inj ha, fun a ha => Option.some.inj ha⟩
  · exact allows_dead (by decide +kernel)

/-- **C53 (negation of the full property).** -/
theorem C53_not_full : ¬ LoadsInOrder 16 := by
  intro h
  obtain ⟨h1, h2, h3, _, _, h6⟩ := C53_failed_sc
  exact h6 (h _ _ 0 (LsuRun.reach_at h1) h2 h3)

namespace LsuRun

/-- Load-reserved, a plain store to the same word that is fully carried out, store-conditional. -/
def lrStoreSc : List Ev := load 0 true 0x80000010#32 ++ fromCache 0 ++ [.ldWb 0] ++ store 0 .word false 0x80000010#32 5#32 ++
  [.stWb 0, .commit] ++ drain 0 0 ++ [.retire] ++ store 1 .word true 0x80000010#32 9#32 ++ [.stWb 1]
/-- Load-reserved, a trap, store-conditional in the handler. -/
def lrTrapSc : List Ev := load 0 true 0x80000010#32 ++ fromCache 0 ++ [.ldWb 0, .flush] ++
  store 0 .word true 0x80000010#32 9#32 ++ [.stWb 0]

/-- A store that has not reported when the trap arrives. -/
def early : List Ev := store 0 .word false 0x80000010#32 1#32
example : (go early).isSome = true ∧ (at_ early).prog.committed < (at_ early).prog.len ∧
    ((at_ early).prog.slots 0).reported = false ∧ ((at_ early).step 16 .trapStore).isNone = true := by decide +kernel

end LsuRun

open LsuRun in
/-- **C56 (finding).**  A store to the reserved word does not end the reservation of the core: the
store-conditional is given an effect.  In the reference model the same three instructions make it fail. -/
theorem C56_store_keeps_reservation :
    (go lrStoreSc).isSome = true ∧ ((at_ lrStoreSc).prog.slots 1).reported = true ∧
    ((at_ lrStoreSc).prog.slots 1).dead = false ∧
    ((RefMemRun.run RefMemRun.s0 [.lr 0x80000010#32, .store .word 0x80000010#32 5#32]).bind
      (fun s => RefMem.amo 0#64 s 3#5 0x80000010#32 9#32)).map (·.1) = some (some 1#32) := by
  refine ⟨by decide +kernel, by decide +kernel, by decide +kernel, by decide +kernel⟩

open LsuRun in
/-- **C56 (finding).**  A trap between load-reserved and store-conditional does not end the reservation. -/
theorem C56_trap_keeps_reservation :
    (go lrTrapSc).isSome = true ∧ ((at_ lrTrapSc).prog.slots 0).reported = true ∧ ((at_ lrTrapSc).prog.slots 0).dead = false := by
  refine ⟨by decide +kernel, by decide +kernel, by decide +kernel⟩

end Verif.Props

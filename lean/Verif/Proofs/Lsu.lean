import Verif.Proofs.LsuBytes
import Verif.Proofs.Ring

/-
Invariant of the load/store unit in its surroundings.
-/
namespace Verif.Lsu

open Verif.Ring Verif.Lane Verif.Spec.ByteMem Verif.Spec.MemOrder

/-! ## Ring arithmetic -/

theorem tagValue_mod (n k : Nat) : tagValue n (tagIdx n k) (tagFlag n k) = k % (n * 2) := by
  unfold tagValue tagIdx tagFlag
  rw [Nat.mod_mul]
  have : k / n % 2 = 0 ∨ k / n % 2 = 1 := by omega
  rcases this with h | h <;> simp [h] <;> omega

theorem distance_eq (n h k : Nat) (hn : 0 < n) (h1 : h ≤ k) (h2 : k ≤ h + n) :
    distance n (tagIdx n h) (tagFlag n h) (tagIdx n k) (tagFlag n k) = k - h := by
  unfold distance
  rw [tagValue_mod, tagValue_mod]
  have hlt := Nat.mod_lt h (show 0 < n * 2 by omega)
  have e1 := Nat.div_add_mod h (n * 2)
  have e2 := Nat.div_add_mod k (n * 2)
  obtain ⟨d, rfl⟩ : ∃ d, k = h + d := ⟨k - h, by omega⟩
  have hd : d < n * 2 := by omega
  rw [Nat.add_mod, Nat.mod_eq_of_lt hd, Nat.add_sub_cancel_left]
  by_cases hc : h % (n * 2) + d < n * 2
  · rw [Nat.mod_eq_of_lt hc]
    have : h % (n * 2) + d + n * 2 - h % (n * 2) = d + n * 2 := by omega
    rw [this, Nat.add_mod_right, Nat.mod_eq_of_lt hd]
  · have : (h % (n * 2) + d) % (n * 2) = h % (n * 2) + d - n * 2 := by
      rw [Nat.mod_eq_sub_mod (by omega), Nat.mod_eq_of_lt (by omega)]
    rw [this]
    have : h % (n * 2) + d - n * 2 + n * 2 - h % (n * 2) = d := by omega
    rw [this, Nat.mod_eq_of_lt hd]

theorem div_add_count (n h c : Nat) (hn : 0 < n) (hc : c ≤ n) :
    (h + c) / n = if h % n + c ≥ n then h / n + 1 else h / n := by
  have e1 := Nat.div_add_mod h n
  have hlt := Nat.mod_lt h hn
  split
  · rw [Nat.div_eq_iff hn]
    constructor
    · rw [Nat.add_mul, Nat.mul_comm]; omega
    · rw [Nat.add_mul, Nat.mul_comm]; omega
  · rw [Nat.div_eq_iff hn]
    constructor
    · rw [Nat.mul_comm]; omega
    · rw [Nat.mul_comm]; omega

theorem tailFlag_eq (n h c : Nat) (hn : 0 < n) (hc : c ≤ n) : tailFlag n (tagIdx n h) c (tagFlag n h) = tagFlag n (h + c) := by
  unfold tailFlag tagIdx tagFlag
  rw [div_add_count n h c hn hc]
  split
  · have : h / n % 2 = 0 ∨ h / n % 2 = 1 := by omega
    rcases this with h' | h' <;> simp [h', Nat.add_mod]
  · rfl

theorem idxAfter_eq (n h c : Nat) : idxAfter n (tagIdx n h) c = tagIdx n (h + c) := by
  unfold idxAfter tagIdx; rw [Nat.mod_add_mod]

theorem adv_eq (n k : Nat) (hn : 0 < n) : adv n (tagIdx n k) = tagIdx n (k + 1) := by
  unfold adv tagIdx
  have hlt := Nat.mod_lt k hn
  rw [← Nat.mod_add_mod]
  split
  · have : k % n + 1 = n := by omega
    rw [this, Nat.mod_self]
  · exact (Nat.mod_eq_of_lt (by omega)).symm

theorem advFlag_eq (n k : Nat) (hn : 0 < n) : advFlag n (tagIdx n k) (tagFlag n k) = (tagIdx n (k + 1), tagFlag n (k + 1)) := by
  have h1 := adv_eq n k hn
  have h2 := tailFlag_eq n k 1 hn hn
  unfold adv at h1
  unfold tailFlag at h2
  unfold advFlag
  rw [← h1, ← h2]
  split <;> rfl

theorem tag_inj {n h j k : Nat} (hj : h ≤ j) (hj2 : j < h + n) (hk : h ≤ k) (hk2 : k < h + n) (e : tagIdx n j = tagIdx n k) :
    j = k := by
  unfold tagIdx at e
  have e1 := Nat.div_add_mod j n
  have e2 := Nat.div_add_mod k n
  rw [e] at e1
  have : j / n = k / n := by
    apply Classical.byContradiction
    intro hne
    rcases Nat.lt_or_gt_of_ne hne with hlt | hlt
    · have := Nat.mul_le_mul_left n (show j / n + 1 ≤ k / n from hlt)
      rw [Nat.mul_add] at this; omega
    · have := Nat.mul_le_mul_left n (show k / n + 1 ≤ j / n from hlt)
      rw [Nat.mul_add] at this; omega
  rw [this] at e1
  omega

theorem tag_lt (n k : Nat) (hn : 0 < n) : tagIdx n k < n := Nat.mod_lt _ hn

/-! ## The invariant -/

structure RingOk (n : Nat) (s : Sys) : Prop where
  head : s.lsu.head = tagIdx n s.retired
  headFlag : s.lsu.headFlag = tagFlag n s.retired
  count : s.retired + s.lsu.count = s.prog.len
  cc : s.retired + s.lsu.commitCount = s.prog.committed
  commit : s.lsu.commit = tagIdx n s.prog.committed
  le1 : s.prog.committed ≤ s.prog.len
  le2 : s.prog.len ≤ s.retired + n

/-- What the entry says agrees with what is known about the store. -/
structure Base (sl : Slot) (e : StqEntry) : Prop where
  func3 : e.func3 = sl.size.code
  addr : sl.addr = if e.paddrValid then some e.paddr else none
  data : sl.data = if e.dataValid then some e.data else none
  ok : e.paddrValid = true → okAddr sl.size e.paddr ∧ e.mmio = mmioAddr e.paddr

/-- Progress of a store that has not committed. -/
def stage (e : StqEntry) : Prop :=
  match e.st with
  | .allocated | .waitTlb | .waitTlbRetry => e.paddrValid = false ∧ e.fault = false
  | .waitData => e.paddrValid = true ∧ e.fault = false
  | .waitDone | .waitCommit => (e.fault = true ∧ e.paddrValid = false) ∨ (e.fault = false ∧ e.paddrValid = true ∧ e.dataValid = true)
  | .ready => e.fault = false ∧ e.paddrValid = true ∧ e.dataValid = true
  | .pageFault => e.fault = true ∧ e.paddrValid = false
  | _ => False

structure Pend (sl : Slot) (e : StqEntry) : Prop where
  fault : sl.fault = e.fault
  sta : sl.sta = decide (e.st ≠ .allocated)
  lrsc : sl.sta = true → e.lrsc = sl.isSc
  reported : sl.reported = decide (e.st = .waitCommit)
  dead : sl.dead = e.suppress
  sup : e.suppress = true → e.lrsc = true ∧ e.scPass = false ∧ e.st = .waitCommit
  scp : e.st = .waitCommit → e.lrsc = true → e.fault = false → e.suppress = !e.scPass
  stage : stage e

structure Comm (sl : Slot) (e : StqEntry) : Prop where
  st : e.st = .committed ∨ e.st = .waitDcacheResp ∨ e.st = .waitMmioResp ∨ e.st = .done
  reported : sl.reported = true
  dead : sl.dead = e.suppress
  sup : e.suppress = true → e.st = .done
  nosup : e.suppress = false → e.paddrValid = true ∧ e.dataValid = true
  dc : e.st = .waitDcacheResp → e.mmio = false
  mm : e.st = .waitMmioResp → e.mmio = true

structure SlotOk (n : Nat) (s : Sys) (k : Nat) : Prop where
  base : Base (s.prog.slots k) (s.ent n k)
  comm : k < s.prog.committed → Comm (s.prog.slots k) (s.ent n k)
  pend : s.prog.committed ≤ k → Pend (s.prog.slots k) (s.ent n k)
  ret : k < s.retired → (s.ent n k).st = .done

/-- The request a store sends. -/
def reqOf (e : StqEntry) (idx : Nat) : StoreReq :=
  { addr := e.paddr, data := alignStoreData e.data e.paddr e.func3, strb := storeStrb e.paddr e.func3, idx := idx }

def PendOk (n : Nat) (s : Sys) : Prop :=
  ∀ k, s.retired ≤ k → k < s.retired + n → s.pend (tagIdx n k) = none ∨
    (k < s.prog.committed ∧ (s.ent n k).st = .waitDcacheResp ∧ ∃ b, s.pend (tagIdx n k) = some (reqOf (s.ent n k) (tagIdx n k), b))

/-- Has the store taken effect in memory? -/
def performed (n : Nat) (s : Sys) (k : Nat) : Bool :=
  let e := s.ent n k
  !e.suppress && !e.mmio && (decide (e.st = .done) || (decide (e.st = .waitDcacheResp) && match s.pend (tagIdx n k) with
    | some (_, b) => b
    | none => false))

def opOf (sl : Slot) (e : StqEntry) : Op := { addr := e.paddr, size := sl.size, data := e.data }

def perf (n : Nat) (s : Sys) (k : Nat) : Option Op :=
  if performed n s k then some (opOf (s.prog.slots k) (s.ent n k)) else none

def started (e : StqEntry) : Prop := e.mmio = false ∧ (e.st = .waitDcacheResp ∨ (e.st = .done ∧ e.suppress = false))

def IssOk (n : Nat) (s : Sys) : Prop :=
  ∀ i j, s.retired ≤ i → i < j → j < s.prog.committed → started (s.ent n j) → (s.ent n i).st ≠ .done →
    checkAddr (s.ent n i).paddr (storeStrb (s.ent n i).paddr (s.ent n i).func3)
      (s.ent n j).paddr (storeStrb (s.ent n j).paddr (s.ent n j).func3) = false

/-- States in which the physical address of a load is known. -/
def LoadState.located : LoadState → Bool
  | .waitStlf | .checkStlf | .readyToIssue | .waitDcacheResp | .waitMmioResp | .readyToWb => true
  | _ => false

structure LoadOk (n : Nat) (m : Mem) (s : Sys) (i : Nat) : Prop where
  older : (s.lsu.ldq i).st ≠ .empty → s.prog.committed ≤ (s.prog.loads i).older ∧ (s.prog.loads i).older ≤ s.prog.len
  snap : (s.lsu.ldq i).st ≠ .empty → (s.lsu.ldq i).st ≠ .allocated →
    (s.lsu.ldq i).snapIdx = tagIdx n (s.prog.loads i).older ∧ (s.lsu.ldq i).snapFlag = tagFlag n (s.prog.loads i).older ∧
    loadCode (s.prog.loads i).size (s.prog.loads i).signed = some (s.lsu.ldq i).func3
  early : (s.lsu.ldq i).st = .allocated ∨ (s.lsu.ldq i).st = .waitTlb ∨ (s.lsu.ldq i).st = .waitTlbRetry → (s.lsu.ldq i).fault = false
  loc : (s.lsu.ldq i).st.located = true → (s.lsu.ldq i).fault = false ∧ okAddr (s.prog.loads i).size (s.lsu.ldq i).paddr ∧
    (s.lsu.ldq i).mmio = mmioAddr (s.lsu.ldq i).paddr
  clear : (s.lsu.ldq i).st = .readyToIssue ∨ (s.lsu.ldq i).st = .waitDcacheResp → (s.lsu.ldq i).mmio = false ∧
    ∀ k, s.retired ≤ k → k < (s.prog.loads i).older → (s.ent n k).paddrValid = true ∧
      checkStlf (s.lsu.ldq i).paddr (s.lsu.ldq i).func3 (s.ent n k).paddr (s.ent n k).func3 = .disjoint
  samp : (s.lsu.ldq i).st = .waitDcacheResp → ∀ w, s.samp i = some w →
    Returns mmioAddr m s.prog (s.prog.loads i) (s.lsu.ldq i).paddr (extractData w (s.lsu.ldq i).paddr (s.lsu.ldq i).func3)
  val : (s.lsu.ldq i).st = .readyToWb → (s.lsu.ldq i).mmio = false → s.badFwd i = false →
    Returns mmioAddr m s.prog (s.prog.loads i) (s.lsu.ldq i).paddr (s.lsu.ldq i).result
  mm : (s.lsu.ldq i).st = .waitMmioResp → (s.lsu.ldq i).mmio = true

structure Inv (n : Nat) (m : Mem) (s : Sys) : Prop where
  ring : RingOk n s
  slot : ∀ k < s.prog.len, SlotOk n s k
  pend : PendOk n s
  out : ∀ i, n ≤ i → s.pend i = none
  mem : s.mem = replay mmioAddr m (perf n s) s.prog.committed
  iss : IssOk n s
  load : ∀ i, LoadOk n m s i

theorem RingOk.retired_le {n : Nat} {s : Sys} (r : RingOk n s) : s.retired ≤ s.prog.committed := by
  have := r.cc; omega

theorem RingOk.at' {n : Nat} {s : Sys} (r : RingOk n s) (i : Nat) : Lsu.at' n s.lsu i = s.ent n (s.retired + i) := by
  unfold Lsu.at' Sys.ent
  rw [r.head, if_neg (by omega)]
  unfold tagIdx
  rw [Nat.mod_add_mod]

theorem ent_window {n : Nat} (s : Sys) {k : Nat} (h : s.retired ≤ k) : s.ent n k = s.lsu.stq (tagIdx n k) := by
  unfold Sys.ent tagIdx
  rw [if_neg (by omega)]

theorem inv_init (n : Nat) (m : Mem) : Inv n m (Sys.init m) := by
  refine ⟨?_, ?_, ?_, ?_, ?_, ?_, ?_⟩
  · constructor <;> simp [Sys.init, Lsu.init, tagIdx, tagFlag]
  · intro k hk; exact absurd hk (by simp [Sys.init])
  · intro k _ _; left; rfl
  · intro _ _; rfl
  · rfl
  · intro i j _ _ hj; exact absurd hj (by simp [Sys.init])
  · intro i
    constructor <;> simp [Sys.init, Lsu.init, LoadState.located]

/-! ## Changes of one entry -/

/-- The entries after slot `tagIdx n k` has been overwritten. -/
theorem ent_upd {n : Nat} {s s' : Sys} {k : Nat} {e : StqEntry} (hk : s.retired ≤ k) (hk2 : k < s.retired + n)
    (hr : s'.retired = s.retired) (ho : s'.old = s.old) (hq : s'.lsu.stq = upd s.lsu.stq (tagIdx n k) e) {j : Nat}
    (hj : j < s.retired + n) : s'.ent n j = if j = k then e else s.ent n j := by
  unfold Sys.ent
  rw [hr, ho, hq]
  by_cases h1 : j < s.retired
  · rw [if_pos h1, if_pos h1, if_neg (by omega)]
  · rw [if_neg h1, if_neg h1]
    by_cases h2 : j = k
    · subst h2
      rw [if_pos rfl]
      exact upd_same _ _ _
    · rw [if_neg h2]
      apply upd_ne
      intro h3
      exact h2 (tag_inj (by omega) hj hk hk2 h3)

/-- Loads are not disturbed. -/
theorem LoadOk.frame {n : Nat} {m : Mem} {s s' : Sys} {i : Nat} (h : LoadOk n m s i) (hl : s'.lsu.ldq i = s.lsu.ldq i)
    (hrec : s'.prog.loads i = s.prog.loads i) (hs : s'.samp i = s.samp i) (hb : s'.badFwd i = s.badFwd i)
    (ho : (s.lsu.ldq i).st ≠ .empty → s'.prog.committed ≤ (s.prog.loads i).older ∧ (s.prog.loads i).older ≤ s'.prog.len)
    (hr : s.retired ≤ s'.retired)
    (ha : (s.lsu.ldq i).st ≠ .empty → ∀ k, s'.retired ≤ k → k < (s.prog.loads i).older → (s.ent n k).paddrValid = true →
      (s'.ent n k).paddrValid = true ∧ (s'.ent n k).paddr = (s.ent n k).paddr ∧ (s'.ent n k).func3 = (s.ent n k).func3)
    (hm : (s.lsu.ldq i).st ≠ .empty → ∀ k, k < (s.prog.loads i).older → ∀ o,
      (s'.prog.slots k).allows o → (s.prog.slots k).allows o) : LoadOk n m s' i := by
  have hret : (s.lsu.ldq i).st ≠ .empty → ∀ pa v, Returns mmioAddr m s.prog (s.prog.loads i) pa v →
      Returns mmioAddr m s'.prog (s.prog.loads i) pa v := by
    intro hne pa v hR ops hops
    exact hR ops (fun k hk => hm hne k hk _ (hops k hk))
  constructor <;> rw [hl] <;> try rw [hrec]
  · exact ho
  · exact h.snap
  · exact h.early
  · exact h.loc
  · intro hst
    have hne : (s.lsu.ldq i).st ≠ .empty := by rcases hst with e | e <;> rw [e] <;> decide
    obtain ⟨h1, h2⟩ := h.clear hst
    refine ⟨h1, fun k hk1 hk2 => ?_⟩
    obtain ⟨h3, h4⟩ := h2 k (by omega) hk2
    obtain ⟨a1, a2, a3⟩ := ha hne k hk1 hk2 h3
    rw [a2, a3]
    exact ⟨a1, h4⟩
  · intro hst w hw
    rw [hs] at hw
    exact hret (by rw [hst]; decide) _ _ (h.samp hst w hw)
  · intro hst hmm hbf
    rw [hb] at hbf
    exact hret (by rw [hst]; decide) _ _ (h.val hst hmm hbf)
  · exact h.mm

/-- A change of one store that has not committed. -/
theorem Inv.pendUpdate {n : Nat} {m : Mem} {s s' : Sys} (h : Inv n m s) {k : Nat} (hlive : s.live k) {e : StqEntry} {sl : Slot}
    (hq : s'.lsu.stq = upd s.lsu.stq (tagIdx n k) e) (hhead : s'.lsu.head = s.lsu.head)
    (hhf : s'.lsu.headFlag = s.lsu.headFlag) (hcnt : s'.lsu.count = s.lsu.count) (hcom : s'.lsu.commit = s.lsu.commit)
    (hcc : s'.lsu.commitCount = s.lsu.commitCount) (hld : s'.lsu.ldq = s.lsu.ldq)
    (hsl : s'.prog.slots = upd s.prog.slots k sl) (hlen : s'.prog.len = s.prog.len)
    (hcmt : s'.prog.committed = s.prog.committed) (hloads : s'.prog.loads = s.prog.loads) (hmem : s'.mem = s.mem)
    (hret : s'.retired = s.retired) (hold : s'.old = s.old) (hpend : s'.pend = s.pend) (hsamp : s'.samp = s.samp)
    (hbad : s'.badFwd = s.badFwd) (hB : Base sl e) (hP : Pend sl e)
    (hmono : ∀ o, sl.allows o → (s.prog.slots k).allows o)
    (hstab : (s.ent n k).paddrValid = true → e.paddrValid = true ∧ e.paddr = (s.ent n k).paddr ∧ e.func3 = (s.ent n k).func3) :
    Inv n m s' := by
  have hrc := h.ring.retired_le
  have hle1 := h.ring.le1
  have hle2 := h.ring.le2
  obtain ⟨hk1, hk2⟩ := hlive
  have hent : ∀ j, j < s.retired + n → s'.ent n j = if j = k then e else s.ent n j :=
    fun j hj => ent_upd (by omega) (by omega) hret hold hq hj
  have hslot : ∀ j, s'.prog.slots j = if j = k then sl else s.prog.slots j := by
    intro j; rw [hsl]; rfl
  have hperf : ∀ j, j < s.prog.committed → perf n s' j = perf n s j := by
    intro j hj
    have hne : j ≠ k := by omega
    unfold perf performed
    rw [hent j (by omega), hslot j, if_neg hne, if_neg hne, hpend]
  refine ⟨?_, ?_, ?_, ?_, ?_, ?_, ?_⟩
  · constructor
    · rw [hhead, hret]; exact h.ring.head
    · rw [hhf, hret]; exact h.ring.headFlag
    · rw [hret, hcnt, hlen]; exact h.ring.count
    · rw [hret, hcc, hcmt]; exact h.ring.cc
    · rw [hcom, hcmt]; exact h.ring.commit
    · rw [hcmt, hlen]; exact hle1
    · rw [hlen, hret]; exact hle2
  · intro j hj
    rw [hlen] at hj
    have hj' := h.slot j hj
    constructor
    · rw [hent j (by omega), hslot j]
      split
      · exact hB
      · exact hj'.base
    · intro hjc
      rw [hcmt] at hjc
      rw [hent j (by omega), hslot j, if_neg (by omega), if_neg (by omega)]
      exact hj'.comm hjc
    · intro hjc
      rw [hcmt] at hjc
      rw [hent j (by omega), hslot j]
      split
      · exact hP
      · exact hj'.pend hjc
    · intro hjr
      rw [hret] at hjr
      rw [hent j (by omega), if_neg (by omega)]
      exact hj'.ret hjr
  · intro j hj1 hj2
    rw [hret] at hj1 hj2
    rw [hpend, hcmt]
    rcases h.pend j hj1 hj2 with h1 | ⟨h1, h2, h3⟩
    · exact Or.inl h1
    · right
      rw [hent j hj2, if_neg (by omega)]
      exact ⟨h1, h2, h3⟩
  · rw [hpend]; exact h.out
  · rw [hmem, h.mem, hcmt]
    have : ∀ c, c ≤ s.prog.committed → replay mmioAddr m (perf n s) c = replay mmioAddr m (perf n s') c := by
      intro c
      induction c with
      | zero => intro _; rfl
      | succ c ih => intro hc; simp only [replay]; rw [ih (by omega), hperf c (by omega)]
    exact this _ (Nat.le_refl _)
  · intro i j hi hij hj
    rw [hret] at hi
    rw [hcmt] at hj
    rw [hent i (by omega), hent j (by omega), if_neg (by omega), if_neg (by omega)]
    exact h.iss i j hi hij hj
  · intro i
    have hi := h.load i
    apply hi.frame (by rw [hld]) (by rw [hloads]) (by rw [hsamp]) (by rw [hbad])
    · intro hne; rw [hcmt, hlen]; exact hi.older hne
    · rw [hret]; exact Nat.le_refl _
    · intro hne j hj1 hj2 hpv
      have := (hi.older hne).2
      rw [hent j (by omega)]
      split
      · next he => subst he; exact hstab hpv
      · exact ⟨hpv, rfl, rfl⟩
    · intro hne j hj o
      rw [hslot j]
      split
      · next he => subst he; exact hmono o
      · exact id

end Verif.Lsu

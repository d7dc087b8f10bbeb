import Verif.Spec.LatLookup
namespace Verif.LatLookupProofs
open Verif.LatLookup Verif.LatLookupSpec
open Verif.Table (Timing chooseLatency)

variable {c : Cfg}

theorem run_snoc (is : List In) (i : In) : run c (is ++ [i]) = step c (run c is) i := by
  simp [run, List.foldl_append]

/-- Induction along a run. -/
theorem run_ind (P : List In → St → Prop) (h0 : P [] {}) (hs : ∀ is i, P is (run c is) → P (is ++ [i]) (step c (run c is) i)) :
    ∀ is, P is (run c is) := by
  have key : ∀ post pre, P pre (run c pre) → P (pre ++ post) (run c (pre ++ post)) := by
    intro post
    induction post with
    | nil => intro pre h; simpa using h
    | cons i post ih =>
      intro pre h
      have h2 := hs pre i h
      rw [← run_snoc] at h2
      have := ih (pre ++ [i]) h2
      simpa using this
  intro is
  exact key is [] h0

theorem sramSeq_st {α : Type} (tm : Timing) (t : Tab α) (rd : Option Nat) (w : Option (Wr α)) : (t.sramSeq tm rd w).st = put t.st w := by
  unfold Tab.sramSeq
  split <;> try rfl
  split <;> rfl

theorem seq_st {α : Type} (t : Tab α) (rd : Option Nat) (w : Option (Wr α)) : (seq c t rd w).st = put t.st w := by
  unfold seq
  split
  · rfl
  · exact sramSeq_st _ _ _ _

/-! ### Contents -/

def Holds (h : List In) (s : St) : Prop :=
  ∀ set way, match held h set way with
    | some (t, l) => s.valid.st set way = true ∧ s.tag.st set way = t ∧ s.data.st set way = l
    | none => s.valid.st set way = false

theorem regs_tabs (s : St) (i : In) : (regs c s i).data = s.data ∧ (regs c s i).tag = s.tag ∧ (regs c s i).valid = s.valid := by
  unfold regs
  split
  · exact ⟨rfl, rfl, rfl⟩
  · split <;> exact ⟨rfl, rfl, rfl⟩

theorem put_wr {α : Type} (st : Nat → Nat → α) (i : In) (f : Fill → α) (set way : Nat) :
    put st (wr i f) set way = match i.fill with
      | some x => if x.index = set ∧ x.way = way then f x else st set way
      | none => st set way := by
  unfold wr
  cases h : i.fill with
  | none => rfl
  | some x =>
    simp only [Option.map_some, put, beq_iff_eq]
    by_cases h1 : x.index = set <;> by_cases h2 : x.way = way <;> simp [h1, h2, eq_comm] <;> (try (intro h; simp_all)) 

theorem tables_holds (h : List In) (s : St) (i : In)
    (hh : ∀ set way, i.inval = false → match (if i.reset then none else held h set way) with
      | some (t, l) => s.valid.st set way = true ∧ s.tag.st set way = t ∧ s.data.st set way = l
      | none => s.valid.st set way = false) :
    Holds (i :: h) (tables c s i) := by
  intro set way
  have hv : (tables c s i).valid.st set way = match i.fill with
      | some x => if x.index = set ∧ x.way = way then x.valid else (if i.inval then false else s.valid.st set way)
      | none => if i.inval then false else s.valid.st set way := by
    show (seq c (if i.inval then Tab.reset false else s.valid) (seqReq s) (wr i Fill.valid)).st set way = _
    rw [seq_st, put_wr]
    cases i.inval <;> rfl
  have ht : (tables c s i).tag.st set way = match i.fill with
      | some x => if x.index = set ∧ x.way = way then x.tag else s.tag.st set way
      | none => s.tag.st set way := by
    show (seq c s.tag (seqReq s) (wr i Fill.tag)).st set way = _
    rw [seq_st, put_wr]
  have hd : (tables c s i).data.st set way = match i.fill with
      | some x => if x.index = set ∧ x.way = way then x.line else s.data.st set way
      | none => s.data.st set way := by
    show (seq c s.data (seqReq s) (wr i Fill.line)).st set way = _
    rw [seq_st, put_wr]
  rw [hv, ht, hd]
  have h2 := hh set way
  unfold held
  cases hf : i.fill with
  | none =>
    simp only
    cases hr : i.reset <;> cases hi : i.inval <;> simp [hr, hi] at h2 ⊢ <;> exact h2
  | some x =>
    simp only
    by_cases hm : x.index = set ∧ x.way = way
    · simp only [hm, and_self, if_true]
      cases hxv : x.valid <;> simp
    · simp only [hm, if_false]
      cases hr : i.reset <;> cases hi : i.inval <;> simp [hr, hi] at h2 ⊢ <;> exact h2

theorem holds_run (is : List In) : Holds is.reverse (run c is) := by
  refine run_ind (fun is s => Holds is.reverse s) ?_ ?_ is
  · intro set way; rfl
  · intro is i ih
    rw [List.reverse_append]
    show Holds (i :: is.reverse) _
    unfold step
    cases hr : i.reset with
    | true =>
      rw [if_pos rfl]
      refine tables_holds _ _ _ ?_
      intro set way _
      simp only [hr, if_true]
      rfl
    | false =>
      rw [if_neg (by simp)]
      refine tables_holds _ _ _ ?_
      intro set way _
      obtain ⟨h1, h2, h3⟩ := regs_tabs (c := c) (run c is) i
      have := ih set way
      rw [h1, h2, h3]
      simpa [hr] using this

/-! ### Latency 0 -/

structure Inv0 (c : Cfg) (s : St) : Prop where
  look : s.lookPend = false
  idx : s.reqValid = true → s.reqIdx = c.idx s.reqPc

theorem inv0 (h0 : c.lat = 0) (is : List In) : Inv0 c (run c is) := by
  refine run_ind (fun _ s => Inv0 c s) ⟨rfl, fun h => by cases h⟩ ?_ is
  intro is i ih
  have key : ∀ s : St, Inv0 c s → Inv0 c (tables c s i) := fun s h => ⟨h.look, h.idx⟩
  unfold step
  split
  · exact key _ ⟨rfl, fun h => by cases h⟩
  · refine key _ ?_
    unfold regs
    split
    · exact ⟨rfl, fun h => by cases h⟩
    · split
      · exact ⟨rfl, fun h => by cases h⟩
      · refine ⟨by simp [h0], ?_⟩
        dsimp only
        rw [ih.look]
        by_cases hl : load c (run c is) i = true
        · simp [hl]
        · simp only [hl]
          simp only [Bool.false_eq_true, if_false]
          split
          · intro h; cases h
          · exact ih.idx

theorem find_found (ways : Nat) (h : List In) (s : St) (hh : Holds h s) (set : Nat) (ppn : BitVec 20) :
    (((List.range ways).find? fun w => s.valid.st set w && s.tag.st set w == ppn).map fun w => s.data.st set w) = found ways h set ppn := by
  unfold found
  induction List.range ways with
  | nil => rfl
  | cons w l ih =>
    have hw := hh set w
    rw [List.find?_cons, List.findSome?_cons]
    revert hw
    cases hd : held h set w with
    | none =>
      intro hw
      simp only at hw
      simp only [hw, Bool.false_and]
      exact ih
    | some p =>
      obtain ⟨t, l'⟩ := p
      intro hw
      simp only at hw
      obtain ⟨h1, h2, h3⟩ := hw
      simp only [h1, h2, Bool.true_and]
      by_cases ht : t = ppn
      · subst ht; simp [h3]
      · have : (t == ppn) = false := by simpa using ht
        simp only [this, ht, if_false]
        exact ih

theorem hit0 (h0 : c.lat = 0) (is : List In) (i : In) (pc : Nat) (ha : answerable i) (hq : asked (run c is) i = some pc) :
    hitLine c (run c is) i = found c.ways is.reverse (c.idx pc) i.ppn := by
  obtain ⟨hr, hf, hi, hp, hg⟩ := ha
  have inv := inv0 h0 is
  have hh := holds_run (c := c) is
  generalize run c is = s at *
  have hcmp : (fast c s i || slot s i) = true := by
    unfold asked at hq
    cases hv : s.reqValid
    · simp only [hv, Bool.false_eq_true, if_false] at hq
      cases hw : i.want
      · simp [hw] at hq
      · simp [fast, h0, hv, hw, hp]
    · simp [slot, hv, hp]
  have hpc : lookupPc s i = pc := by
    unfold asked at hq
    unfold lookupPc
    cases hv : s.reqValid
    · simp only [hv, Bool.false_eq_true, if_false, inv.look] at hq ⊢
      cases hw : i.want
      · simp [hw] at hq
      · simpa [hw] using hq
    · simpa [hv] using hq
  have hen : readReq c s i = some (c.idx pc) := by
    unfold readReq
    rw [hpc, hr, hf]
    have : (i.want || s.reqValid || s.lookPend) = true := by
      unfold asked at hq
      cases hv : s.reqValid <;> cases hw : i.want <;> simp [hv, hw] at hq ⊢
    simp [h0, this]
  have hdi : dataIdx c s i = c.idx pc := by
    unfold dataIdx
    cases hv : s.reqValid with
    | false =>
      have hfast : fast c s i = true := by simpa [slot, hv] using hcmp
      rw [hfast]
      unfold lookupPc at hpc
      simp [hv, inv.look] at hpc
      simp [hpc]
    | true =>
      have hfast : fast c s i = false := by simp [fast, hv]
      rw [hfast]
      unfold lookupPc at hpc
      simp [hv] at hpc
      simp [inv.idx hv, hpc]
  rw [← find_found c.ways is.reverse s hh (c.idx pc) i.ppn]
  have hway : hitWay c s i = (List.range c.ways).find? fun w => s.valid.st (c.idx pc) w && s.tag.st (c.idx pc) w == i.ppn := by
    unfold hitWay metaResp comb
    simp only [hr, hf, hi, hg, hcmp, h0, hen]
    simp [Tab.regComb, findWay]
  unfold hitLine
  rw [hway]
  cases hfw : (List.range c.ways).find? fun w => s.valid.st (c.idx pc) w && s.tag.st (c.idx pc) w == i.ppn with
  | none => rfl
  | some w =>
    have hlt : w < c.ways := by
      have := List.mem_of_find?_eq_some hfw
      simpa using this
    simp [comb, h0, hen, Tab.regComb, hpc, hdi, hlt]

/-! ### A latency -/

/-- With a latency, whenever a request is in the slot no lookup is waiting and the tag table has nothing to answer. -/
structure InvL (s : St) : Prop where
  look : s.reqValid = true → s.lookPend = false
  tag : s.reqValid = true → s.tag.pend = false

theorem sram_idle {α : Type} (tm : Timing) (t : Tab α) (w : Option (Wr α)) (h : t.pend = false ∨ (t.pend = true ∧ t.delay = 0)) :
    (t.sramSeq tm none w).pend = false := by
  unfold Tab.sramSeq
  rcases h with h | ⟨h, hd⟩
  · simp [h]
  · simp [h, hd]

theorem meta_tag (h0 : c.lat ≠ 0) (s : St) (i : In) (h : (metaResp c s i).isSome = true) : s.tag.pend = true ∧ s.tag.delay = 0 := by
  unfold metaResp comb at h
  simp only [h0, if_false] at h
  unfold Tab.sramComb at h
  by_cases hp : s.tag.pend = true ∧ s.tag.delay = 0
  · exact hp
  · simp [hp] at h

theorem invL (h0 : c.lat ≠ 0) (is : List In) : InvL (run c is) := by
  refine run_ind (fun _ s => InvL s) ⟨fun h => (by cases h), fun h => (by cases h)⟩ ?_ is
  intro is i ih
  generalize run c is = s at *
  unfold step
  split
  · exact ⟨fun h => (by cases h), fun h => (by cases h)⟩
  · have hseq : ∀ r : St, r.lookPend = false → r.tag = s.tag → (s.tag.pend = false ∨ (s.tag.pend = true ∧ s.tag.delay = 0)) →
        (tables c r i).tag.pend = false := by
      intro r h1 h2 h3
      show (seq c r.tag (seqReq r) _).pend = false
      unfold seq seqReq
      simp only [h0, if_false, h1, h2, Bool.false_eq_true]
      exact sram_idle _ _ _ h3
    have hreq : ∀ r : St, (tables c r i).reqValid = r.reqValid ∧ (tables c r i).lookPend = r.lookPend := fun r => ⟨rfl, rfl⟩
    by_cases hrf : i.refetch = true
    · have : (regs c s i).reqValid = false := by simp [regs, hrf]
      exact ⟨fun h => (by rw [(hreq _).1, this] at h; cases h), fun h => (by rw [(hreq _).1, this] at h; cases h)⟩
    by_cases hbp : bypass c s i = true
    · have : (regs c s i).reqValid = false := by simp [regs, hrf, hbp]
      exact ⟨fun h => (by rw [(hreq _).1, this] at h; cases h), fun h => (by rw [(hreq _).1, this] at h; cases h)⟩
    have hrv : (regs c s i).reqValid = (if load c s i then true else if ready c s i then false else s.reqValid) := by
      unfold regs; rw [if_neg hrf, if_neg hbp]
    have hlp : (regs c s i).lookPend = ((canAccept c s i || s.lookPend) && !load c s i) := by
      unfold regs; rw [if_neg hrf, if_neg hbp]; simp [h0]
    have hcond : (regs c s i).reqValid = true → (regs c s i).lookPend = false ∧ (s.tag.pend = false ∨ (s.tag.pend = true ∧ s.tag.delay = 0)) := by
      rw [hrv, hlp]
      by_cases hl : load c s i = true
      · intro _
        refine ⟨by simp [hl], Or.inr ?_⟩
        unfold load at hl
        simp only [h0, if_false, Bool.and_eq_true] at hl
        exact meta_tag h0 s i hl.2
      · have hl' : load c s i = false := by simpa using hl
        simp only [hl', Bool.false_eq_true, if_false]
        split
        · intro h; cases h
        · intro h
          have : canAccept c s i = false := by simp [canAccept, slotIdle, h]
          exact ⟨by simp [this, ih.look h], Or.inl (ih.tag h)⟩
    refine ⟨fun h => ?_, fun h => ?_⟩
    · exact (hcond h).1
    · exact hseq _ (hcond h).1 (regs_tabs (c := c) s i).2.1 (hcond h).2

theorem never (h0 : c.lat ≠ 0) (is : List In) (i : In) : hitLine c (run c is) i = none := by
  have inv := invL h0 is
  generalize run c is = s at *
  unfold hitLine hitWay
  split
  · rename_i h
    have hs : s.reqValid = true := by
      simp only [Bool.and_eq_true, Bool.or_eq_true, fast, slot, decide_eq_true_eq] at h
      rcases h.1.2 with h | h
      · exact absurd h.1.1.1 h0
      · exact h.1
    have hm : metaResp c s i = none := by
      cases hm : metaResp c s i with
      | none => rfl
      | some tv =>
        have := (meta_tag h0 s i (by rw [hm]; rfl)).1
        rw [inv.tag hs] at this
        cases this
    rw [hm]; rfl
  · rfl

/-! ### The set of the request -/

theorem idx_held (is : List In) (hheld : ∀ pre i post, is = pre ++ i :: post → (run c pre).lookPend = true → i.pc = (run c pre).lookPc) :
    (run c is).reqValid = true → (run c is).reqIdx = c.idx (run c is).reqPc := by
  refine run_ind (c := c)
    (fun is s => (∀ pre i post, is = pre ++ i :: post → (run c pre).lookPend = true → i.pc = (run c pre).lookPc) →
      (s.reqValid = true → s.reqIdx = c.idx s.reqPc)) (fun _ h => by cases h) ?_ is hheld
  intro is i ih hh
  have hi := ih (fun pre j post h => hh pre j (post ++ [i]) (by rw [h]; simp))
  have hp := hh is i [] rfl
  unfold step
  split
  · intro h; cases h
  · show (regs c (run c is) i).reqValid = true → (regs c (run c is) i).reqIdx = c.idx (regs c (run c is) i).reqPc
    unfold regs
    split
    · intro h; cases h
    · split
      · intro h; cases h
      · dsimp only
        by_cases hl : load c (run c is) i = true
        · simp only [hl, if_true]
          intro _
          by_cases hk : (run c is).lookPend = true
          · simp only [hk, if_true, hp hk]
          · simp [hk]
        · simp only [hl]
          simp only [Bool.false_eq_true, if_false]
          split
          · intro h; cases h
          · exact hi

theorem stays (s : St) (i : In) (hv : s.reqValid = true) (hr : i.reset = false) (hf : i.refetch = false)
    (hi : i.idle = true → hitLine c s i = none ∧ (i.ppnValid = true → i.pageFault = false)) (hn : i.idle = false → i.ready = false) :
    (step c s i).reqValid = true ∧ (step c s i).reqPc = s.reqPc := by
  have hfast : fast c s i = false := by simp [fast, hv]
  have hb : bypass c s i = false := by simp [bypass, hfast]
  have hca : canAccept c s i = false := by simp [canAccept, slotIdle, hv]
  have hl : load c s i = false := by
    unfold load
    split
    · exact hca
    · simp [hca, slotIdle, hv]
  have hy : ready c s i = false := by
    unfold ready
    cases hd : i.idle
    · simp [hn hd]
    · obtain ⟨h1, h2⟩ := hi hd
      simp only [hf, hfast, hv, h1]
      cases hp : i.ppnValid
      · simp
      · simp [h2 hp]
  have e : step c s i = tables c (regs c s i) i := by unfold step; rw [hr]; rfl
  rw [e]
  show (regs c s i).reqValid = true ∧ (regs c s i).reqPc = s.reqPc
  unfold regs
  rw [hf, hb]
  simp [hl, hy, hv]

theorem waits (h0 : c.lat ≠ 0) (s : St) (i : In) (hv : s.lookPend = true) (hr : i.reset = false) (hf : i.refetch = false) :
    ((step c s i).lookPend = true ∧ (step c s i).lookPc = s.lookPc) ∨
    ((step c s i).lookPend = false ∧ (step c s i).reqValid = true ∧ (step c s i).reqPc = s.lookPc) := by
  have hfast : fast c s i = false := by simp [fast, h0]
  have hb : bypass c s i = false := by simp [bypass, hfast]
  have hca : canAccept c s i = false := by simp [canAccept, hv]
  have e : step c s i = tables c (regs c s i) i := by unfold step; rw [hr]; rfl
  rw [e]
  show ((regs c s i).lookPend = true ∧ (regs c s i).lookPc = s.lookPc) ∨
    ((regs c s i).lookPend = false ∧ (regs c s i).reqValid = true ∧ (regs c s i).reqPc = s.lookPc)
  unfold regs
  rw [hf, hb]
  cases hl : load c s i
  · left; simp [hl, hca, hv, h0]
  · right; simp [hl, hv, h0]

/-- A cycle in which the front end has nothing to ask, as it is driven while the cache is not ready. -/
def quiet : In := {}

/-- The state while the first fetch after power-on waits, with `d` cycles left. -/
def Waiting (pc d : Nat) (s : St) : Prop :=
  s.reqValid = false ∧ s.lookPend = true ∧ s.lookPc = pc ∧ s.tag.pend = true ∧ s.valid.pend = true ∧ s.tag.delay = d ∧ s.valid.delay = d

theorem ready_quiet (s : St) (h : s.reqValid = false) : ready c s quiet = true := by
  simp [ready, quiet, fast, h]

theorem wait_load (h0 : c.lat ≠ 0) (pc d : Nat) : ∀ s, Waiting pc d s →
    ((List.replicate (d + 1) quiet).foldl (step c) s).reqValid = true ∧ ((List.replicate (d + 1) quiet).foldl (step c) s).reqPc = pc ∧
    ((List.replicate (d + 1) quiet).foldl (step c) s).reqIdx = 0 := by
  induction d with
  | zero =>
    intro s ⟨h1, h2, h3, h4, h5, h6, h7⟩
    have hm : (metaResp c s quiet).isSome = true := by
      simp [metaResp, comb, h0, Tab.sramComb, h4, h5, h6, h7]
    have hl : load c s quiet = true := by
      have hsi : slotIdle s quiet = true := by simp [slotIdle, h1, quiet]
      unfold load
      simp [h0, hm, h2, hsi]
    have hb : bypass c s quiet = false := by simp [bypass, fast, quiet]
    have hi : c.idx quiet.pc = 0 := by simp [Cfg.idx, quiet]
    show (step c s quiet).reqValid = true ∧ (step c s quiet).reqPc = pc ∧ (step c s quiet).reqIdx = 0
    have e : step c s quiet = tables c (regs c s quiet) quiet := rfl
    rw [e]
    show (regs c s quiet).reqValid = true ∧ (regs c s quiet).reqPc = pc ∧ (regs c s quiet).reqIdx = 0
    unfold regs
    rw [if_neg (by simp [quiet]), hb]
    simp [hl, h2, h3, hi]
  | succ d ih =>
    intro s hw
    obtain ⟨h1, h2, h3, h4, h5, h6, h7⟩ := hw
    rw [List.replicate_succ, List.foldl_cons]
    refine ih (step c s quiet) ?_
    have hm : metaResp c s quiet = none := by
      simp [metaResp, comb, h0, Tab.sramComb, h4, h6]
    have hca : canAccept c s quiet = false := by simp [canAccept, quiet]
    have hl : load c s quiet = false := by
      unfold load
      simp [h0, hm]
    have hb : bypass c s quiet = false := by simp [bypass, fast, quiet]
    have e : step c s quiet = tables c (regs c s quiet) quiet := rfl
    have hregs : (regs c s quiet).reqValid = false ∧ (regs c s quiet).lookPend = true ∧ (regs c s quiet).lookPc = pc := by
      unfold regs
      rw [if_neg (by simp [quiet]), hb]
      simp [hl, hca, h0, h1, h2, h3]
    obtain ⟨t1, t2, t3⟩ := regs_tabs (c := c) s quiet
    have hseq : ∀ {α : Type} (t : Tab α) (w : Option (Wr α)) (a : Nat), t.pend = true → t.delay = d + 1 →
        (seq c t (some a) w).pend = true ∧ (seq c t (some a) w).delay = d := by
      intro α t w a hp hd
      simp [seq, h0, Tab.sramSeq, hp, hd]
    have hq : seqReq (regs c s quiet) = some (regs c s quiet).lookIdx := by simp [seqReq, hregs.2.1]
    have ht := hseq (regs c s quiet).tag (wr quiet Fill.tag) (regs c s quiet).lookIdx (by rw [t2]; exact h4) (by rw [t2]; exact h6)
    have hv := hseq (regs c s quiet).valid (wr quiet Fill.valid) (regs c s quiet).lookIdx (by rw [t3]; exact h5) (by rw [t3]; exact h7)
    rw [← hq] at ht hv
    exact ⟨hregs.1, hregs.2.1, hregs.2.2, ht.1, hv.1, ht.2, hv.2⟩

/-- The cycle in which the first fetch comes. -/
def ask (pc : Nat) : In := { want := true, pc := pc }

theorem ask_waiting (h0 : c.lat ≠ 0) (pc : Nat) : Waiting pc ((chooseLatency c.timing 1#32).1 - 1) (step c {} (ask pc)) := by
  have hm : metaResp c {} (ask pc) = none := by simp [metaResp, comb, h0, Tab.sramComb, Tab.reset]
  have hb : bypass c {} (ask pc) = false := by simp [bypass, fast, ask]
  have hc : canAccept c {} (ask pc) = true := by simp [canAccept, ready, slotIdle, fast, ask]
  have hl : load c {} (ask pc) = false := by simp [load, h0, hm]
  have hy : ready c {} (ask pc) = true := by simp [ready, fast, ask]
  have hp : (ask pc).pc = pc := rfl
  have hr : regs c {} (ask pc) = { lookPend := true, lookPc := pc, lookIdx := c.idx pc } := by
    unfold regs
    rw [if_neg (by simp [ask]), hb]
    simp [hl, hc, h0, hy, hp]
  have e : step c {} (ask pc) = tables c (regs c {} (ask pc)) (ask pc) := rfl
  rw [e, hr]
  simp [Waiting, tables, seqReq, seq, h0, Tab.sramSeq, Tab.reset, ask]

theorem first_fetch (h0 : c.lat ≠ 0) (pc : Nat) :
    (run c (ask pc :: List.replicate ((chooseLatency c.timing 1#32).1 - 1 + 1) quiet)).reqValid = true ∧
    (run c (ask pc :: List.replicate ((chooseLatency c.timing 1#32).1 - 1 + 1) quiet)).reqPc = pc ∧
    (run c (ask pc :: List.replicate ((chooseLatency c.timing 1#32).1 - 1 + 1) quiet)).reqIdx = 0 :=
  wait_load h0 pc _ _ (ask_waiting h0 pc)

end Verif.LatLookupProofs

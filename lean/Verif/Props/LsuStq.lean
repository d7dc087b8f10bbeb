import Verif.Proofs.LsuStqStuck

/-
C115: the waiting lists of the load/store unit never lose, duplicate or report too early a store, if dispatch is
no wider than the store address ports.  For a wider dispatch, as in config.h.large, a store can be lost for ever.

The specification is a count of the slots that name a store, and a look at what has arrived for it.
-/
namespace Verif.Props

open Verif.LsuStq Verif.Ring

/-! ### Specification -/

/-- In how many slots of a list of `n` slots is the store? -/
def storeSlots (n : Nat) (q : Verif.LsuList.Q) (x : Nat) : Nat := (List.range n).countP fun p => q.slot p = some x

/-- The store is in the queue: its distance from the head is below the number of stores. -/
def queued (c : Cfg) (s : SS) (x : Nat) : Prop := ∃ i, i < s.count ∧ x = (s.head + i) % c.n

/-- The store has been reported to the reorder buffer. -/
def isReported (s : SS) (x : Nat) : Prop := (s.ent x).st = .waitCommit ∨ (s.ent x).st = .gone

/-- Where a store has to be in each of its stages: slots of the translation list, slots of the report list. -/
def rightSlots : SSt → Option (Nat × Nat)
  | .allocated | .waitData | .waitCommit | .gone => some (0, 0)
  | .waitTlb => some (1, 0)
  | .ready | .pageFault => some (0, 1)
  | .retry | .waitDone => none

/-- Dispatch is no wider than the store ports, the report ports and the window. -/
structure NarrowCfg (c : Cfg) (W : Nat) : Prop where
  pos : 0 < c.n
  small : c.n < 2 ^ 32
  sta : W ≤ c.sta
  ldu : W ≤ c.ldu
  win : W ≤ c.win

theorem NarrowCfg.ok {c : Cfg} {W : Nat} (h : NarrowCfg c W) : CfgOk c W := ⟨h.pos, h.small, h.sta, h.ldu, h.win⟩

/-! ### Counting -/

theorem storeSlots_eq {n : Nat} {q : Verif.LsuList.Q} (h : q.WF n) (l : Nat) [Decidable (q.Mem l)] :
    storeSlots n q l = if q.Mem l then 1 else 0 := by
  unfold storeSlots
  split
  · next hm =>
    obtain ⟨p, hp⟩ := hm
    have hlt : p < n := by
      obtain ⟨d, -, e⟩ := h.inR p l hp
      have := h.head
      exact e ▸ Nat.mod_lt _ (by omega)
    have e : (List.range n).countP (fun i => decide (q.slot i = some l)) = (List.range n).count p := by
      unfold List.count
      refine List.countP_congr fun i _ => ?_
      simp only [decide_eq_true_eq, beq_iff_eq]
      exact ⟨fun hi => h.uniq _ _ _ hi hp, fun e => e ▸ hp⟩
    rw [e]
    exact (List.nodup_range.count).trans (if_pos (List.mem_range.mpr hlt))
  · next hm =>
    rw [List.countP_eq_zero]
    intro p _
    simp only [decide_eq_true_eq]
    exact fun hp => hm ⟨p, hp⟩

theorem queued_iff {c : Cfg} {s : SS} (hh : s.head < c.n) (hc : s.count ≤ c.n) (x : Nat) : queued c s x ↔ s.live c x = true := by
  rw [live_iff]
  constructor
  · rintro ⟨i, hi, rfl⟩
    exact ⟨Nat.mod_lt _ (by omega), by rw [off_at hh (by omega)]; exact hi⟩
  · rintro ⟨h1, h2⟩
    exact ⟨_, h2, (at_off hh h1).symm⟩

theorem isReported_iff (s : SS) (x : Nat) : isReported s x ↔ rep (s.ent x).st = true := by
  unfold isReported
  cases (s.ent x).st <;> decide

/-! ### Theorems -/

/-- **C115**, one place: whatever the order of dispatches, data, addresses, translations, reports, commits, flushes and
mispredictions, a queued store is in exactly the slots its stage calls for: waiting for its translation in one slot
of the first list, translated (or faulting) and not reported in one slot of the second, otherwise in none.  A store that
is not queued is in no slot. -/
theorem C115_one_place {c : Cfg} {W : Nat} (hc : NarrowCfg c W) {y : Sys} (h : Reach c W y) (x : Nat) :
    (queued c y.s x → rightSlots (y.s.ent x).st = some (storeSlots c.n y.s.wm x, storeSlots c.n y.s.md x)) ∧
      (¬ queued c y.s x → storeSlots c.n y.s.wm x = 0 ∧ storeSlots c.n y.s.md x = 0) := by
  have hi := reach_inv hc.ok h
  have hk := hi.core
  classical
  rw [queued_iff hk.hd hk.cl, storeSlots_eq hk.wmW, storeSlots_eq hk.mdW]
  constructor
  · intro hl
    obtain ⟨w1, w2, m1, m2, -, -, -, -, -⟩ := hk.ok x hl
    have h3 := hi.clean x
    cases hz : (y.s.ent x).st <;> simp [hz] at w1 w2 m1 m2 h3 <;> simp [rightSlots, *]
    all_goals exact absurd w2 h3
  · intro hl
    have h1 := hk.wmL x
    have h2 := hk.mdL x
    rw [if_neg (fun h => hl (h1 h)), if_neg (fun h => hl (h2 h))]
    exact ⟨rfl, rfl⟩

/-- **C115**, capacity: the queue and the lists are never asked to hold more than they have slots, entries lie only in
the occupied range, the stores that have still to enter a list fit in it, and the number offered to dispatch is
what it should be (the unsigned difference of the code does not wrap). -/
theorem C115_capacity {c : Cfg} {W : Nat} (hc : NarrowCfg c W) {y : Sys} (h : Reach c W y) :
    y.s.count ≤ c.n ∧ y.s.com ≤ y.s.count ∧
      (∀ q ∈ [y.s.wm, y.s.md], q.count + (List.range c.n).countP (fun x => y.s.live c x && decide ((y.s.ent x).st = .allocated)) ≤ c.n ∧
        ∀ p x, q.slot p = some x → ∃ d, d < q.count ∧ p = (q.head + d) % c.n) ∧
      y.s.free c + y.s.nAlloc c + max y.s.wm.count y.s.md.count ≤ c.n ∧ y.s.free c + y.s.count ≤ c.n := by
  have hi := reach_inv hc.ok h
  have hk := hi.core
  have h1 := mem_loc hk
  have h2 := hk.cA
  have h3 := hk.cl
  have h4 := free_ok hc.small hi
  have h5 := nAlloc_eq (c := c) (s := y.s) hk.hd hk.cl
  have h6 : cnt c y.s isAlloc = (List.range c.n).countP (fun x => y.s.live c x && decide ((y.s.ent x).st = .allocated)) := by
    unfold cnt
    refine countP_congr' (fun x => ?_) _
    congr 1
    cases (y.s.ent x).st <;> rfl
  refine ⟨hk.cl, hk.cm, ?_, ?_, ?_⟩
  · intro q hq
    simp only [List.mem_cons, List.not_mem_nil, or_false] at hq
    rw [← h6]
    rcases hq with rfl | rfl
    · exact ⟨by omega, hk.wmW.inR⟩
    · exact ⟨by omega, hk.mdW.inR⟩
  · omega
  · omega

/-- **C115**, no abort: neither the assertion on the order of commits nor the one on a full queue can fail. -/
theorem C115_no_abort {c : Cfg} {W : Nat} (hc : NarrowCfg c W) {y : Sys} (h : Reach c W y) {x : In} (hv : Valid c W y x) :
    ∃ y', y.cycle c x = some y' := by
  obtain ⟨y', e, -⟩ := cycle_ok hc.ok (reach_inv hc.ok h) hv
  exact ⟨y', e⟩

/-- **C115**, reports: a store is reported only when it is queued, and then either it has been translated and its data is
there, or its page faulted; never twice in a cycle, never again afterwards, and what counts as reported changes in no
other way. -/
theorem C115_reported {c : Cfg} {W : Nat} (hc : NarrowCfg c W) {y y' : Sys} (h : Reach c W y) {x : In} (hv : Valid c W y x)
    (hs : y.cycle c x = some y') :
    y'.out.Nodup ∧
      (∀ j ∈ y'.out, queued c y.s j ∧ ¬ isReported y.s j ∧
        (((y.s.ent j).st = .ready ∧ (y.s.ent j).dv = true) ∨ ((y.s.ent j).st = .pageFault ∧ (y.s.ent j).pf = true))) ∧
      ∀ j, queued c y.s j → (isReported y'.s j ↔ isReported y.s j ∨ j ∈ y'.out) := by
  have ok := reach_cyc hc.ok h hv hs
  have hk := (reach_inv hc.ok h).core
  refine ⟨ok.nodup, fun j hj => ?_, fun j hj => ?_⟩
  · obtain ⟨h1, h2⟩ := ok.outs j hj
    refine ⟨(queued_iff hk.hd hk.cl j).mpr h1, ?_, h2⟩
    rw [isReported_iff]
    rcases h2 with h2 | h2 <;> rw [h2.1] <;> decide
  · rw [isReported_iff, isReported_iff]
    exact ok.repd j ((queued_iff hk.hd hk.cl j).mp hj)

/-- **C115**, life of a store: the address takes it out of the allocated stage and nothing else does; its data is there
from the cycle it came; it leaves the queue only by being carried out after its commit, or squashed: by a flush, which
spares the committed ones, or by a misprediction, which keeps the older ones.  A new store starts afresh behind all others. -/
theorem C115_life {c : Cfg} {W : Nat} (hc : NarrowCfg c W) {y y' : Sys} (h : Reach c W y) {x : In} (hv : Valid c W y x)
    (hs : y.cycle c x = some y') :
    (∀ j, queued c y.s j → ((y'.s.ent j).st = .allocated ↔ (y.s.ent j).st = .allocated ∧ j ∉ x.addr.map (·.1))) ∧
      (∀ j, queued c y.s j → ((y'.s.ent j).dv = true ↔ (y.s.ent j).dv = true ∨ j ∈ x.data)) ∧
      (∀ i, i < y.s.count → (queued c y'.s ((y.s.head + i) % c.n) ↔
        min x.retire (y.s.com + x.commits) ≤ i ∧ (x.flush = true → i < y.s.com + x.commits) ∧ ∀ k, x.keep = some k → i < k)) ∧
      ∀ j, ¬ queued c y.s j → queued c y'.s j →
        (y'.s.ent j).st = .allocated ∧ (y'.s.ent j).dv = false ∧ ∃ i, y.s.count ≤ i ∧ i < y.s.count + x.alloc ∧ j = (y.s.head + i) % c.n := by
  have ok := reach_cyc hc.ok h hv hs
  have hk := (reach_inv hc.ok h).core
  have hk' := ok.inv.core
  have q := queued_iff hk.hd hk.cl
  have q' := queued_iff hk'.hd hk'.cl
  refine ⟨fun j hj => ok.al j ((q j).mp hj), fun j hj => ok.dv j ((q j).mp hj), fun i hi => ?_, fun j h1 h2 => ?_⟩
  · have hl : y.s.live c ((y.s.head + i) % c.n) = true := (q _).mp ⟨i, hi, rfl⟩
    have := ok.stay _ hl
    rw [off_at hk.hd (Nat.lt_of_lt_of_le hi hk.cl)] at this
    rw [q']
    exact this
  · rw [q] at h1
    rw [q'] at h2
    obtain ⟨e, e1, e2⟩ := ok.new j (by simpa using h1) h2
    exact ⟨by rw [e]; rfl, by rw [e]; rfl, _, e1, e2, (at_off hk.hd (live_iff.mp h2).1).symm⟩

/-- **C115**, ports: in a cycle no more store-conditionals are reported than there are load ports, no more other stores
than there are store ports, and no more translations are asked for than there are store ports. -/
theorem C115_ports {c : Cfg} {W : Nat} (hc : NarrowCfg c W) {y y' : Sys} (h : Reach c W y) {x : In} (hv : Valid c W y x)
    (hs : y.cycle c x = some y') :
    (y'.out.filter fun j => (y.s.ent j).sc).length ≤ c.ldu ∧ (y'.out.filter fun j => !(y.s.ent j).sc).length ≤ c.sta ∧
      ∀ s : SS, (tlbOut c s).length ≤ c.sta := by
  have ok := reach_cyc hc.ok h hv hs
  refine ⟨ok.ports.1, ok.ports.2, fun s => ?_⟩
  refine LsuList.foldl_inv (P := fun b : List (Nat × Nat) => b.length ≤ c.sta) ?_ _ [] (Nat.zero_le _)
  intro b i hb
  dsimp only
  repeat' split
  all_goals try simp only [List.length_append, List.length_cons, List.length_nil]
  all_goals omega

/-- **C115**, progress: a store in the report list is reported within as many cycles as the list has slots, unless it is
squashed first. -/
theorem C115_progress {c : Cfg} {W : Nat} (hc : NarrowCfg c W) (hp : 0 < c.sta ∧ 0 < c.ldu ∧ 0 < c.win) (ys : Nat → Sys) (xs : Nat → In)
    (h0 : Reach c W (ys 0)) (hv : ∀ t, Valid c W (ys t) (xs t)) (hs : ∀ t, (ys t).cycle c (xs t) = some (ys (t + 1))) {j : Nat}
    (hj : storeSlots c.n (ys 0).s.md j = 1) : ∃ t, t < c.n ∧ (j ∈ (ys (t + 1)).out ∨ ¬ queued c (ys (t + 1)).s j) := by
  have hr : ∀ t, Reach c W (ys t) := by
    intro t
    induction t with
    | zero => exact h0
    | succ t ih => exact .step _ ih (hv t) (hs t)
  have hi := reach_inv hc.ok h0
  classical
  have hm : (ys 0).s.md.Mem j := by
    rw [storeSlots_eq hi.core.mdW] at hj
    by_cases hm : (ys 0).s.md.Mem j
    · exact hm
    · simp [hm] at hj
  obtain ⟨p, hp'⟩ := hm
  obtain ⟨d, hd, rfl⟩ := hi.core.mdW.inR _ _ hp'
  have hdn : d < c.n := by have := hi.core.mdW.count; omega
  have key : ∀ d t, t + d < c.n → (ys t).s.md.slot (((ys t).s.md.head + d) % c.n) = some j →
      ∃ t', t' < c.n ∧ (j ∈ (ys (t' + 1)).out ∨ ¬ queued c (ys (t' + 1)).s j) := by
    intro d
    induction d using Nat.strongRecOn with
    | ind d ih =>
      intro t ht hsl
      have ok := reach_cyc hc.ok (hr t) (hv t) (hs t)
      by_cases h1 : j ∈ (ys (t + 1)).out
      · exact ⟨t, by omega, .inl h1⟩
      · by_cases h2 : (ys (t + 1)).s.live c j = true
        · obtain ⟨d', h3, h4⟩ := ok.pos hp.1 hp.2.1 hp.2.2 d j hsl h1 h2
          exact ih d' h3 (t + 1) (by omega) h4
        · refine ⟨t, by omega, .inr ?_⟩
          rw [queued_iff ok.inv.core.hd ok.inv.core.cl]
          exact h2
  exact key d 0 (by omega) hp'

/-! ### A run

`config.h` of the tree: 16 entries, 2 ports of each kind, a window of 10, 2 stores dispatched a cycle. -/

def smallStq : Cfg := { n := 16, sta := 2, sdu := 2, ldu := 2, win := 10 }

theorem smallStq_ok : NarrowCfg smallStq 2 := ⟨by decide, by decide, by decide, by decide, by decide⟩

/-- Six stores: 0 has its data first, 1 its address, 2 misses its translation, 3 faults, 4 is a store-conditional, 5 only
has its data; 0 commits. -/
def stqRun : List Verif.LsuStq.Act :=
  [{ alloc := 2 },
   { alloc := 2, data := [0], addr := [(1, false)] },
   { alloc := 2, addr := [(0, false), (2, false)], miss := [2] },
   { data := [1, 5], addr := [(3, false)], miss := [2], fault := [3] },
   { data := [4, 3], addr := [(4, true)], miss := [2], commits := 1 }]

theorem stqRun_ok : (play smallStq 2 Sys.init stqRun).isSome = true := by decide +kernel

def stqEnd : Sys := (play smallStq 2 Sys.init stqRun).get stqRun_ok

theorem stqEnd_reach : Reach smallStq 2 stqEnd := play_reach stqRun .init (Option.some_get stqRun_ok).symm

theorem stqEnd_st : (List.range 7).map (fun x => (stqEnd.s.ent x).st) = [.gone, .waitCommit, .waitTlb, .waitCommit, .ready, .allocated, .gone] := by
  decide +kernel

theorem stqEnd_slots : (List.range 7).map (fun x => (storeSlots 16 stqEnd.s.wm x, storeSlots 16 stqEnd.s.md x)) =
    [(0, 0), (0, 0), (1, 0), (0, 0), (0, 1), (0, 0), (0, 0)] := by
  decide +kernel

theorem stqEnd_out : stqEnd.out = [1, 3] ∧ stqEnd.s.count = 6 ∧ stqEnd.s.com = 1 := by decide +kernel

/-- The hypotheses of the cycle theorems are met at the end of the run: 0 leaves, 1 commits, 5 and later are squashed. -/
example : ∃ x, Valid smallStq 2 stqEnd x ∧ x.commits = 1 ∧ x.retire = 1 ∧ x.keep = some 5 ∧ x.alloc = 2 :=
  ⟨Verif.LsuStq.Act.inp { commits := 1, retire := 1, keep := some 5, alloc := 2 }, Act.valid (by decide +kernel), rfl, rfl, rfl, rfl⟩

/-- Every reachable state can go on for ever, so the hypotheses of `C115_progress` can be met. -/
theorem stqGoOn {c : Cfg} {W : Nat} (hc : NarrowCfg c W) {y : Sys} (h : Reach c W y) :
    ∃ (ys : Nat → Sys) (xs : Nat → In), ys 0 = y ∧ (∀ t, Valid c W (ys t) (xs t)) ∧ (∀ t, (ys t).cycle c (xs t) = some (ys (t + 1))) := by
  have nx : ∀ z : { z : Sys // Reach c W z }, ∃ (x : In) (z' : { z : Sys // Reach c W z }), Valid c W z.1 x ∧ z.1.cycle c x = some z'.1 := by
    intro z
    have hv : Valid c W z.1 (Verif.LsuStq.Act.inp {}) :=
      ⟨fun i hi => absurd hi (Nat.not_lt_zero i), ⟨Nat.zero_le _, Nat.zero_le _⟩, ⟨List.nodup_nil, fun a ha => nomatch ha⟩,
        ⟨List.nodup_nil, fun a ha => nomatch ha⟩, ⟨Nat.zero_le _, Nat.zero_le _⟩, fun k hk => nomatch hk⟩
    obtain ⟨z', hz'⟩ := C115_no_abort hc z.2 hv
    exact ⟨_, ⟨z', .step _ z.2 hv hz'⟩, hv, hz'⟩
  let f : Nat → { z : Sys // Reach c W z } := fun t => Nat.rec ⟨y, h⟩ (fun _ z => (nx z).choose_spec.choose) t
  exact ⟨fun t => (f t).1, fun t => (nx (f t)).choose, rfl, fun t => (nx (f t)).choose_spec.choose_spec.1,
    fun t => (nx (f t)).choose_spec.choose_spec.2⟩

example : ∃ (ys : Nat → Sys) (xs : Nat → In), Reach smallStq 2 (ys 0) ∧ (∀ t, Valid smallStq 2 (ys t) (xs t)) ∧
    (∀ t, (ys t).cycle smallStq (xs t) = some (ys (t + 1))) ∧ storeSlots 16 (ys 0).s.md 4 = 1 := by
  obtain ⟨ys, xs, h1, h2, h3⟩ := stqGoOn smallStq_ok stqEnd_reach
  exact ⟨ys, xs, h1 ▸ stqEnd_reach, h2, h3, h1 ▸ by decide +kernel⟩

/-! ### The width condition is needed

`config.h.large`: 64 entries, 2 store address ports, 2 data ports, 3 load ports, a window of 10, 8 stores dispatched a
cycle.  What is offered to dispatch in a cycle leaves room in the report list only for what is there at the start of the
cycle; if more is dispatched than reported, the promise is exceeded, the unsigned difference wraps, and the
translation list overflows. -/

def largeStq : Cfg := { n := 64, sta := 2, sdu := 2, ldu := 3, win := 10 }

def addrOf (l : List Nat) : List (Nat × Bool) := l.map fun x => (x, false)

def twos : List Nat → List (List Nat)
  | a :: b :: r => [a, b] :: twos r
  | [a] => [[a]]
  | [] => []

/-- The stores that get their address first, and the data later. -/
def lossX : List Nat :=
  (List.range 6).flatMap (fun j => [4 * j, 4 * j + 1]) ++ [24] ++ (List.range 5).flatMap (fun i => [25 + 3 * i, 26 + 3 * i]) ++ [43, 46, 47]

/-- The stores that get their data first and whose translation takes longer. -/
def lossY : List Nat := (List.range 6).flatMap (fun j => [4 * j + 2, 4 * j + 3]) ++ [44, 45, 48, 49]

/-- The queue fills; translations of the stores 2 and 3 are slow and hold up the others of the list. -/
def lossSetup : List Verif.LsuStq.Act :=
  List.replicate 8 { alloc := 8 } ++ (twos lossX).map (fun p => { addr := addrOf p }) ++
  (twos (lossY ++ [27, 30, 33, 36, 39])).map (fun p => { data := p }) ++
  (twos (lossY ++ [40, 27, 30, 33, 36, 39] ++ (List.range 14).map (50 + ·))).map (fun p => { addr := addrOf p, hold := [2, 3] })

/-- Two stores a cycle become ready by their data and two by their translation, two are reported, committed and leave;
then a misprediction squashes all from the 33rd on. -/
def lossBurst : List Verif.LsuStq.Act :=
  (List.range 8).map fun j =>
    { data := [[0, 1], [4, 5], [8, 9], [12, 13], [16, 17], [20, 21], [24, 43], [46, 47]].getD j [],
      commits := if j ≥ 2 then 2 else 0, retire := 2, keep := if j = 7 then some 33 else none }

/-- Dispatch takes what it is offered, while two more stores a cycle become ready by their data; store 40 misses. -/
def lossRefill : List Verif.LsuStq.Act :=
  (List.range 5).map (fun i => { alloc := 8, data := [25 + 3 * i, 26 + 3 * i], miss := [40], commits := 2, retire := 2 }) ++
  [{ alloc := 3, miss := [40], commits := 2, retire := 2 }]

/-- The new stores get their addresses while store 40 still misses. -/
def lossEnd : List Verif.LsuStq.Act :=
  (List.range 22).map (fun i => { addr := addrOf [(41 + 2 * i) % 64, (42 + 2 * i) % 64], miss := [40] }) ++
  [{ addr := addrOf [21], miss := [40] }]

def isLost (c : Cfg) (s : SS) (x : Nat) : Bool :=
  decide (s.head < c.n) && s.live c x && decide (s.com ≤ off c.n s.head x) && decide ((s.ent x).st = .waitTlb) && ((List.range c.n).all fun p => s.wm.slot p != some x && s.md.slot p != some x)

set_option maxRecDepth 100000 in
theorem loss_run : ((play largeStq 8 Sys.init (lossSetup ++ lossBurst ++ lossRefill ++ lossEnd)).any fun y => isLost largeStq y.s 40) = true := by
  decide +kernel

/-- **C115**, the width condition is needed: with the sizes of `config.h.large`, a run that keeps to what the surroundings
guarantee (committed stores are carried out at once, one translation takes long) reaches a state in which a store is
lost: from there, whatever happens short of a flush or a misprediction, the store stays in the queue and is never
reported, so that nothing after it can ever commit. -/
theorem C115_wide_loses : ∃ y, Reach largeStq 8 y ∧ queued largeStq y.s 40 ∧ ¬ isReported y.s 40 ∧
    ∀ (ys : Nat → Sys) (xs : Nat → In), ys 0 = y → (∀ t, Valid largeStq 8 (ys t) (xs t)) →
      (∀ t, (ys t).cycle largeStq (xs t) = some (ys (t + 1))) → (∀ t, (xs t).flush = false ∧ (xs t).keep = none) →
      ∀ t, queued largeStq (ys t).s 40 ∧ ¬ isReported (ys t).s 40 ∧ 40 ∉ (ys (t + 1)).out := by
  have hr := loss_run
  rw [Option.any_eq_true_iff_get] at hr
  obtain ⟨h0, h1⟩ := hr
  refine ⟨_, play_reach _ .init (Option.some_get h0).symm, ?_⟩
  generalize Option.get _ h0 = y at h1 ⊢
  simp only [isLost, Bool.and_eq_true, decide_eq_true_eq, List.all_eq_true, List.mem_range, bne_iff_ne] at h1
  obtain ⟨⟨⟨⟨h1, h2⟩, h5⟩, h3⟩, h4⟩ := h1
  have hl : Lost largeStq y.s 40 := ⟨h1, h2, h5, h3, fun p hp => (h4 p hp).1, fun p hp => (h4 p hp).2⟩
  have hq : ∀ {s : SS}, Lost largeStq s 40 → queued largeStq s 40 ∧ ¬ isReported s 40 := by
    intro s h
    have lv := live_iff.mp h.live
    exact ⟨⟨_, lv.2, (at_off h.hd lv.1).symm⟩, by rw [isReported_iff, h.st]; decide⟩
  refine ⟨(hq hl).1, (hq hl).2, ?_⟩
  intro ys xs e hv hs hf t
  have key : ∀ t, Lost largeStq (ys t).s 40 := by
    intro t
    induction t with
    | zero => rw [e]; exact hl
    | succ t ih => exact (lost_cycle ih (hv t) (hs t)).2 (hf t).1 (hf t).2
  exact ⟨(hq (key t)).1, (hq (key t)).2, (lost_cycle (key t) (hv t) (hs t)).1⟩

end Verif.Props

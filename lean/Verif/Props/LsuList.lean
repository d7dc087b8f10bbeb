import Verif.Proofs.LsuListLive

/-
C114: the waiting lists of the load/store unit never lose, duplicate or mix up a load.

The specification is a count: over all slots of all lists and the uncached unit, a load that has been handed to
the unit and not yet reported or squashed occurs exactly once, any other load not at all.
-/
namespace Verif.Props

open Verif.LsuList Verif.Ring

/-! ### Specification -/

/-- In how many slots of a list of `n` slots is the load? -/
def slotsWith (n : Nat) (q : Q) (l : Nat) : Nat := (List.range n).countP fun p => q.slot p = some l

/-- In how many places of the unit is the load? -/
def placesOf (c : Cfg) (s : LS) (l : Nat) : Nat :=
  slotsWith c.n s.wm l + slotsWith c.n s.sq l + slotsWith c.n s.wd l + slotsWith c.n s.fin l +
    (if s.unc = .load l then 1 else 0)

/-- A load has been handed to the unit and is not finished. -/
def inFlight (s : LS) (l : Nat) : Prop := s.st l ≠ .empty ∧ s.st l ≠ .allocated

instance (s : LS) (l : Nat) : Decidable (inFlight s l) := inferInstanceAs (Decidable (_ ∧ _))

/-- The sizes of the four configurations in the tree are of this kind: at least one entry, indices of at most
31 bits that can name every entry, and a window of at least one entry. -/
structure GoodCfg (c : Cfg) : Prop where
  pos : 0 < c.n
  fits : c.n ≤ 2 ^ c.iw
  w : c.iw ≤ 31
  win : 0 < c.win

theorem GoodCfg.ok {c : Cfg} (h : GoodCfg c) : c.Ok := ⟨h.pos, h.fits, h.w⟩

/-! ### Counting -/

theorem slotsWith_eq {n : Nat} {q : Q} (h : q.WF n) (l : Nat) [Decidable (q.Mem l)] :
    slotsWith n q l = if q.Mem l then 1 else 0 := by
  unfold slotsWith
  split
  · next hm =>
    obtain ⟨p, hp⟩ := hm
    have hlt : p < n := by
      obtain ⟨d, -, e⟩ := h.inR p l hp
      have := h.head
      exact e ▸ Nat.mod_lt _ (by omega)
    have e : (List.range n).countP (fun i => decide (q.slot i = some l)) = (List.range n).count p := by
      unfold List.count
      refine List.countP_congr fun i _ => ?_
      simp only [decide_eq_true_eq, beq_iff_eq]
      exact ⟨fun hi => h.uniq _ _ _ hi hp, fun e => e ▸ hp⟩
    rw [e]
    exact (List.nodup_range.count).trans (if_pos (List.mem_range.mpr hlt))
  · next hm =>
    rw [List.countP_eq_zero]
    intro p _
    simp only [decide_eq_true_eq]
    exact fun hp => hm ⟨p, hp⟩

/-! ### Theorems -/

theorem inFlight_iff (s : LS) (l : Nat) : inFlight s l ↔ flying (s.st l) = true := by
  unfold inFlight
  cases s.st l <;> decide

/-- **C114**, one place: whatever the order of hand-overs, translations, comparisons, answers of the cache and of
the device bus, reports, flushes and mispredictions, a load in flight sits in exactly one slot of exactly one of
the lists (or in the uncached unit), and a load that is not in flight sits nowhere. -/
theorem C114_one_place {c : Cfg} (hc : GoodCfg c) {width : Nat} {y : Sys} (h : Reach c width y) (l : Nat) :
    placesOf c y.s l = if inFlight y.s l then 1 else 0 := by
  have hi := (reach_ok hc.ok h).inv
  classical
  unfold placesOf
  rw [slotsWith_eq hi.wm, slotsWith_eq hi.sq, slotsWith_eq hi.wd, slotsWith_eq hi.fin]
  have h1 := hi.mwm l
  have h2 := hi.msq l
  have h3 := hi.mwd l
  have h4 := hi.mfin l
  have h5 := hi.munc l
  have h6 := hi.cover l
  have h7 := hi.d1 l
  have h8 := hi.d2 l
  have a1 : y.s.sq.Mem l → ¬ y.s.wm.Mem l := fun a b => h7 b a
  simp only [inFlight_iff]
  cases hz : y.s.st l <;>
    simp [hz, okWm, okSq, okWd, okFin, flying] at h1 h2 h3 h4 h5 h6 ⊢ <;> grind

/-- **C114**, right place: the place is one where the state of the load will be looked at.  A load waiting for
its translation is in the first list, one waiting for the comparison with the stores in the second, one that is to
ask or has asked the cache in the third, one waiting for a device in the uncached unit, one whose result is
known in the third or the fourth (and with a page fault in the fourth). -/
theorem C114_right_place {c : Cfg} (hc : GoodCfg c) {width : Nat} {y : Sys} (h : Reach c width y) (l : Nat) :
    match y.s.st l with
    | .empty | .allocated => placesOf c y.s l = 0
    | .waitTlb | .waitTlbRetry | .waitStlf => slotsWith c.n y.s.wm l = 1
    | .checkStlf | .waitDcache => slotsWith c.n y.s.sq l = 1
    | .readyToIssue | .waitDcacheResp => slotsWith c.n y.s.wd l = 1
    | .waitMmioResp => y.s.unc = .load l
    | .readyToWb => slotsWith c.n y.s.wd l + slotsWith c.n y.s.fin l = 1
    | .waitFinish => slotsWith c.n y.s.wm l + slotsWith c.n y.s.sq l = 1
    | .pageFault => slotsWith c.n y.s.fin l = 1 := by
  have hp := C114_one_place hc h l
  have hi := (reach_ok hc.ok h).inv
  classical
  unfold placesOf at *
  rw [slotsWith_eq hi.wm, slotsWith_eq hi.sq, slotsWith_eq hi.wd, slotsWith_eq hi.fin] at *
  have h1 := hi.mwm l
  have h2 := hi.msq l
  have h3 := hi.mwd l
  have h4 := hi.mfin l
  have h5 := hi.munc l
  have h6 := hi.cover l
  simp only [inFlight_iff] at hp
  cases hz : y.s.st l <;>
    simp [hz, okWm, okSq, okWd, okFin, flying] at h1 h2 h3 h4 h5 h6 hp ⊢ <;> grind

/-- **C114**, capacity: no list is ever asked to hold more than it has slots, entries lie only in the occupied
range, and what is promised to dispatch (loads allocated but not handed over) still fits in the first list. -/
theorem C114_capacity {c : Cfg} (hc : GoodCfg c) {width : Nat} {y : Sys} (h : Reach c width y) :
    y.s.wm.count ≤ c.n ∧ y.s.sq.count ≤ c.n ∧ y.s.wd.count ≤ c.n ∧ y.s.fin.count ≤ c.n ∧
      (∀ q ∈ [y.s.wm, y.s.sq, y.s.wd, y.s.fin], ∀ p l, q.slot p = some l → ∃ d, d < q.count ∧ p = (q.head + d) % c.n) ∧
      ((List.range c.n).countP fun l => y.s.st l = .allocated) + y.s.wm.count ≤ c.n := by
  obtain ⟨hi, -, hcr⟩ := reach_ok hc.ok h
  refine ⟨hi.wm.count, hi.sq.count, hi.wd.count, hi.fin.count, ?_, hcr⟩
  intro q hq
  simp only [List.mem_cons, List.not_mem_nil, or_false] at hq
  rcases hq with rfl | rfl | rfl | rfl
  · exact hi.wm.inR
  · exact hi.sq.inR
  · exact hi.wd.inR
  · exact hi.fin.inR

/-- **C114**, no abort: none of the assertions of the load side (identifier out of range, answer of another
generation, re-queueing into a full list, dispatch into a used entry) can fail in a reachable state. -/
theorem C114_no_abort {c : Cfg} (hc : GoodCfg c) {width : Nat} {y : Sys} (h : Reach c width y) {x : In}
    (hv : Valid c width y x) : ∃ y', y.cycle c x = some y' := by
  obtain ⟨y', h', -⟩ := cycle_ok hc.ok (reach_ok hc.ok h) hv
  exact ⟨y', h'⟩

/-- **C114**, identifiers: the requests put to the cache in a cycle have pairwise different 31-bit
identifiers, are for pairwise different loads, and are for exactly the loads that wait for the cache. -/
theorem C114_ids {c : Cfg} (hc : GoodCfg c) {width : Nat} {y : Sys} (h : Reach c width y) :
    (y.pend.map (·.1)).Nodup ∧ (y.pend.map (·.2)).Nodup ∧ (∀ r ∈ y.pend, r.1 < 2 ^ 31) ∧
      ∀ l, l ∈ y.pend.map (·.2) ↔ y.s.st l = .waitDcacheResp := by
  obtain ⟨hi, hp, -⟩ := reach_ok hc.ok h
  refine ⟨?_, hp.nodup, fun r hr => (hp.ent r hr).1, fun l => ⟨fun hl => ?_, fun hl => ?_⟩⟩
  · exact pend_ids_nodup hp
  · obtain ⟨r, hr, rfl⟩ := List.mem_map.mp hl
    exact (hp.ent r hr).2.2.2
  · obtain ⟨id, hid⟩ := hp.all l hl
    exact List.mem_map.mpr ⟨_, hid, rfl⟩

/-- **C114**, answers: the answers of the cache reach the loads that asked, whatever their order: a hit finishes
the load whose request carried the identifier, a replay sends it back, and no other load is touched. -/
theorem C114_answers {c : Cfg} (hc : GoodCfg c) {width : Nat} {y : Sys} (h : Reach c width y) {x : In}
    (hv : Valid c width y x) : ∃ s', answers c (mmioIn c y.s x.mmio) x.resp = some s' ∧
      (∀ r ∈ x.resp, ∀ l, (r.id, l) ∈ y.pend → s'.st l = if r.hit then .readyToWb else .readyToIssue) ∧
      ∀ l, l ∉ y.pend.map (·.2) → s'.st l = (mmioIn c y.s x.mmio).st l := by
  obtain ⟨hi, hp, -⟩ := reach_ok hc.ok h
  obtain ⟨m1, m2⟩ := mmio_pend hi hp x.mmio
  exact answers_st x.resp m1 m2 hv.resp

/-- **C114**, life of a load: over a cycle, with the load not squashed in it, an empty entry is allocated exactly when
dispatch takes it; an allocated one is in flight exactly when it is handed over; one in flight stays so until the
cycle in which it is reported, which empties it.  Only loads in flight are reported, none twice in a cycle;
a squashed load is gone. -/
theorem C114_life {c : Cfg} (hc : GoodCfg c) {width : Nat} {y y' : Sys} (h : Reach c width y) {x : In}
    (hv : Valid c width y x) (hs : y.cycle c x = some y') :
    (∀ l, squashed c x l → y'.s.st l = .empty) ∧
      (∀ l, ¬ squashed c x l → y.s.st l = .empty → y'.s.st l = if l ∈ x.alloc then .allocated else .empty) ∧
      (∀ l, ¬ squashed c x l → y.s.st l = .allocated → if l ∈ x.reqs then inFlight y'.s l else y'.s.st l = .allocated) ∧
      (∀ l, ¬ squashed c x l → inFlight y.s l → if l ∈ y'.wb then y'.s.st l = .empty else inFlight y'.s l) ∧
      (∀ l ∈ y'.wb, inFlight y.s l) ∧ y'.wb.Nodup := by
  obtain ⟨y1, h1, -, hl⟩ := cycle_ok hc.ok (reach_ok hc.ok h) hv
  rw [hs] at h1
  cases h1
  have fl : ∀ z : LSt, flying z = true ↔ z ≠ .empty ∧ z ≠ .allocated := by intro z; cases z <;> decide
  refine ⟨hl.sq, hl.e, ?_, ?_, ?_, hl.nodup⟩
  · intro l h1 h2
    have := hl.a l h1 h2
    simp only [fl] at this
    exact this
  · intro l h1 h2
    have := hl.f l h1 ((fl _).mpr h2)
    simp only [fl] at this
    exact this
  · intro l h1
    exact (fl _).mp (hl.wb l h1)

/-- **C114**, ports: in a cycle the unit sends at most as many requests to the cache, asks for at most as many
translations, and reports at most as many loads together with the store-conditionals, as it has load ports; the
caller may index its port arrays with these counts. -/
theorem C114_ports {c : Cfg} {y y' : Sys} {x : In} (h : y.cycle c x = some y') :
    y'.pend.length ≤ c.ldu ∧ (x.scPorts ≤ c.ldu → y'.wb.length + x.scPorts ≤ c.ldu) ∧ ∀ s : LS, (tlbOut c s).length ≤ c.ldu := by
  have hi : ∀ s : LS, (issue c s).2.length ≤ c.ldu := by
    intro s
    refine foldl_inv (f := issueOne c) (P := fun b => b.2.length ≤ c.ldu) ?_ _ (s, []) (Nat.zero_le _)
    rintro ⟨s, out⟩ i hb
    unfold issueOne
    dsimp only at hb ⊢
    repeat' split
    all_goals try simp only [List.length_append, List.length_cons, List.length_nil]
    all_goals omega
  have ht : ∀ s : LS, (tlbOut c s).length ≤ c.ldu := by
    intro s
    refine foldl_inv (P := fun b : List (Nat × Nat) => b.length ≤ c.ldu) ?_ _ [] (Nat.zero_le _)
    intro b i hb
    dsimp only
    repeat' split
    all_goals try simp only [List.length_append, List.length_cons, List.length_nil]
    all_goals omega
  have hr : ∀ (s : LS) u, u ≤ c.ldu → (report c s u).2.length + u ≤ c.ldu := by
    intro s u hu
    have := foldl_inv (f := reportOne c) (P := fun b => b.2.1.length + u = b.2.2 ∧ b.2.2 ≤ c.ldu) (by
      rintro ⟨s, wb, used⟩ i hb
      unfold reportOne
      dsimp only at hb ⊢
      repeat' split
      all_goals try simp only [List.length_append, List.length_cons, List.length_nil]
      all_goals omega) (List.range (min s.fin.count c.win)) (s, [], u) ⟨by simp, hu⟩
    show (List.foldl (reportOne c) (s, [], u) (List.range (min s.fin.count c.win))).2.1.length + u ≤ c.ldu
    omega
  unfold Sys.cycle at h
  rw [Option.map_eq_some_iff] at h
  obtain ⟨⟨s4, wb⟩, hf, rfl⟩ := h
  refine ⟨hi _, fun hu => ?_, ht⟩
  unfold front at hf
  split at hf
  · simp at hf
  · next s1 _ =>
    dsimp only at hf
    split at hf
    · simp at hf
    · rw [Option.map_eq_some_iff] at hf
      obtain ⟨s5, -, e⟩ := hf
      simp only [Prod.mk.injEq] at e
      rw [← e.2]
      exact hr _ _ hu

/-- **C114**, progress: a load in the report list is reported within as many cycles as the list has slots, unless it
is squashed first, if in these cycles store-conditionals leave at least one report port free. -/
theorem C114_reported {c : Cfg} (hc : GoodCfg c) {width : Nat} (ys : Nat → Sys) (xs : Nat → In) (h0 : Reach c width (ys 0))
    (hv : ∀ t, Valid c width (ys t) (xs t)) (hs : ∀ t, (ys t).cycle c (xs t) = some (ys (t + 1)))
    (hp : ∀ t, t < c.n → (xs t).scPorts < c.ldu) {l : Nat} (hl : slotsWith c.n (ys 0).s.fin l = 1) :
    ∃ t, t < c.n ∧ (l ∈ (ys (t + 1)).wb ∨ squashed c (xs t) l) := by
  have hr : ∀ t, Reach c width (ys t) := by
    intro t
    induction t with
    | zero => exact h0
    | succ t ih => exact .step _ ih (hv t) (hs t)
  have hi := (reach_ok hc.ok h0).inv
  classical
  have hm : (ys 0).s.fin.Mem l := by
    rw [slotsWith_eq hi.fin] at hl
    by_cases hm : (ys 0).s.fin.Mem l
    · exact hm
    · simp [hm] at hl
  obtain ⟨p, hp'⟩ := hm
  obtain ⟨d, hd, rfl⟩ := hi.fin.inR _ _ hp'
  have hdn : d < c.n := by have := hi.fin.count; omega
  have key : ∀ d t, t + d < c.n → (ys t).s.fin.slot (((ys t).s.fin.head + d) % c.n) = some l →
      ∃ t', t' < c.n ∧ (l ∈ (ys (t' + 1)).wb ∨ squashed c (xs t') l) := by
    intro d
    induction d using Nat.strongRecOn with
    | ind d ih =>
      intro t ht hsl
      rcases cycle_live hc.ok hc.win (reach_ok hc.ok (hr t)) (hv t) (hs t) (hp t (by omega)) hsl (by omega) with h | h | ⟨d', h1, h2⟩
      · exact ⟨t, by omega, .inl h⟩
      · exact ⟨t, by omega, .inr h⟩
      · exact ih d' h1 (t + 1) (by omega) h2
  exact key d 0 (by omega) hp'

/-! ### A run

`config.h` of the tree: 16 entries, 2 ports, a window of 10, 2 loads dispatched a cycle. -/

def smallCfg : Cfg := { n := 16, iw := 4, ldu := 2, win := 10 }

example : GoodCfg smallCfg := ⟨by decide, by decide, by decide, by decide⟩

/-- A cycle given by tables. -/
structure Act where
  alloc : Nat := 0
  reqs : List Nat := []
  resp : List Resp := []
  tlb : List (Nat × Tlb) := []
  cmp : List (Nat × Cmp) := []
  kill : List Nat := []
  mmio : Bool := false

def Act.inp (c : Cfg) (width : Nat) (y : Sys) (a : Act) : In :=
  { mmio := a.mmio, resp := a.resp, wake := fun _ => false, scPorts := 0, reqs := a.reqs,
    tlb := fun l => (a.tlb.find? fun e => e.1 = l).map (·.2),
    cmp := fun l => match a.cmp.find? fun e => e.1 = l with
      | some (_, .bad) => .retry
      | some (_, r) => r
      | none => .retry,
    alloc := (y.s.offer c width).take a.alloc, flush := none,
    kill := if a.kill = [] then none else some (fun l => a.kill.contains l, false), storeGo := false }

def Act.good (y : Sys) (a : Act) : Bool :=
  (a.resp.map (·.id)).isPerm (y.pend.map (·.1)) && decide a.reqs.Nodup && a.reqs.all fun l => y.s.st l = .allocated

theorem Act.valid {c : Cfg} {width : Nat} {y : Sys} {a : Act} (h : a.good y = true) : Valid c width y (a.inp c width y) := by
  simp only [Act.good, Bool.and_eq_true, List.all_eq_true, decide_eq_true_eq] at h
  refine ⟨List.isPerm_iff.mp h.1.1, ⟨h.1.2, h.2⟩, fun l => ?_, ⟨_, rfl⟩⟩
  show (match a.cmp.find? fun e => decide (e.1 = l) with
      | some (_, .bad) => Cmp.retry
      | some (_, r) => r
      | none => .retry) ≠ .bad
  split
  · simp
  · next r hr _ => exact fun e => hr e
  · simp

/-- A run; `none` when a cycle is not allowed or fails. -/
def playLists (c : Cfg) (width : Nat) : Sys → List Act → Option Sys
  | y, [] => some y
  | y, a :: as => if a.good y then (y.cycle c (a.inp c width y)).bind fun y' => playLists c width y' as else none

theorem playLists_reach {c : Cfg} {width : Nat} : ∀ (as : List Act) {y y' : Sys}, Reach c width y → playLists c width y as = some y' →
    Reach c width y'
  | [], _, _, h, e => by cases e; exact h
  | a :: as, y, y', h, e => by
    rw [playLists] at e
    split at e
    · next hg =>
      cases hc : y.cycle c (a.inp c width y) with
      | none => rw [hc] at e; simp at e
      | some y1 => rw [hc] at e; exact playLists_reach as (.step _ h (Act.valid hg) hc) e
    · simp at e

/-- Six loads: one misses its translation, one is answered with a replay, one waits for a store, one takes a
page fault, one goes to a device; the answers of the last cycle come in the other order. -/
def listRun : List Act :=
  [{ alloc := 2 },
   { alloc := 2, reqs := [0, 1], tlb := [(0, .hit), (1, .miss)], cmp := [(0, .cache)] },
   { alloc := 2, reqs := [3, 2], resp := [⟨0, false, 2⟩], tlb := [(1, .hit), (3, .hit)], cmp := [(1, .cache), (3, .retry)] },
   { reqs := [4, 5], resp := [⟨17, true, 0⟩], tlb := [(2, .hit), (4, .hit)], cmp := [(2, .mmio true), (3, .retry), (4, .cache)] },
   { alloc := 1, resp := [⟨50, true, 0⟩, ⟨32, false, 0⟩], tlb := [(5, .fault)], cmp := [(3, .forward)] }]

theorem listRun_ok : (playLists smallCfg 2 Sys.init listRun).isSome = true := by decide +kernel

def listEnd : Sys := (playLists smallCfg 2 Sys.init listRun).get listRun_ok

theorem listEnd_reach : Reach smallCfg 2 listEnd :=
  playLists_reach listRun .init (Option.some_get listRun_ok).symm

/-- Load 4 has just been reported, 0 asks the cache again, 1 is dispatched anew, 2 waits for the device, 3 and 5 wait
to be reported. -/
theorem listEnd_st : (List.range 6).map listEnd.s.st = [.waitDcacheResp, .allocated, .waitMmioResp, .readyToWb, .empty, .pageFault] := by
  decide +kernel

theorem listEnd_places : (List.range 6).map (placesOf smallCfg listEnd.s) = [1, 0, 1, 1, 0, 1] := by decide +kernel

theorem listEnd_out : listEnd.wb = [4] ∧ listEnd.pend = [(64, 0)] := by decide +kernel

theorem listEnd_fin : slotsWith 16 listEnd.s.fin 3 = 1 ∧ slotsWith 16 listEnd.s.fin 5 = 1 := by decide +kernel

/-- The hypotheses of the cycle theorems are met at the end of the run: the outstanding request is answered. -/
example : ∃ x, Valid smallCfg 2 listEnd x ∧ x.resp = [⟨64, true, 0⟩] ∧ x.reqs = [1] :=
  ⟨Act.inp smallCfg 2 listEnd { resp := [⟨64, true, 0⟩], reqs := [1] }, Act.valid (by decide +kernel), rfl, rfl⟩

/-- Every reachable state can go on for ever, with a report port free in every cycle, so the hypotheses of
`C114_reported` are met from every reachable state with a load in the report list (`listEnd_fin`). -/
theorem goOn {c : Cfg} (hc : GoodCfg c) (hl : 0 < c.ldu) {width : Nat} {y : Sys} (h : Reach c width y) :
    ∃ (ys : Nat → Sys) (xs : Nat → In), ys 0 = y ∧ (∀ t, Valid c width (ys t) (xs t)) ∧
      (∀ t, (ys t).cycle c (xs t) = some (ys (t + 1))) ∧ ∀ t, (xs t).scPorts < c.ldu := by
  have nx : ∀ z : { z : Sys // Reach c width z }, ∃ (x : In) (z' : { z : Sys // Reach c width z }),
      Valid c width z.1 x ∧ z.1.cycle c x = some z'.1 ∧ x.scPorts < c.ldu := by
    intro z
    have hv : Valid c width z.1 (Act.inp c width z.1 { resp := z.1.pend.map fun r => ⟨r.1, true, 0⟩ }) := by
      refine Act.valid ?_
      simp only [Act.good, List.map_map, List.all_nil, Bool.and_true, Bool.and_eq_true, decide_eq_true_eq]
      exact ⟨List.isPerm_iff.mpr (List.Perm.refl _), List.nodup_nil⟩
    obtain ⟨z', hz'⟩ := C114_no_abort hc z.2 hv
    exact ⟨_, ⟨z', .step _ z.2 hv hz'⟩, hv, hz', hl⟩
  let f : Nat → { z : Sys // Reach c width z } := fun t => Nat.rec ⟨y, h⟩ (fun _ z => (nx z).choose_spec.choose) t
  exact ⟨fun t => (f t).1, fun t => (nx (f t)).choose, rfl, fun t => (nx (f t)).choose_spec.choose_spec.1,
    fun t => (nx (f t)).choose_spec.choose_spec.2.1, fun t => (nx (f t)).choose_spec.choose_spec.2.2⟩

example : ∃ (ys : Nat → Sys) (xs : Nat → In), Reach smallCfg 2 (ys 0) ∧ (∀ t, Valid smallCfg 2 (ys t) (xs t)) ∧
    (∀ t, (ys t).cycle smallCfg (xs t) = some (ys (t + 1))) ∧ (∀ t, t < 16 → (xs t).scPorts < 2) ∧
    slotsWith 16 (ys 0).s.fin 5 = 1 := by
  obtain ⟨ys, xs, h1, h2, h3, h4⟩ := goOn (c := smallCfg) ⟨by decide, by decide, by decide, by decide⟩ (by decide) listEnd_reach
  exact ⟨ys, xs, h1 ▸ listEnd_reach, h2, h3, fun t _ => h4 t, h1 ▸ listEnd_fin.2⟩

end Verif.Props
